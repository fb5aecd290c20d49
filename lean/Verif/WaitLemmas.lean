import Verif.Wait
import Verif.CowSession
/-! # Lemmas about sessions that wait for their file -/

set_option autoImplicit false

namespace Nbd.Spec

/-- The commands that work while the file is not there: reads within one block, writes and write-zeroes of whole blocks (at most
64 MiB of zeroes), flushes; no trims. -/
structure Whole (c : Cmd) : Prop where
  read : c.code = 0 → 0 < c.len ∧ c.start / 4096 = (c.start + c.len - 1) / 4096
  write : c.code = 1 → 0 < c.len ∧ c.start % 4096 = 0 ∧ c.len % 4096 = 0
  zeroes : c.code = 6 → c.start % 4096 = 0 ∧ c.len % 4096 = 0 ∧ c.len ≤ 64 * 1024 * 1024
  notrim : c.code ≠ 4

/-- A step of a flat array that never fails, except that a read may. -/
def PatientStep (size : Nat) (ro structured : Bool) (f : Flat) (c : Cmd) (rs : List Reply) (g : Flat) : Prop :=
  SureStep size ro structured f c rs g ∨
  (c.code = 0 ∧ c.start + c.len ≤ size ∧ ReadFailure c.cookie c.start (f.read c.start c.len) structured rs ∧ g = f)

/-- A sequence of such steps. -/
inductive PatientRun (size : Nat) (ro structured : Bool) : Flat → List Cmd → List Reply → Flat → Prop where
  | nil (f : Flat) : PatientRun size ro structured f [] [] f
  | cons (f g k : Flat) (c : Cmd) (rs : List Reply) (cs : List Cmd) (rest : List Reply)
      (h1 : PatientStep size ro structured f c rs g) (h2 : PatientRun size ro structured g cs rest k) :
      PatientRun size ro structured f (c :: cs) (rs ++ rest) k

/-- How many blocks a command writes. -/
def Cmd.blocks (c : Cmd) : Nat := if c.code = 1 ∨ c.code = 6 then c.len / 4096 else 0

end Nbd.Spec

namespace Nbd

open Spec (Sent)

/-- What the session's file would hold if it were there. -/
def waitView (fh : Nat) (cl : Client) (w : World) : Flat := fun i =>
  if i < cl.ex.exportsize then
    match cl.difmap[i / 4096]? with
    | some m => if m ≠ NOPAGE then content w (.fd cl.difffile, m * 4096 + i % 4096) else content w (.fd fh, i)
    | none => content w (.fd fh, i)
  else 0

structure WaitOk (fh : Nat) (cl : Client) (w : World) : Prop where
  nocow : has cl.ex.flags F_COPYONWRITE = false
  flag : has cl.ex.flags F_WAIT = true
  nosparse : has cl.ex.flags F_SPARSE = false
  nosplice : has cl.ex.flags F_SPLICE = false
  notree : has cl.ex.flags F_TREEFILES = false
  waiting : cl.waiting = true
  whole : cl.ex.exportsize % 4096 = 0
  small : cl.ex.exportsize ≤ 2 ^ 31
  len : cl.difmap.length = cl.ex.exportsize / 4096
  file : ∃ f, w.files (.fd cl.difffile) = some f ∧ cl.difffilelen * 4096 ≤ f.size
  pos : cl.diffpos = cl.difffilelen * 4096
  bound : cl.difffilelen ≤ 2 ^ 20
  slots : ∀ p m : Nat, cl.difmap[p]? = some m → m ≠ NOPAGE → m < cl.difffilelen
  inj : ∀ p q m : Nat, cl.difmap[p]? = some m → cl.difmap[q]? = some m → m ≠ NOPAGE → p = q
  apart : fh ≠ cl.difffile
  real : ∃ f, w.files (.fd fh) = some f

structure WaitKept (fh k : Nat) (cl : Client) (w : World) (cl' : Client) (w' : World) : Prop where
  ok : WaitOk fh cl' w'
  seat : SameSeat cl cl'
  orc : w'.orc = w.orc
  used : cl'.difffilelen ≤ cl.difffilelen + k

theorem WaitKept.trans {fh k k' : Nat} {cl cl' cl2 : Client} {w w' w2 : World} (h : WaitKept fh k cl w cl' w')
    (h' : WaitKept fh k' cl' w' cl2 w2) : WaitKept fh (k + k') cl w cl2 w2 :=
  ⟨h'.ok, h.seat.trans h'.seat, h'.orc.trans h.orc, by have := h.used; have := h'.used; omega⟩

theorem WaitOk.of_files {fh : Nat} {cl : Client} {w w' : World} (h : WaitOk fh cl w) (hf : w'.files = w.files) :
    WaitOk fh cl w' := { h with file := by rw [hf]; exact h.file, real := by rw [hf]; exact h.real }

theorem waitView_of_content (fh : Nat) (cl : Client) {w w' : World} (h : SameContent w w') :
    waitView fh cl w' = waitView fh cl w := by
  funext i
  unfold waitView
  split
  · split
    · split
      · exact h _
      · exact h _
    · exact h _
  · rfl

theorem waitView_of_files (fh : Nat) (cl : Client) {w w' : World} (h : w'.files = w.files) :
    waitView fh cl w' = waitView fh cl w := waitView_of_content fh cl (fun x => by unfold content; rw [h])

theorem waitView_dirty {fh : Nat} {cl : Client} {w : World} {p m : Nat} (hm : cl.difmap[p]? = some m) (hn : m ≠ NOPAGE)
    (i : Nat) (hi : i / 4096 = p) (hr : i < cl.ex.exportsize) :
    waitView fh cl w i = content w (.fd cl.difffile, m * 4096 + i % 4096) := by
  unfold waitView
  rw [if_pos hr, hi, hm]
  simp only []
  rw [if_pos hn]

theorem waitView_clean {fh : Nat} {cl : Client} {w : World} {p : Nat} (hm : cl.difmap[p]? = some NOPAGE)
    (i : Nat) (hi : i / 4096 = p) (hr : i < cl.ex.exportsize) : waitView fh cl w i = content w (.fd fh, i) := by
  unfold waitView
  rw [if_pos hr, hi, hm]
  simp only []
  rw [if_neg (by simp)]

theorem WaitOk.dirty_lt {fh : Nat} {cl : Client} {w : World} (h : WaitOk fh cl w) {p m : Nat} (hm : cl.difmap[p]? = some m)
    (hn : m ≠ NOPAGE) : m < 2 ^ 20 ∧ m < cl.difffilelen := by
  have h1 := h.slots p m hm hn
  have h2 := h.bound
  omega

theorem WaitOk.sysPread {fh : Nat} {cl : Client} {w : World} (hok : WaitOk fh cl w) (hgen : Generous w) {p m : Nat}
    (hm : cl.difmap[p]? = some m) (hn : m ≠ NOPAGE) (off len : Nat) (hl : off + len ≤ 4096) :
    Nbd.sysPread w (.fd cl.difffile) (diffOffset m off) len =
      (w.step, some ((waitView fh cl w).read (p * 4096 + off) len)) := by
  obtain ⟨hm20, hmlt⟩ := hok.dirty_lt hm hn
  obtain ⟨f, hf, hsz⟩ := hok.file
  obtain ⟨n, hn4, hnext⟩ := hgen w.tick
  have hp : p < cl.difmap.length := (List.getElem?_eq_some_iff.mp hm).1
  rw [hok.len] at hp
  have hwhole := hok.whole
  unfold Nbd.sysPread
  simp only [hf, World.next, hnext, Prod.mk.injEq, Option.some.injEq, true_and]
  rw [diffOffset_small hm20]
  unfold File.pread
  have hmin : min (min n MAX_RW_COUNT) (min len (f.size - (m * 4096 + off))) = len := by
    simp only [MAX_RW_COUNT]
    omega
  rw [hmin]
  apply List.ext_getElem?
  intro i
  rw [Flat.read_getElem?, Flat.read_getElem?]
  split
  · rename_i hi
    rw [waitView_dirty hm hn (p * 4096 + off + i) (by omega) (by omega)]
    unfold content
    simp only [hf]
    have h1 : (p * 4096 + off + i) % 4096 = off + i := by omega
    rw [h1, Nat.add_assoc]
  · rfl

/-- The view is unchanged outside block `p` and is `page` on it. -/
theorem waitView_ext {fh : Nat} {cl cl' : Client} {w w' : World} (p : Nat) (page : List Byte) (hpl : page.length = 4096)
    (hex : cl'.ex = cl.ex) (hp : p * 4096 + 4096 ≤ cl.ex.exportsize)
    (hother : ∀ i, i / 4096 ≠ p → i < cl.ex.exportsize → waitView fh cl' w' i = waitView fh cl w i)
    (hpage : ∀ i, i / 4096 = p → ∀ h : i % 4096 < page.length, waitView fh cl' w' i = page[i % 4096]) :
    waitView fh cl' w' = (waitView fh cl w).write (p * 4096) page := by
  funext i
  by_cases hi : i / 4096 = p
  · have hlt : i % 4096 < page.length := by omega
    rw [hpage i hi hlt]
    conv => rhs; rw [show i = p * 4096 + i % 4096 by omega]
    rw [Flat.write_inside _ _ _ _ hlt]
  · rw [Flat.write_outside _ _ _ _ (by omega)]
    by_cases hr : i < cl.ex.exportsize
    · exact hother i hi hr
    · unfold waitView
      rw [hex, if_neg hr, if_neg hr]

/-- Overwriting a saved block. -/
theorem wait_dirty {fh : Nat} {cl : Client} {w : World} (hok : WaitOk fh cl w) (p m : Nat) (page : List Byte)
    (hpl : page.length = 4096) (hm : cl.difmap[p]? = some m) (hn : m ≠ NOPAGE) (f : File)
    (hf : w.files (.fd cl.difffile) = some f) :
    WaitKept fh 0 cl w cl ((w.step).set (.fd cl.difffile) (f.pwrite (diffOffset m 0) page)) ∧
    waitView fh cl ((w.step).set (.fd cl.difffile) (f.pwrite (diffOffset m 0) page)) =
      (waitView fh cl w).write (p * 4096) page := by
  obtain ⟨hm20, hmlt⟩ := hok.dirty_lt hm hn
  rw [diffOffset_small hm20, Nat.add_zero]
  have hp : p < cl.difmap.length := (List.getElem?_eq_some_iff.mp hm).1
  rw [hok.len] at hp
  generalize hw' : (w.step).set (.fd cl.difffile) (f.pwrite (m * 4096) page) = w'
  have hf' : w'.files (.fd cl.difffile) = some (f.pwrite (m * 4096) page) := by
    rw [← hw']; exact World.set_files_same _ _ _
  have hoth : ∀ id, id ≠ .fd cl.difffile → w'.files id = w.files id := by
    intro id hid; rw [← hw', World.set_files_ne _ _ hid]; rfl
  have hcont : ∀ o, content w' (.fd cl.difffile, o) = f.data.write (m * 4096) page o := by
    intro o; unfold content; simp only [hf']; rfl
  have hcont0 : ∀ o, content w (.fd cl.difffile, o) = f.data o := by
    intro o; unfold content; simp only [hf]
  have hreal : ∀ o, content w' (.fd fh, o) = content w (.fd fh, o) := by
    intro o; unfold content; rw [hoth _ (by simpa using hok.apart)]
  refine ⟨⟨{ hok with file := ?_, real := ?_ }, .refl _, by rw [← hw']; rfl, by omega⟩, ?_⟩
  · obtain ⟨f0, h1, h2⟩ := hok.file
    rw [hf] at h1; cases h1
    refine ⟨_, hf', ?_⟩
    simp only [File.pwrite]
    split <;> omega
  · rw [hoth _ (by simpa using hok.apart)]; exact hok.real
  · apply waitView_ext p page hpl rfl (by omega)
    · intro i hip hi
      unfold waitView
      rw [if_pos hi, if_pos hi]
      cases hmi : cl.difmap[i / 4096]? with
      | none => exact hreal i
      | some mi =>
        simp only []
        split
        · rename_i hne
          have hmm : mi ≠ m := by
            intro h0
            subst h0
            exact hip (hok.inj (i / 4096) p mi hmi hm hne)
          rw [hcont, hcont0, Flat.write_outside]
          omega
        · exact hreal i
    · intro i hip hlt
      rw [waitView_dirty hm hn i hip (by omega), hcont, Flat.write_inside _ _ _ _ hlt]

/-- Appending a block. -/
theorem wait_clean {fh : Nat} {cl : Client} {w : World} (hok : WaitOk fh cl w) (p : Nat) (page : List Byte)
    (hpl : page.length = 4096) (hm : cl.difmap[p]? = some NOPAGE) (hroom : cl.difffilelen + 1 ≤ 2 ^ 20) (f : File)
    (hf : w.files (.fd cl.difffile) = some f) :
    WaitKept fh 1 cl w (cl.appended p) ((w.step).set (.fd cl.difffile) (f.pwrite cl.diffpos page)) ∧
    waitView fh (cl.appended p) ((w.step).set (.fd cl.difffile) (f.pwrite cl.diffpos page)) =
      (waitView fh cl w).write (p * 4096) page := by
  have hlt : p < cl.difmap.length := (List.getElem?_eq_some_iff.mp hm).1
  have hp := hlt
  rw [hok.len] at hp
  generalize hw' : (w.step).set (.fd cl.difffile) (f.pwrite cl.diffpos page) = w'
  have hf' : w'.files (.fd cl.difffile) = some (f.pwrite cl.diffpos page) := by
    rw [← hw']; exact World.set_files_same _ _ _
  have hoth : ∀ id, id ≠ .fd cl.difffile → w'.files id = w.files id := by
    intro id hid; rw [← hw', World.set_files_ne _ _ hid]; rfl
  have hpos := hok.pos
  have hcont : ∀ o, content w' (.fd cl.difffile, o) = f.data.write (cl.difffilelen * 4096) page o := by
    intro o; unfold content; simp only [hf', ← hpos]; rfl
  have hcont0 : ∀ o, content w (.fd cl.difffile, o) = f.data o := by
    intro o; unfold content; simp only [hf]
  have hreal : ∀ o, content w' (.fd fh, o) = content w (.fd fh, o) := by
    intro o; unfold content; rw [hoth _ (by simpa using hok.apart)]
  have hnl : cl.difffilelen ≠ NOPAGE := by unfold NOPAGE; omega
  have hset : ∀ q : Nat, (cl.difmap.set p cl.difffilelen)[q]? = if q = p then some cl.difffilelen else cl.difmap[q]? := by
    intro q
    by_cases hq : q = p
    · subst hq; rw [if_pos rfl, List.getElem?_set_self hlt]
    · rw [if_neg hq, List.getElem?_set_ne (Ne.symm hq)]
  refine ⟨⟨{ hok with len := ?_, file := ?_, pos := ?_, bound := ?_, slots := ?_, inj := ?_, real := ?_ }, ⟨rfl, rfl, rfl, rfl, rfl⟩,
    by rw [← hw']; rfl, Nat.le_refl _⟩, ?_⟩
  · show (cl.difmap.set p cl.difffilelen).length = _
    rw [List.length_set]; exact hok.len
  · obtain ⟨f0, h1, h2⟩ := hok.file
    rw [hf] at h1; cases h1
    refine ⟨_, hf', ?_⟩
    show (cl.difffilelen + 1) * 4096 ≤ _
    simp only [File.pwrite]
    have hne : page ≠ [] := by intro h0; rw [h0] at hpl; simp at hpl
    rw [if_neg hne, hpl, hpos, Nat.add_mul, Nat.one_mul]
    exact Nat.le_max_right _ _
  · show cl.diffpos + 4096 = (cl.difffilelen + 1) * 4096
    rw [hpos, Nat.add_mul, Nat.one_mul]
  · exact hroom
  · intro q m hq hne
    have hq : (cl.difmap.set p cl.difffilelen)[q]? = some m := hq
    show m < cl.difffilelen + 1
    rw [hset] at hq
    split at hq
    · cases hq; omega
    · have := hok.slots q m hq hne; omega
  · intro q q' m h1 h2 hne
    have h1 : (cl.difmap.set p cl.difffilelen)[q]? = some m := h1
    have h2 : (cl.difmap.set p cl.difffilelen)[q']? = some m := h2
    rw [hset] at h1 h2
    split at h1 <;> split at h2
    · omega
    · cases h1; have := hok.slots q' _ h2 hne; omega
    · cases h2; have := hok.slots q _ h1 hne; omega
    · exact hok.inj q q' m h1 h2 hne
  · rw [hoth _ (by simpa using hok.apart)]; exact hok.real
  · have hwhole := hok.whole
    have hcap : p * 4096 + 4096 ≤ cl.ex.exportsize := by
      clear hm
      omega
    apply waitView_ext (cl := cl) (cl' := cl.appended p) (w := w) (w' := w') p page hpl rfl hcap
    · intro i hip hi
      unfold waitView
      rw [if_pos hi]
      show (if i < cl.ex.exportsize then (match (cl.difmap.set p cl.difffilelen)[i / 4096]? with
        | some m => if m ≠ NOPAGE then content w' (.fd cl.difffile, m * 4096 + i % 4096) else content w' (.fd fh, i)
        | none => content w' (.fd fh, i)) else 0) = _
      rw [if_pos hi, hset, if_neg hip]
      cases hmi : cl.difmap[i / 4096]? with
      | none => exact hreal i
      | some mi =>
        simp only []
        split
        · rename_i hne
          have := hok.slots _ _ hmi hne
          rw [hcont, hcont0, Flat.write_outside]
          omega
        · exact hreal i
    · intro i hip hlt2
      have hri : i < cl.ex.exportsize := by clear hm; omega
      rw [waitView_dirty (cl := cl.appended p) (p := p) (m := cl.difffilelen)
        (by show (cl.difmap.set p cl.difffilelen)[p]? = _; rw [hset, if_pos rfl]) hnl i hip hri]
      show content w' (.fd cl.difffile, cl.difffilelen * 4096 + i % 4096) = _
      rw [hcont, Flat.write_inside _ _ _ _ hlt2]

/-- The page loop of a write of whole blocks. -/
theorem expwritePages_wait (fh n : Nat) : ∀ (cl : Client) (w : World) (pb : List (Option Byte)) (p : Nat) (buf : List Byte),
    WaitOk fh cl w → Generous w → pb.length = 4096 → buf.length = n * 4096 → p * 4096 + buf.length ≤ cl.ex.exportsize →
    cl.difffilelen + n ≤ 2 ^ 20 →
    ∃ cl' w', expwritePages n cl w pb p (p * 4096) buf = .val (cl', w', true) ∧ WaitKept fh n cl w cl' w' ∧
      waitView fh cl' w' = (waitView fh cl w).write (p * 4096) buf := by
  induction n with
  | zero =>
    intro cl w pb p buf hok _ _ hl _ _
    have : buf = [] := List.length_eq_zero_iff.mp (by omega)
    subst this
    refine ⟨cl, w, by rw [expwritePages], ⟨hok, .refl _, rfl, by omega⟩, ?_⟩
    rw [Flat.write_nil]
  | succ n ih =>
    intro cl w pb p buf hok hgen hpb hl hr hroom
    have hpage : p < cl.difmap.length := by rw [hok.len]; omega
    have hnext : (p + 1) * 4096 + n * 4096 ≤ cl.ex.exportsize := by
      rw [hl, Nat.succ_mul] at hr
      rw [Nat.succ_mul, Nat.add_assoc, Nat.add_comm 4096]
      exact hr
    obtain ⟨m, hm⟩ : ∃ m, cl.difmap[p]? = some m := ⟨_, List.getElem?_eq_getElem hpage⟩
    have hpl : pageLen (p * 4096 - p * 4096) buf.length = 4096 := by
      unfold pageLen; rw [show DIFFPAGESIZE = 4096 from rfl]; split <;> omega
    have htl : (buf.take 4096).length = 4096 := by rw [List.length_take]; omega
    have hdl : (buf.drop 4096).length = n * 4096 := by rw [List.length_drop]; omega
    have hrest : ∀ (cl1 : Client) (w1 : World) (pb1 : List (Option Byte)) (k : Nat), k ≤ 1 → pb1.length = 4096 →
        WaitKept fh k cl w cl1 w1 → waitView fh cl1 w1 = (waitView fh cl w).write (p * 4096) (buf.take 4096) →
        ∃ cl' w', expwritePages n cl1 w1 pb1 (p + 1) (p * 4096 + 4096) (buf.drop 4096) = .val (cl', w', true) ∧
          WaitKept fh (n + 1) cl w cl' w' ∧ waitView fh cl' w' = (waitView fh cl w).write (p * 4096) buf := by
      intro cl1 w1 pb1 k hk hp1 hst hv
      obtain ⟨cl', w', h1, h2, h3⟩ := ih cl1 w1 pb1 (p + 1) (buf.drop 4096) hst.ok (hgen.of_orc hst.orc) hp1 hdl
        (by rw [hdl, hst.seat.ex]; exact hnext) (by have := hst.used; omega)
      rw [show (p + 1) * 4096 = p * 4096 + 4096 by omega] at h1 h3
      have h4 := hst.trans h2
      refine ⟨cl', w', h1, ⟨h4.ok, h4.seat, h4.orc, by have := h4.used; omega⟩, ?_⟩
      rw [h3, hv]
      conv => rhs; rw [← List.take_append_drop 4096 buf]
      rw [Flat.write_append, htl]
    obtain ⟨f, hf, hfs⟩ := hok.file
    rw [expwritePages]
    rw [show DIFFPAGESIZE = 4096 from rfl, hpl, hm]
    simp only [Nat.sub_self]
    by_cases hne : m = NOPAGE
    · subst hne
      rw [if_neg (by simp), hok.nosparse]
      simp only [Bool.false_eq_true, if_false, ne_eq, not_true_eq_false, or_self, false_and]
      have hmod : (cl.difffilelen + 1) % 2 ^ 32 = cl.difffilelen + 1 := Nat.mod_eq_of_lt (by omega)
      rw [hmod]
      have hbs : bufSet pb 0 (buf.take 4096) = (buf.take 4096).map some := by
        unfold bufSet
        rw [List.take_zero, htl, List.drop_of_length_le (by omega)]
        simp
      rw [hbs, allInit_map]
      simp only []
      have hda : diffAppend (⟨cl.ex, cl.waiting, cl.difmap.set p cl.difffilelen, cl.difffilelen + 1, cl.difffile,
          cl.diffpos, cl.structured, cl.tls⟩ : Client) w (buf.take 4096) =
          ((w.step).set (.fd cl.difffile) (f.pwrite cl.diffpos (buf.take 4096)), cl.appended p, some 4096) := by
        unfold diffAppend
        simp only []
        rw [sysPwrite_generous hgen cl.difffile f hf cl.diffpos _ (by omega), htl]
        simp only [Client.appended]
      rw [hda]
      simp only []
      rw [if_neg (by simp)]
      obtain ⟨h1, h2⟩ := wait_clean hok p (buf.take 4096) htl hm (by omega) f hf
      exact hrest _ _ _ 1 (by omega) (by rw [List.length_map]; exact htl) h1 h2
    · rw [if_pos hne, sysPwrite_generous hgen cl.difffile f hf _ _ (by omega), htl]
      simp only []
      rw [if_neg (by simp)]
      obtain ⟨h1, h2⟩ := wait_dirty hok p m (buf.take 4096) htl hm hne f hf
      exact hrest _ _ _ 0 (by omega) hpb h1 h2

theorem WaitOk.sysFsync {fh : Nat} {cl : Client} {w : World} (hok : WaitOk fh cl w) :
    WaitKept fh 0 cl w cl (Nbd.sysFsync w (.fd cl.difffile)).1 := by
  have hne : FileId.fd fh ≠ .fd cl.difffile := by simpa using hok.apart
  refine ⟨{ hok with file := ?_, real := ?_ }, .refl _, ?_, by omega⟩
  · obtain ⟨f, hf, hs⟩ := hok.file
    unfold Nbd.sysFsync
    rw [hf]
    simp only []
    split
    · exact ⟨f, hf, hs⟩
    · exact ⟨_, World.set_files_same _ _ _, hs⟩
  · unfold Nbd.sysFsync
    split
    · exact hok.real
    · split
      · exact hok.real
      · rw [World.set_files_ne _ _ hne]; exact hok.real
  · unfold Nbd.sysFsync
    split
    · rfl
    · split <;> rfl

theorem expwrite_wait {fh : Nat} {cl : Client} {w : World} (hok : WaitOk fh cl w) (hgen : Generous w) (a : Nat) (buf : List Byte)
    (fua : Bool) (hl : 0 < buf.length) (ha : a % 4096 = 0) (hb : buf.length % 4096 = 0)
    (hr : a + buf.length ≤ cl.ex.exportsize) (hroom : cl.difffilelen + buf.length / 4096 ≤ 2 ^ 20) :
    ∃ cl' w', expwrite cl w a buf fua = .val (cl', w', true) ∧ WaitKept fh (buf.length / 4096) cl w cl' w' ∧
      waitView fh cl' w' = (waitView fh cl w).write a buf := by
  have hsz := hok.small
  have hpg : cl.paged = true := by unfold Client.paged; rw [hok.waiting]; simp
  have hpc : pageCount a buf.length = buf.length / 4096 := by
    unfold pageCount
    rw [lastPage_pos hl (by omega), show DIFFPAGESIZE = 4096 from rfl]
    omega
  obtain ⟨cl', w', h1, h2, h3⟩ := expwritePages_wait fh (buf.length / 4096) cl w (List.replicate DIFFPAGESIZE none)
    (a / 4096) buf hok hgen (by rw [List.length_replicate]; rfl) (by omega) (by omega) hroom
  rw [show a / 4096 * 4096 = a by omega] at h1 h3
  unfold expwrite
  rw [hpg, if_pos rfl, hpc, show a / DIFFPAGESIZE = a / 4096 from rfl, h1]
  simp only []
  split
  · refine ⟨_, _, rfl, h2.trans h2.ok.sysFsync, ?_⟩
    rw [waitView_of_content fh cl' (sysFsync_content _ _)]; exact h3
  · exact ⟨_, _, rfl, h2, h3⟩

/-- A read within one block, while waiting: the saved block if there is one, else a failure. -/
theorem handleRead_wait (e : Endian) {fh : Nat} {cl : Client} {w : World} (hok : WaitOk fh cl w) (hgen : Generous w) (r : Req)
    (hf : r.type < 262144) (hl : 0 < r.len) (hone : r.start / 4096 = (r.start + r.len - 1) / 4096)
    (hr : r.start + r.len ≤ cl.ex.exportsize) :
    ∃ w' msgs rs, handleRead e cl w r = .val (w', msgs) ∧ w'.files = w.files ∧ w'.orc = w.orc ∧ Encodes msgs rs ∧
      (Spec.ReadAnswer r.cookie r.start ((waitView fh cl w).read r.start r.len) cl.structured rs ∨
       Spec.ReadFailure r.cookie r.start ((waitView fh cl w).read r.start r.len) cl.structured rs) := by
  have hsz := hok.small
  have hwhole := hok.whole
  have hpg : cl.paged = true := by unfold Client.paged; rw [hok.waiting]; simp
  have hdf : has r.type CMD_FLAG_DF = false := has_df_of_flags (by omega)
  have hpc : pageCount r.start r.len = 1 := by
    unfold pageCount
    rw [lastPage_pos hl (by omega), show DIFFPAGESIZE = 4096 from rfl]
    omega
  have hpl : pageLen (r.start - r.start / 4096 * 4096) r.len = r.len := by
    unfold pageLen; rw [show DIFFPAGESIZE = 4096 from rfl]; split <;> omega
  have hpage : r.start / 4096 < cl.difmap.length := by rw [hok.len]; omega
  obtain ⟨m, hm⟩ : ∃ m, cl.difmap[r.start / 4096]? = some m := ⟨_, List.getElem?_eq_getElem hpage⟩
  have hex : ∃ w' c' ok, expread cl w (initCtx cl r) = .val (w', c', ok) ∧ w'.files = w.files ∧ w'.orc = w.orc ∧
      (ok = false → c'.chunks = []) ∧ c'.structured = cl.structured ∧ c'.df = false ∧
      (ok = true → Got (waitView fh cl w) (initCtx cl r) c' r.len) := by
    unfold expread
    rw [hpg, if_pos rfl]
    have hone' : pageCount ((initCtx cl r).start + (initCtx cl r).curOff) (initCtx cl r).reqLen = 0 + 1 := hpc
    rw [hone', expreadPages]
    have hs : (initCtx cl r).start + (initCtx cl r).curOff = r.start := rfl
    have hl2 : (initCtx cl r).reqLen = r.len := rfl
    rw [hs, hl2, show DIFFPAGESIZE = 4096 from rfl, hpl, hm]
    simp only []
    by_cases hne : m = NOPAGE
    · subst hne
      rw [if_neg (by simp), hok.waiting, if_pos rfl]
      exact ⟨_, _, _, rfl, rfl, rfl, fun _ => rfl, rfl, rfl, by simp⟩
    · rw [if_pos hne, hok.sysPread hgen hm hne _ r.len (by omega)]
      simp only []
      rw [show r.start / 4096 * 4096 + (r.start - r.start / 4096 * 4096) = r.start by omega]
      have hdl : ∃ c', (initCtx cl r).deliver ((waitView fh cl w).read r.start r.len) = .val c' ∧
          Got (waitView fh cl w) (initCtx cl r) c' r.len := by
        unfold ReadCtx.deliver
        rw [Flat.read_length]
        cases hc : (initCtx cl r).chunked with
        | true =>
          have hcl : (initCtx cl r).curLen = r.len := rfl
          rw [if_pos rfl, if_neg (by omega)]
          refine ⟨_, rfl, rfl, rfl, rfl, by simp [hc], by simp, _, rfl, by simp [hc], ?_⟩
          intro _
          have h1 := Spec.Tiles.cons r.start ((waitView fh cl w).read r.start r.len) [] []
            (by intro h0; have := congrArg List.length h0; simp at this; omega)
            (by rw [Flat.read_length]; omega) (.nil _)
          rw [List.append_nil] at h1
          exact h1
        | false =>
          have hst : cl.structured = false := by
            simp only [ReadCtx.chunked, initCtx, Bool.not_false, Bool.and_true] at hc
            exact hc
          have hb : (initCtx cl r).curOff + r.len ≤ (initCtx cl r).buf.length := by simp [initCtx, hst]
          rw [if_neg (by simp), if_neg (by omega)]
          exact ⟨_, rfl, rfl, rfl, rfl, fun _ => rfl, by simp [hc], [], by simp, by simp, by simp [hc]⟩
      obtain ⟨c', hd, hgot⟩ := hdl
      rw [hd]
      simp only []
      rw [if_neg (by rw [Flat.read_length]; simp), expreadPages]
      exact ⟨_, _, _, rfl, rfl, rfl, by simp, hgot.structured, hgot.df, fun _ => hgot⟩
  obtain ⟨w', c', ok, hex, hfl, ho, hfail, hcst, hcdf, hgot⟩ := hex
  have hcr : ∃ ms, completeRead e c' r.cookie (if ok then none else some (nbdErrno e w'.errno)) = .val ms := by
    unfold completeRead
    rw [hcst, hcdf]
    by_cases hst : cl.structured = true
    · rw [if_pos hst]
      cases ok <;> exact ⟨_, rfl⟩
    · have hst : cl.structured = false := by simpa using hst
      rw [if_neg (by simp [hst])]
      cases ok with
      | false => exact ⟨_, rfl⟩
      | true =>
        have hbf := (hgot rfl).buf (by simp [ReadCtx.chunked, initCtx, hst])
        simp only [initCtx, hst, Nat.add_zero, Bool.not_false, if_true] at hbf
        rw [bufSet_all _ _ (by simp)] at hbf
        rw [hbf]
        simp only [if_true, allInit_map]
        exact ⟨_, rfl⟩
  obtain ⟨ms, hcr⟩ := hcr
  have hnr : ∃ msgs, handleNormalRead e cl w r = .val (w', msgs) := by
    unfold handleNormalRead
    rw [hdf]
    simp only [Bool.and_false, Bool.false_and, Bool.false_eq_true, if_false, Bool.false_or]
    have hex' := hex
    unfold initCtx at hex'
    rw [hex']
    simp only []
    rw [hcr]
    exact ⟨_, rfl⟩
  obtain ⟨msgs, hnr⟩ := hnr
  obtain ⟨c2, ok2, hq2, hx⟩ := handleNormalRead_replies e cl w w' r msgs hdf hnr
  rw [hex] at hq2
  cases hq2
  have hhr : handleRead e cl w r = .val (w', msgs) := by
    unfold handleRead
    rw [hok.nosplice, if_neg (by simp)]
    exact hnr
  cases ok with
  | true =>
    rw [if_pos rfl] at hx
    have hgot := hgot rfl
    obtain ⟨cs, k1, k2, k3⟩ := hgot.chunks
    simp only [initCtx, List.nil_append, Nat.add_zero] at k1 k2 k3
    rcases hx with ⟨hst, hx⟩ | ⟨hst, data, hi, hll, hx⟩
    · have htile := k3 (by simp [ReadCtx.chunked, hst])
      refine ⟨w', msgs, _, hhr, hfl, ho, hx, .inl ?_⟩
      rw [hst, map_mod_chunks, k1, map_mod_id]
      · exact .structured cs htile
      · intro x hxm
        have := tiles_offsets htile x hxm
        rw [Flat.read_length] at this
        omega
    · refine ⟨w', msgs, _, hhr, hfl, ho, hx, .inl ?_⟩
      have hbf := hgot.buf (by simp [ReadCtx.chunked, initCtx, hst])
      simp only [initCtx, hst, Nat.add_zero, Bool.not_false, if_true] at hbf
      rw [bufSet_all _ _ (by simp)] at hbf
      rw [hbf, allInit_map] at hi
      cases hi
      rw [hst]
      exact .simple
  | false =>
    rw [if_neg (by simp)] at hx
    rcases hx with ⟨hst, hx⟩ | ⟨hst, hx⟩
    · refine ⟨w', msgs, _, hhr, hfl, ho, hx, .inr ?_⟩
      rw [hst, hfail rfl]
      exact .structured 0 _ [] (.nil _) (errnoWire_toNat_mem _) _ (by cases e <;> decide)
    · refine ⟨w', msgs, _, hhr, hfl, ho, hx, .inr ?_⟩
      rw [hst]
      exact .simple _ (errnoWire_toNat_mem _)

theorem wait_range {fh : Nat} {cl : Client} {w : World} {r : Req} (hok : WaitOk fh cl w) (hr : r.len < 2 ^ 32) :
    (badRange cl r = false → r.start + r.len ≤ cl.ex.exportsize) ∧ (badRange cl r = true → cl.ex.exportsize < r.start + r.len) := by
  have := hok.small
  unfold badRange
  simp only [gt_iff_lt, Bool.or_eq_false_iff, decide_eq_false_iff_not, Nat.not_lt, Bool.or_eq_true, decide_eq_true_eq]
  omega

/-- One request of a session that waits. -/
theorem handleRequest_wait (e : Endian) {fh : Nat} (cl : Client) (w : World) (r : Req) (p : Payload) (hok : WaitOk fh cl w)
    (hgen : Generous w) (hlen : r.len < 2 ^ 32) (hfit : p.fits r) (hp : p.piped = false)
    (ht : Spec.Whole (cmdOf r p)) (hroom : cl.difffilelen + (cmdOf r p).blocks ≤ 2 ^ 20) :
    ∃ cl' w' msgs rs, handleRequest e cl w r p = .val (cl', w', msgs) ∧ Encodes msgs rs ∧
      Spec.PatientStep cl.ex.exportsize (badWrite cl) cl.structured (waitView fh cl w) (cmdOf r p) rs (waitView fh cl' w') ∧
      WaitKept fh (cmdOf r p).blocks cl w cl' w' := by
  have hsz := hok.small
  have hsame : WaitKept fh (cmdOf r p).blocks cl w cl w := ⟨hok, .refl _, rfl, by omega⟩
  have hrefuse : ∀ n, errorReply e cl w r n = .val (cl, w, [simpleMsg e r (some (nbdErrno e n))]) ∧
      Encodes [simpleMsg e r (some (nbdErrno e n))] [.simple (errnoWire n).toNat r.cookie []] := by
    intro n
    refine ⟨rfl, ?_⟩
    rw [nbdErrno_eq]; exact simpleMsg_encodes e r (some _)
  have hok0 : Encodes [simpleMsg e r none] [.simple 0 r.cookie []] := simpleMsg_encodes e r none
  have hcode : r.type < 262144 → (cmdOf r p).code = r.type % 65536 := by
    intro h; simp only [cmdOf]; rw [if_pos h]
  have hinr : badRange cl r = false → r.start + r.len ≤ cl.ex.exportsize := (wait_range hok hlen).1
  unfold handleRequest
  simp only []
  split
  · rename_i hfl
    refine ⟨_, _, _, _, (hrefuse EINVAL).1, (hrefuse EINVAL).2, ?_, hsame⟩
    refine .inl <| .refused (c := cmdOf r p) _ (errnoWire_toNat_mem _) (.inl ?_)
    simp only [cmdOf]; rw [if_neg (by omega)]; decide
  · rename_i hfl
    have hf : r.type < 262144 := by omega
    have hcode := hcode hf
    split
    · rename_i h0
      have h0 : r.type % 65536 = 0 := h0
      split
      · rename_i hbr
        refine ⟨_, _, _, _, (hrefuse EINVAL).1, (hrefuse EINVAL).2, ?_, hsame⟩
        exact .inl <| .refused (c := cmdOf r p) _ (errnoWire_toNat_mem _)
          (.inr (.inr ⟨by rw [hcode, h0]; decide, (wait_range hok hlen).2 hbr⟩))
      · rename_i hbr
        have hr := hinr (by simpa using hbr)
        obtain ⟨hl, hone⟩ := ht.read (by rw [hcode, h0])
        obtain ⟨w', msgs, rs, h1, h2, h3, h4, h5⟩ := handleRead_wait e hok hgen r hf hl hone hr
        rw [h1]
        refine ⟨_, _, _, rs, rfl, h4, ?_, ⟨hok.of_files h2, .refl _, h3, by omega⟩⟩
        rw [waitView_of_files fh cl h2]
        rcases h5 with h5 | h5
        · exact .inl (.read (c := cmdOf r p) rs (by rw [hcode, h0]) hr h5)
        · exact .inr ⟨by rw [hcode, h0], hr, h5, rfl⟩
    · split
      · rename_i h1
        have h1 : r.type % 65536 = 1 := h1
        split
        · rename_i hbw
          refine ⟨_, _, _, _, (hrefuse EPERM).1, (hrefuse EPERM).2, ?_, hsame⟩
          exact .inl <| .refused (c := cmdOf r p) _ (errnoWire_toNat_mem _)
            (.inr (.inl ⟨by rw [hcode, h1]; decide, hbw⟩))
        · rename_i hbw
          split
          · rename_i hbr
            refine ⟨_, _, _, _, (hrefuse ENOSPC).1, (hrefuse ENOSPC).2, ?_, hsame⟩
            exact .inl <| .refused (c := cmdOf r p) _ (errnoWire_toNat_mem _)
              (.inr (.inr ⟨by rw [hcode, h1]; decide, (wait_range hok hlen).2 hbr⟩))
          · rename_i hbr
            have hr := hinr (by simpa using hbr)
            obtain ⟨hl, ha, hb⟩ := ht.write (by rw [hcode, h1])
            cases p with
            | nothing => exact absurd h1 hfit
            | pipe bs => cases hp
            | data bs =>
              have hbl : bs.length = r.len := hfit
              have hbk : (cmdOf r (.data bs)).blocks = bs.length / 4096 := by
                unfold Spec.Cmd.blocks
                rw [if_pos (.inl (by rw [hcode, h1])), hbl]; rfl
              rw [hbk] at hroom ⊢
              obtain ⟨cl', w', k1, k2, k3⟩ := expwrite_wait hok hgen r.start bs (has r.type CMD_FLAG_FUA)
                (by rw [hbl]; exact hl) ha (by rw [hbl]; exact hb) (by omega) hroom
              unfold handleWrite
              simp only []
              rw [k1]
              refine ⟨_, _, _, _, rfl, hok0, ?_, k2⟩
              rw [k3]
              exact .inl (.write (c := cmdOf r (.data bs)) (by rw [hcode, h1]) (by simpa using hbw) hr)
      · split
        · rename_i h3
          have h3 : r.type % 65536 = 3 := h3
          obtain ⟨f, hfl, _⟩ := hok.file
          obtain ⟨n, hn4, hnext⟩ := hgen w.tick
          have hs : (expflush cl w).2 = true := by
            unfold expflush
            rw [hok.nocow, if_neg (by simp), hok.flag, if_pos rfl]
            unfold sysFsync
            simp only [hfl, World.next, hnext]
          have hw : (expflush cl w).1 = (sysFsync w (.fd cl.difffile)).1 := by
            unfold expflush
            rw [hok.nocow, if_neg (by simp), hok.flag, if_pos rfl]
          unfold handleFlush
          simp only []
          rw [hs, hw]
          have hk := hok.sysFsync
          refine ⟨_, _, _, _, rfl, hok0, ?_, ⟨hk.ok, hk.seat, hk.orc, by omega⟩⟩
          rw [waitView_of_content fh cl (sysFsync_content _ _)]
          exact .inl (.flush (c := cmdOf r p) (by rw [hcode, h3]))
        · split
          · rename_i h4
            have h4 : r.type % 65536 = 4 := h4
            exact absurd (by rw [hcode, h4]) ht.notrim
          · split
            · rename_i h6
              have h6 : r.type % 65536 = 6 := h6
              split
              · rename_i hbw
                refine ⟨_, _, _, _, (hrefuse EPERM).1, (hrefuse EPERM).2, ?_, hsame⟩
                exact .inl <| .refused (c := cmdOf r p) _ (errnoWire_toNat_mem _)
                  (.inr (.inl ⟨by rw [hcode, h6]; decide, hbw⟩))
              · rename_i hbw
                have hbw : badWrite cl = false := by simpa using hbw
                split
                · rename_i hbr
                  refine ⟨_, _, _, _, (hrefuse ENOSPC).1, (hrefuse ENOSPC).2, ?_, hsame⟩
                  exact .inl <| .refused (c := cmdOf r p) _ (errnoWire_toNat_mem _)
                    (.inr (.inr ⟨by rw [hcode, h6]; decide, (wait_range hok hlen).2 hbr⟩))
                · rename_i hbr
                  have hr := hinr (by simpa using hbr)
                  obtain ⟨ha, hb, hz⟩ := ht.zeroes (by rw [hcode, h6])
                  have ha : r.start % 4096 = 0 := ha
                  have hb : r.len % 4096 = 0 := hb
                  have hz : r.len ≤ 64 * 1024 * 1024 := hz
                  have hbk : (cmdOf r p).blocks = r.len / 4096 := by
                    unfold Spec.Cmd.blocks
                    rw [if_pos (.inr (by rw [hcode, h6]))]; rfl
                  unfold handleWriteZeroes
                  by_cases hl : r.len = 0
                  · rw [expwriteZeroes.eq_def, if_pos hl]
                    refine ⟨_, _, _, _, rfl, hok0, ?_, hsame⟩
                    have h := Spec.SureStep.zeroes (size := cl.ex.exportsize) (structured := cl.structured)
                      (f := waitView fh cl w) (c := cmdOf r p) (by rw [hcode, h6]) hbw hr
                    have hnil : Flat.zeros (cmdOf r p).len = [] := by
                      show Flat.zeros r.len = []
                      rw [hl]; rfl
                    rw [hnil, Flat.write_nil] at h
                    exact .inl h
                  · rw [hbk] at hroom ⊢
                    obtain ⟨cl', w', k1, k2, k3⟩ := expwrite_wait hok hgen r.start (Flat.zeros r.len)
                      (has r.type CMD_FLAG_FUA) (by rw [Flat.zeros_length]; omega) ha (by rw [Flat.zeros_length]; exact hb)
                      (by rw [Flat.zeros_length]; exact hr) (by rw [Flat.zeros_length]; exact hroom)
                    rw [Flat.zeros_length] at k2
                    have hmin : min r.len ZEROCHUNK = r.len := Nat.min_eq_left hz
                    rw [expwriteZeroes.eq_def, if_neg hl]
                    simp only []
                    rw [hmin, k1]
                    simp only []
                    rw [Nat.sub_self, expwriteZeroes.eq_def, if_pos rfl]
                    refine ⟨_, _, _, _, rfl, hok0, ?_, k2⟩
                    rw [k3]
                    exact .inl (.zeroes (c := cmdOf r p) (by rw [hcode, h6]) hbw hr)
            · rename_i n0 n1 n3 n4 n6
              refine ⟨_, _, _, _, (hrefuse EINVAL).1, (hrefuse EINVAL).2, ?_, hsame⟩
              refine .inl <| .refused (c := cmdOf r p) _ (errnoWire_toNat_mem _) (.inl ?_)
              rw [hcode]
              simp only [List.mem_cons, List.not_mem_nil, or_false, not_or]
              exact ⟨n0, n1, n3, n4, n6⟩


end Nbd
