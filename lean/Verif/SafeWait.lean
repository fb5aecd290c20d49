import Verif.SafeCow
import Verif.Wait
/-!
# Arbitrary byte streams on exports that wait for their file

`SafeCow` for the other use of the page map. While the file is not there a block that has not been saved cannot be read, nor written
in part; both are refused. What can crash is a trim, an empty read or write, and a simple read of several saved blocks.
-/
set_option autoImplicit false

namespace Nbd

namespace Spec

/-- A command that does not crash a session of `size` bytes that waits for its file, given the commands before it: it is no trim
inside the export, reads and writes inside it are not empty, and a read with a simple reply does not touch several blocks all of
which were written before. -/
structure Calm (size : Nat) (structured : Bool) (before : List Cmd) (c : Cmd) : Prop where
  notrim : c.code = 4 → size < c.start + c.len
  nonempty : c.code = 0 ∨ c.code = 1 → c.start + c.len ≤ size → 0 < c.len
  read : c.code = 0 → c.start + c.len ≤ size → structured = true ∨ c.start / 4096 = (c.start + c.len - 1) / 4096 ∨
    ∃ q, c.touches q ∧ ¬ Written before q

/-- Every command is calm after the ones before it. -/
def AllCalm (size : Nat) (structured : Bool) (cs : List Cmd) : Prop :=
  ∀ before c after, cs = before ++ c :: after → Calm size structured before c

end Spec

/-- What keeps a waiting session alive. -/
structure WaitSafe (cl : Client) : Prop where
  size : cl.ex.exportsize ≤ 2 ^ 63
  flag : has cl.ex.flags F_WAIT = true
  nosplice : has cl.ex.flags F_SPLICE = false
  waits : cl.waiting = true
  whole : cl.ex.exportsize % 4096 = 0
  len : cl.difmap.length = cl.ex.exportsize / 4096

/-- A step that leaves everything but the page map's entries as it was. -/
structure Remapped (cl cl' : Client) : Prop where
  ex : cl'.ex = cl.ex
  waiting : cl'.waiting = cl.waiting
  difffile : cl'.difffile = cl.difffile
  structured : cl'.structured = cl.structured
  len : cl'.difmap.length = cl.difmap.length

theorem Remapped.refl (cl : Client) : Remapped cl cl := ⟨rfl, rfl, rfl, rfl, rfl⟩

theorem Remapped.trans {cl cl1 cl2 : Client} (h : Remapped cl cl1) (k : Remapped cl1 cl2) : Remapped cl cl2 :=
  ⟨k.ex.trans h.ex, k.waiting.trans h.waiting, k.difffile.trans h.difffile, k.structured.trans h.structured, k.len.trans h.len⟩

theorem WaitSafe.remapped {cl cl' : Client} (h : WaitSafe cl) (m : Remapped cl cl') : WaitSafe cl' :=
  ⟨by rw [m.ex]; exact h.size, by rw [m.ex]; exact h.flag, by rw [m.ex]; exact h.nosplice, m.waiting.trans h.waits,
    by rw [m.ex]; exact h.whole, by rw [m.len, m.ex]; exact h.len⟩

/-! ### Reading -/

theorem expreadPages_calm (cl : Client) (hok : WaitSafe cl) (n : Nat) : ∀ (w : World) (c : ReadCtx) (mapcnt a len : Nat),
    mapcnt = a / 4096 → n = (a + len - 1) / 4096 + 1 - a / 4096 → 0 < len → a + len ≤ cl.ex.exportsize →
    (c.chunked = true → len ≤ c.curLen) → (c.chunked = false → c.curOff + len ≤ c.buf.length) →
    ∃ w' c' ok, expreadPages cl n w c mapcnt a len = .val (w', c', ok) ∧ c'.structured = c.structured ∧ c'.df = c.df ∧
      (ok = true → (∀ q, a / 4096 ≤ q → q ≤ (a + len - 1) / 4096 → Dirty cl q) ∧
        (c.chunked = false → a / 4096 = (a + len - 1) / 4096 → c.curOff = 0 → len = c.buf.length →
          InitTo c'.buf c'.buf.length)) := by
  induction n with
  | zero => intro w c mapcnt a len _ hn hl; omega
  | succ n ih =>
    intro w c mapcnt a len hmap hn hl hr hch hbuf
    have hwhole := hok.whole
    have hlen := hok.len
    have hpage : mapcnt < cl.difmap.length := by rw [hlen]; omega
    obtain ⟨m, hm⟩ : ∃ m, cl.difmap[mapcnt]? = some m := ⟨_, List.getElem?_eq_getElem hpage⟩
    have hoff : a - mapcnt * 4096 = a % 4096 := by omega
    have hpl : pageLen (a % 4096) len = min len (4096 - a % 4096) := by
      unfold pageLen; rw [show DIFFPAGESIZE = 4096 from rfl]; split <;> omega
    generalize hrd : min len (4096 - a % 4096) = rdlen at hpl
    have hrdpos : 0 < rdlen := by omega
    rw [expreadPages]
    rw [show DIFFPAGESIZE = 4096 from rfl, hoff, hpl, hm]
    simp only []
    by_cases hne : m = NOPAGE
    · subst hne
      rw [if_neg (by simp), hok.waits, if_pos rfl]
      exact ⟨_, _, _, rfl, rfl, rfl, by simp⟩
    · rw [if_pos hne]
      obtain ⟨w1, r, hq, _, _, hr1⟩ := sysPread_diff w (.fd cl.difffile) (diffOffset m (a % 4096)) rdlen
      rw [hq]
      cases r with
      | none => exact ⟨_, _, _, rfl, rfl, rfl, by simp⟩
      | some bs =>
      have hble := hr1 bs rfl
      simp only []
      have hdl : ∃ c', c.deliver bs = .val c' ∧ c'.structured = c.structured ∧ c'.df = c.df ∧ c'.curLen = c.curLen ∧
          c'.curOff = c.curOff ∧ c'.buf.length = c.buf.length ∧
          (c.chunked = false → c'.buf = bufSet c.buf c.curOff bs) := by
        unfold ReadCtx.deliver
        cases hc : c.chunked with
        | true =>
          have := hch hc
          rw [if_pos rfl, if_neg (by omega)]
          exact ⟨_, rfl, rfl, rfl, rfl, rfl, rfl, by simp⟩
        | false =>
          have := hbuf hc
          rw [if_neg (by simp), if_neg (by omega)]
          exact ⟨_, rfl, rfl, rfl, rfl, rfl, bufSet_length _ _ _ (by omega), fun _ => rfl⟩
      obtain ⟨c', hd, hs', hdf', hcl, hco, hbl, hbs⟩ := hdl
      rw [hd]
      simp only []
      have hch1 : c'.chunked = c.chunked := by unfold ReadCtx.chunked; rw [hs', hdf']
      by_cases hfull : bs.length = rdlen
      · rw [if_neg (by simpa using hfull)]
        have hdirty : Dirty cl (a / 4096) := by rw [← hmap]; exact ⟨m, hm, hne⟩
        by_cases hrest : len = rdlen
        · have hn0 : n = 0 := by omega
          subst hn0
          refine ⟨w1, c', true, by rw [expreadPages], hs', hdf', fun _ => ⟨?_, ?_⟩⟩
          · intro q h1 h2
            have : q = a / 4096 := by omega
            rw [this]; exact hdirty
          · intro hc _ h0 hlb
            rw [hbl, hbs hc, h0]
            have := bufSet_init (buf := c.buf) (o := 0) (bs := bs) (fun i hi => absurd hi (Nat.not_lt_zero _)) (by omega)
            rw [Nat.zero_add, hfull, ← hrest, hlb] at this
            exact this
        · obtain ⟨w2, c2, ok2, hq2, hs2, hd2, hfin⟩ := ih w1 c' (mapcnt + 1) (a + rdlen) (len - rdlen)
            (by omega) (by omega) (by omega) (by omega)
            (by rw [hch1, hcl]; intro h; have := hch h; omega)
            (by rw [hch1, hco, hbl]; intro h; have := hbuf h; omega)
          refine ⟨w2, c2, ok2, hq2, hs2.trans hs', hd2.trans hdf', fun h => ⟨?_, ?_⟩⟩
          · intro q h1 h2
            by_cases hqa : q = a / 4096
            · rw [hqa]; exact hdirty
            · exact (hfin h).1 q (by omega) (by omega)
          · intro _ hone
            omega
      · rw [if_pos hfull]
        exact ⟨_, _, _, rfl, rfl, rfl, by simp⟩

theorem handleRead_calm (e : Endian) (cl : Client) (w : World) (r : Req) (hok : WaitSafe cl)
    (hf : r.type < 262144) (hl : 0 < r.len) (hr : r.start + r.len ≤ cl.ex.exportsize)
    (hread : cl.structured = true ∨ r.start / 4096 = (r.start + r.len - 1) / 4096 ∨
      ∃ q, r.start / 4096 ≤ q ∧ q ≤ (r.start + r.len - 1) / 4096 ∧ ¬ Dirty cl q) :
    ∃ w' msgs, handleRead e cl w r = .val (w', msgs) := by
  have hsz := hok.size
  have hpg : cl.paged = true := by unfold Client.paged; rw [hok.waits]; simp
  have hdf : has r.type CMD_FLAG_DF = false := has_df_of_flags (by omega)
  have hchs : (initCtx cl r).chunked = cl.structured := by
    simp only [ReadCtx.chunked, initCtx, Bool.not_false, Bool.and_true]
  have hbl : cl.structured = false → (initCtx cl r).buf.length = r.len := by
    intro h; simp [initCtx, h]
  obtain ⟨w', c', ok, hq, hst, hdf', hin⟩ := expreadPages_calm cl hok (pageCount r.start r.len) w (initCtx cl r)
    (r.start / 4096) r.start r.len rfl
    (by unfold pageCount; rw [lastPage_pos hl (by omega)]; rfl) hl hr
    (fun _ => Nat.le_refl _)
    (by
      rw [hchs]
      intro hc
      rw [hbl hc]
      show 0 + r.len ≤ r.len
      omega)
  have hex : expread cl w (initCtx cl r) = .val (w', c', ok) := by
    unfold expread
    rw [hpg, if_pos rfl]
    exact hq
  have hcr : ∃ ms, completeRead e c' r.cookie (if ok then none else some (nbdErrno e w'.errno)) = .val ms := by
    unfold completeRead
    have h1 : c'.structured = cl.structured := hst
    have h2 : c'.df = false := hdf'
    rw [h1, h2]
    by_cases hs : cl.structured = true
    · rw [if_pos hs]
      cases ok <;> exact ⟨_, rfl⟩
    · have hs : cl.structured = false := by simpa using hs
      rw [if_neg (by simp [hs])]
      cases ok with
      | false => exact ⟨_, rfl⟩
      | true =>
        obtain ⟨k1, k2⟩ := hin rfl
        rcases hread with h | h | ⟨q, ha, hb, hnd⟩
        · rw [hs] at h; cases h
        · obtain ⟨data, hd⟩ := allInit_full c'.buf (k2 (by rw [hchs]; exact hs) h rfl (hbl hs).symm)
          simp only [if_true, hd]
          exact ⟨_, rfl⟩
        · exact absurd (k1 q ha hb) hnd
  obtain ⟨ms, hcr⟩ := hcr
  have hnr : ∃ msgs, handleNormalRead e cl w r = .val (w', msgs) := by
    unfold handleNormalRead
    rw [hdf]
    simp only [Bool.and_false, Bool.false_and, Bool.false_eq_true, if_false, Bool.false_or]
    have hex' := hex
    unfold initCtx at hex'
    rw [hex']
    simp only []
    rw [hcr]
    exact ⟨_, rfl⟩
  obtain ⟨msgs, hnr⟩ := hnr
  refine ⟨w', msgs, ?_⟩
  unfold handleRead
  rw [hok.nosplice, if_neg (by simp)]
  exact hnr

/-! ### Writing -/

theorem expwritePages_calm (n : Nat) : ∀ (cl : Client) (w : World) (pb : List (Option Byte)) (mapcnt a : Nat)
    (buf : List Byte), WaitSafe cl → pb.length = 4096 → mapcnt = a / 4096 →
    0 < buf.length → n = (a + buf.length - 1) / 4096 + 1 - a / 4096 → a + buf.length ≤ cl.ex.exportsize →
    ∃ cl' w' ok, expwritePages n cl w pb mapcnt a buf = .val (cl', w', ok) ∧ Remapped cl cl' ∧
      ∀ q, Dirty cl' q → Dirty cl q ∨ (a / 4096 ≤ q ∧ q ≤ (a + buf.length - 1) / 4096) := by
  induction n with
  | zero => intro cl w pb mapcnt a buf _ _ _ hl hn; omega
  | succ n ih =>
    intro cl w pb mapcnt a buf hok hpb hmap hl hn hr
    have hwhole := hok.whole
    have hlen := hok.len
    have hpage : mapcnt < cl.difmap.length := by rw [hlen]; omega
    obtain ⟨m, hm⟩ : ∃ m, cl.difmap[mapcnt]? = some m := ⟨_, List.getElem?_eq_getElem hpage⟩
    have hoff : a - mapcnt * 4096 = a % 4096 := by omega
    have hpl : pageLen (a % 4096) buf.length = min buf.length (4096 - a % 4096) := by
      unfold pageLen; rw [show DIFFPAGESIZE = 4096 from rfl]; split <;> omega
    generalize hrd : min buf.length (4096 - a % 4096) = wr at hpl
    have hwrpos : 0 < wr := by omega
    have htl : (buf.take wr).length = wr := by rw [List.length_take]; omega
    have hrest : ∀ (cl1 : Client) (w1 : World) (pb1 : List (Option Byte)), pb1.length = 4096 →
        Remapped cl cl1 → (∀ q, Dirty cl1 q → Dirty cl q ∨ q = mapcnt) →
        ∃ cl' w' ok, expwritePages n cl1 w1 pb1 (mapcnt + 1) (a + wr) (buf.drop wr) = .val (cl', w', ok) ∧
          Remapped cl cl' ∧
          ∀ q, Dirty cl' q → Dirty cl q ∨ (a / 4096 ≤ q ∧ q ≤ (a + buf.length - 1) / 4096) := by
      intro cl1 w1 pb1 hp1 hst hd
      by_cases hlast : buf.length = wr
      · have hn0 : n = 0 := by omega
        subst hn0
        refine ⟨cl1, w1, true, by rw [expwritePages], hst, ?_⟩
        intro q hq
        rcases hd q hq with h | h
        · exact .inl h
        · right; omega
      · have hdl : (buf.drop wr).length = buf.length - wr := List.length_drop
        obtain ⟨cl', w', ok, h1, h2, h4⟩ := ih cl1 w1 pb1 (mapcnt + 1) (a + wr) (buf.drop wr) (hok.remapped hst)
          hp1 (by omega) (by omega) (by rw [hdl]; omega) (by rw [hdl, hst.ex]; omega)
        refine ⟨cl', w', ok, h1, hst.trans h2, ?_⟩
        intro q hq
        rcases h4 q hq with h | h
        · rcases hd q h with h | h
          · exact .inl h
          · right; omega
        · right; rw [hdl] at h; omega
    rw [expwritePages]
    rw [show DIFFPAGESIZE = 4096 from rfl, hoff, hpl, hm]
    simp only []
    by_cases hne : m = NOPAGE
    · subst hne
      rw [if_neg (by simp), hok.waits]
      simp only [and_true]
      generalize hslot : (if has cl.ex.flags F_SPARSE = true then mapcnt % 2 ^ 32 else cl.difffilelen) = slot
      generalize hdl : (if has cl.ex.flags F_SPARSE = true then cl.difffilelen else (cl.difffilelen + 1) % 2 ^ 32) = dlen
      have hdirty : ∀ (pos : Nat) (q : Nat), Dirty (⟨cl.ex, true, cl.difmap.set mapcnt slot, dlen, cl.difffile, pos,
          cl.structured, cl.tls⟩ : Client) q → Dirty cl q ∨ q = mapcnt := by
        rintro pos q ⟨m', hq, hne'⟩
        have hq : (cl.difmap.set mapcnt slot)[q]? = some m' := hq
        by_cases hqm : q = mapcnt
        · exact .inr hqm
        · rw [List.getElem?_set_ne (Ne.symm hqm)] at hq
          exact .inl ⟨m', hq, hne'⟩
      have hmoved : ∀ (pos : Nat), Remapped cl (⟨cl.ex, true, cl.difmap.set mapcnt slot, dlen, cl.difffile, pos,
            cl.structured, cl.tls⟩ : Client) :=
        fun pos => ⟨rfl, hok.waits.symm, rfl, rfl, by simp⟩
      have hweak : ∀ cl' : Client, (∀ q, Dirty cl' q → Dirty cl q ∨ q = mapcnt) →
          ∀ q, Dirty cl' q → Dirty cl q ∨ (a / 4096 ≤ q ∧ q ≤ (a + buf.length - 1) / 4096) := by
        intro cl' h q hq
        rcases h q hq with h | h
        · exact .inl h
        · right; omega
      by_cases hpart : a % 4096 ≠ 0 ∨ wr ≠ 4096
      · rw [if_pos hpart]
        exact ⟨_, _, _, rfl, hmoved _, hweak _ (hdirty _)⟩
      · rw [if_neg hpart, if_neg hpart]
        have h0 : a % 4096 = 0 := by omega
        have hw4 : wr = 4096 := by omega
        have hfull : bufSet pb (a % 4096) (buf.take wr) = (buf.take wr).map some := by
          unfold bufSet
          rw [h0, List.take_zero, htl, List.drop_of_length_le (by omega)]
          simp
        simp only []
        rw [hfull, allInit_map]
        simp only []
        obtain ⟨w2, r, hpw, _, _⟩ := sysPwrite_diff w cl.difffile cl.diffpos (buf.take wr)
        unfold diffAppend
        simp only []
        rw [hpw]
        cases r with
        | none => exact ⟨_, _, _, rfl, hmoved _, hweak _ (hdirty _)⟩
        | some k =>
        simp only []
        by_cases hk : k = 4096
        · subst hk
          rw [if_neg (by simp)]
          exact hrest _ _ _ (by rw [List.length_map]; omega) (hmoved _) (hdirty _)
        · rw [if_pos hk]
          exact ⟨_, _, _, rfl, hmoved _, hweak _ (hdirty _)⟩
    · rw [if_pos hne]
      obtain ⟨w2, r, hpw, _, _⟩ := sysPwrite_diff w cl.difffile (diffOffset m (a % 4096)) (buf.take wr)
      rw [hpw]
      cases r with
      | none => exact ⟨_, _, _, rfl, .refl _, fun q hq => .inl hq⟩
      | some k =>
      simp only []
      by_cases hk : k = wr
      · subst hk
        rw [if_neg (by simp)]
        exact hrest _ _ _ hpb (.refl _) (fun q hq => .inl hq)
      · rw [if_pos hk]
        exact ⟨_, _, _, rfl, .refl _, fun q hq => .inl hq⟩

theorem expwrite_calm (cl : Client) (w : World) (a : Nat) (buf : List Byte) (fua : Bool) (hok : WaitSafe cl)
    (hl : 0 < buf.length) (hr : a + buf.length ≤ cl.ex.exportsize) :
    ∃ cl' w' ok, expwrite cl w a buf fua = .val (cl', w', ok) ∧ Remapped cl cl' ∧
      ∀ q, Dirty cl' q → Dirty cl q ∨ (a / 4096 ≤ q ∧ q ≤ (a + buf.length - 1) / 4096) := by
  have hsz := hok.size
  have hpg : cl.paged = true := by unfold Client.paged; rw [hok.waits]; simp
  obtain ⟨cl', w', ok, h1, hm, hx⟩ := expwritePages_calm (pageCount a buf.length) cl w (List.replicate DIFFPAGESIZE none)
    (a / 4096) a buf hok (by rw [List.length_replicate]; rfl) rfl hl
    (by unfold pageCount; rw [lastPage_pos hl (by omega)]; rfl) hr
  unfold expwrite
  rw [hpg, if_pos rfl, show a / DIFFPAGESIZE = a / 4096 from rfl, h1]
  cases ok with
  | false => exact ⟨_, _, _, rfl, hm, hx⟩
  | true =>
    simp only []
    split <;> exact ⟨_, _, _, rfl, hm, hx⟩

theorem expwriteZeroes_calm (fua : Bool) (a : Nat) (len : Nat) : ∀ (cl : Client) (w : World), WaitSafe cl →
    a + len ≤ cl.ex.exportsize →
    ∃ cl' w' ok, expwriteZeroes cl w a len fua = .val (cl', w', ok) ∧ Remapped cl cl' ∧
      ∀ q, Dirty cl' q → Dirty cl q ∨ (0 < len ∧ a / 4096 ≤ q ∧ q ≤ (a + len - 1) / 4096) := by
  have hz : 0 < ZEROCHUNK := by decide
  induction len using Nat.strongRecOn with
  | _ len ih =>
    intro cl w hok hr
    unfold expwriteZeroes
    split
    · exact ⟨_, _, _, rfl, .refl _, fun q hq => .inl hq⟩
    · rename_i h0
      simp only []
      have hzl : (Flat.zeros (min len ZEROCHUNK)).length = min len ZEROCHUNK := by simp [Flat.zeros]
      obtain ⟨cl', w', ok, h1, h2, h3⟩ := expwrite_calm cl w a (Flat.zeros (min len ZEROCHUNK)) fua hok
        (by rw [hzl]; omega) (by rw [hzl]; omega)
      rw [hzl] at h3
      rw [h1]
      have h3' : ∀ q, Dirty cl' q → Dirty cl q ∨ (0 < len ∧ a / 4096 ≤ q ∧ q ≤ (a + len - 1) / 4096) := by
        intro q hq
        rcases h3 q hq with h | ⟨ha, hb⟩
        · exact .inl h
        · exact .inr ⟨by omega, ha, Nat.le_trans hb (Nat.div_le_div_right (by omega))⟩
      cases ok with
      | false => exact ⟨_, _, _, rfl, h2, h3'⟩
      | true =>
        simp only []
        obtain ⟨cl2, w2, ok2, k1, k2, k3⟩ := ih (len - min len ZEROCHUNK) (by omega) cl' w' (hok.remapped h2)
          (by rw [h2.ex]; omega)
        refine ⟨cl2, w2, ok2, k1, h2.trans k2, ?_⟩
        intro q hq
        rcases k3 q hq with h | ⟨ha, hb, hc⟩
        · exact h3' q h
        · exact .inr ⟨by omega, hb, Nat.le_trans hc (Nat.div_le_div_right (by omega))⟩

/-! ### Requests -/

theorem handleRequest_calm (e : Endian) (cl : Client) (w : World) (r : Req) (p : Payload) (hok : WaitSafe cl)
    (hlen : r.len < 2 ^ 32) (hfit : p.fits r) (hp : p.piped = false)
    (before : List Spec.Cmd) (hd : ∀ q, Dirty cl q → Spec.Written before q)
    (ht : Spec.Calm cl.ex.exportsize cl.structured before (cmdOf r p)) :
    ∃ cl' w' msgs, handleRequest e cl w r p = .val (cl', w', msgs) ∧ Remapped cl cl' ∧
      ∀ q, Dirty cl' q → Spec.Written (before ++ [cmdOf r p]) q := by
  have hsz := hok.size
  have hd' : ∀ q, Dirty cl q → Spec.Written (before ++ [cmdOf r p]) q := by
    intro q hq
    obtain ⟨c, hc, hx⟩ := hd q hq
    exact ⟨c, List.mem_append_left _ hc, hx⟩
  have hsame : ∀ w' msgs,
      ∃ cl'' w'' msgs'', (Out.val (cl, w', msgs) : Out (Client × World × List Msg)) = .val (cl'', w'', msgs'') ∧
        Remapped cl cl'' ∧ ∀ q, Dirty cl'' q → Spec.Written (before ++ [cmdOf r p]) q :=
    fun w' msgs => ⟨cl, w', msgs, rfl, .refl _, hd'⟩
  have hrange : badRange cl r = false → r.start + r.len ≤ cl.ex.exportsize := by
    intro h
    unfold badRange at h
    simp only [Bool.or_eq_false_iff, decide_eq_false_iff_not] at h
    omega
  unfold handleRequest
  simp only [errorReply]
  by_cases hflag : (r.type - r.type % 65536) / 65536 / 4 ≠ 0
  · rw [if_pos hflag]; exact hsame _ _
  rw [if_neg hflag]
  have hty : r.type < 262144 := by omega
  have hcode : (cmdOf r p).code = r.type % 65536 := by unfold cmdOf; simp only []; rw [if_pos hty]
  by_cases h0 : r.type % 65536 = CMD_READ
  · rw [if_pos h0]
    by_cases hbr : badRange cl r = true
    · rw [if_pos hbr]; exact hsame _ _
    rw [if_neg hbr]
    have hr := hrange (by simpa using hbr)
    have hc0 : (cmdOf r p).code = 0 := hcode.trans h0
    have hl : 0 < r.len := ht.nonempty (.inl hc0) hr
    obtain ⟨w', msgs, h1⟩ := handleRead_calm e cl w r hok hty hl hr (by
      rcases ht.read hc0 hr with h | h | ⟨q, ⟨_, h1, h2⟩, h3⟩
      · exact .inl h
      · exact .inr (.inl h)
      · exact .inr (.inr ⟨q, h1, h2, fun hq => h3 (hd q hq)⟩))
    rw [h1]
    exact hsame _ _
  rw [if_neg h0]
  by_cases h1 : r.type % 65536 = CMD_WRITE
  · rw [if_pos h1]
    by_cases hbw : badWrite cl = true
    · rw [if_pos hbw]; exact hsame _ _
    rw [if_neg hbw]
    by_cases hbr : badRange cl r = true
    · rw [if_pos hbr]; exact hsame _ _
    rw [if_neg hbr]
    have hr := hrange (by simpa using hbr)
    have hc1 : (cmdOf r p).code = 1 := hcode.trans h1
    have hl : 0 < r.len := ht.nonempty (.inr hc1) hr
    unfold handleWrite
    cases p with
    | nothing => exact absurd h1 hfit
    | pipe bs => cases hp
    | data bs =>
      have hbl : bs.length = r.len := hfit
      simp only []
      obtain ⟨cl', w', ok, k1, k2, k3⟩ := expwrite_calm cl w r.start bs (has r.type CMD_FLAG_FUA) hok
        (by omega) (by omega)
      rw [k1]
      refine ⟨_, _, _, rfl, k2, ?_⟩
      intro q hq
      rcases k3 q hq with h | ⟨ha, hb⟩
      · exact hd' q h
      · exact ⟨_, List.mem_append_right _ (List.mem_singleton.mpr rfl), .inl hc1, hl, ha, by rw [hbl] at hb; exact hb⟩
  rw [if_neg h1]
  by_cases h3 : r.type % 65536 = CMD_FLUSH
  · rw [if_pos h3]
    unfold handleFlush
    exact ⟨_, _, _, rfl, .refl _, hd'⟩
  rw [if_neg h3]
  by_cases h4 : r.type % 65536 = CMD_TRIM
  · rw [if_pos h4]
    by_cases hbw : badWrite cl = true
    · rw [if_pos hbw]; exact hsame _ _
    rw [if_neg hbw]
    by_cases hbr : badRange cl r = true
    · rw [if_pos hbr]; exact hsame _ _
    have hr := hrange (by simpa using hbr)
    have hlt : cl.ex.exportsize < r.start + r.len := ht.notrim (hcode.trans h4)
    omega
  rw [if_neg h4]
  by_cases h6 : r.type % 65536 = CMD_WRITE_ZEROES
  · rw [if_pos h6]
    by_cases hbw : badWrite cl = true
    · rw [if_pos hbw]; exact hsame _ _
    rw [if_neg hbw]
    by_cases hbr : badRange cl r = true
    · rw [if_pos hbr]; exact hsame _ _
    rw [if_neg hbr]
    have hr := hrange (by simpa using hbr)
    have hc6 : (cmdOf r p).code = 6 := hcode.trans h6
    unfold handleWriteZeroes
    obtain ⟨cl', w', ok, k1, k2, k3⟩ := expwriteZeroes_calm (has r.type CMD_FLAG_FUA) r.start r.len cl w hok hr
    rw [k1]
    refine ⟨_, _, _, rfl, k2, ?_⟩
    intro q hq
    rcases k3 q hq with h | hb
    · exact hd' q h
    · exact ⟨_, List.mem_append_right _ (List.mem_singleton.mpr rfl), .inr hc6, hb⟩
  rw [if_neg h6]
  exact hsame _ _

theorem mainloop_calm (e : Endian) (cl : Client) (w : World) (stream : List Byte) :
    ∀ before : List Spec.Cmd, WaitSafe cl → (∀ q, Dirty cl q → Spec.Written before q) →
    (∀ pre c post, Spec.commandsIn stream = pre ++ c :: post →
      Spec.Calm cl.ex.exportsize cl.structured (before ++ pre) c) →
    ((mainloop e cl w stream).ending = .gone ∨ (mainloop e cl w stream).ending = .disconnected) ∧
    Remapped cl (mainloop e cl w stream).cl ∧
    ∀ q, Dirty (mainloop e cl w stream).cl q → Spec.Written (before ++ Spec.commandsIn stream) q := by
  fun_induction mainloop e cl w stream with
  | case1 cl w stream hf =>
    intro before hok _ _
    have := ((fetch_safe e cl w stream).2.1 hf).2
    rw [hok.nosplice] at this
    cases this
  | case2 cl w stream hf => exact absurd hf (fetch_safe e cl w stream).1
  | case3 =>
    intro before _ hd _
    refine ⟨.inl rfl, .refl _, fun q hq => ?_⟩
    obtain ⟨c, hc, hx⟩ := hd q hq
    exact ⟨c, List.mem_append_left _ hc, hx⟩
  | case4 =>
    intro before _ hd _
    refine ⟨.inr rfl, .refl _, fun q hq => ?_⟩
    obtain ⟨c, hc, hx⟩ := hd q hq
    exact ⟨c, List.mem_append_left _ hc, hx⟩
  | case5 cl w stream w1 r p rest hf hq =>
    intro before hok hd ht
    obtain ⟨h1, h2⟩ := (fetch_safe e cl w stream).2.2 _ _ _ _ hf
    obtain ⟨k1, k2, rfl⟩ := fetch_commands e cl hok.nosplice w w1 stream r p rest hf
    have := ht [] _ _ k1
    rw [List.append_nil] at this
    obtain ⟨_, _, _, h, _⟩ := handleRequest_calm e cl w1 r p hok h1 h2 k2 before hd this
    rw [h] at hq; cases hq
  | case6 cl w stream w1 r p rest hf hq =>
    intro before hok hd ht
    obtain ⟨h1, h2⟩ := (fetch_safe e cl w stream).2.2 _ _ _ _ hf
    obtain ⟨k1, k2, rfl⟩ := fetch_commands e cl hok.nosplice w w1 stream r p rest hf
    have := ht [] _ _ k1
    rw [List.append_nil] at this
    obtain ⟨_, _, _, h, _⟩ := handleRequest_calm e cl w1 r p hok h1 h2 k2 before hd this
    rw [h] at hq; cases hq
  | case7 cl w stream w1 r p rest hf cl' w' msgs hq ih =>
    intro before hok hd ht
    obtain ⟨h1, h2⟩ := (fetch_safe e cl w stream).2.2 _ _ _ _ hf
    obtain ⟨k1, k2, rfl⟩ := fetch_commands e cl hok.nosplice w w1 stream r p rest hf
    have h0 := ht [] _ _ k1
    rw [List.append_nil] at h0
    obtain ⟨_, _, _, h, hmv, hdn⟩ := handleRequest_calm e cl w1 r p hok h1 h2 k2 before hd h0
    rw [h] at hq; cases hq
    obtain ⟨g1, g2, g3⟩ := ih (before ++ [cmdOf r p]) (hok.remapped hmv) hdn (by
      intro pre c post hpre
      have := ht (cmdOf r p :: pre) c post (by rw [k1, hpre]; rfl)
      rw [hmv.structured, hmv.ex]
      rw [List.append_assoc]
      exact this)
    refine ⟨g1, hmv.trans g2, fun q hq => ?_⟩
    have := g3 q hq
    rw [k1]
    rwa [List.append_assoc] at this

/-! ### With the thread that waits for the file -/

namespace Spec

/-- The commands a client sends during a run. -/
def wishes : List WaitEv → List Cmd
  | [] => []
  | .request bytes :: rest => commandsIn bytes ++ wishes rest
  | _ :: rest => wishes rest

end Spec

theorem commitPage_calm (fh : Nat) (cl : Client) (w : World) (i : Nat) (hi : i < cl.difmap.length)
    (hs : cl.ex.exportsize ≤ 2 ^ 31) (hl : cl.difmap.length = cl.ex.exportsize / 4096) :
    ∃ cl' w' r, commitPage fh cl w i = .val (cl', w', r) ∧ Remapped cl cl' ∧ ∀ q, Dirty cl' q → Dirty cl q := by
  unfold commitPage
  rw [show DIFFPAGESIZE = 4096 from rfl, if_neg (by omega), List.getElem?_eq_getElem hi]
  simp only []
  by_cases hm : cl.difmap[i] = NOPAGE
  · rw [if_pos hm]
    exact ⟨_, _, _, rfl, .refl _, fun q h => h⟩
  · rw [if_neg hm]
    cases hp : sysPread w (.fd cl.difffile) (diffOffset cl.difmap[i] 0) 4096 with
    | mk w1 r1 =>
    cases r1 with
    | none => exact ⟨_, _, _, rfl, .refl _, fun q h => h⟩
    | some bs =>
      simp only []
      split
      · exact ⟨_, _, _, rfl, .refl _, fun q h => h⟩
      · cases hw : sysPwrite w1 (.fd fh) (i * 4096) bs with
        | mk w2 r2 =>
        cases r2 with
        | none => exact ⟨_, _, _, rfl, .refl _, fun q h => h⟩
        | some n =>
          simp only []
          split
          · exact ⟨_, _, _, rfl, .refl _, fun q h => h⟩
          · refine ⟨_, _, _, rfl, ⟨rfl, rfl, rfl, rfl, by simp⟩, ?_⟩
            rintro q ⟨m, h1, h2⟩
            have h1 : (cl.difmap.set i NOPAGE)[q]? = some m := h1
            by_cases hqi : q = i
            · subst hqi
              rw [List.getElem?_set_self hi] at h1
              cases h1
              exact absurd rfl h2
            · rw [List.getElem?_set_ne (Ne.symm hqi)] at h1
              exact ⟨m, h1, h2⟩


theorem waitStep_calm (fh : Nat) (s : Waiting) (hok : WaitSafe s.cl) (hs : s.cl.ex.exportsize ≤ 2 ^ 31) :
    ∃ s', waitStep fh s = .val s' ∧
      ((s'.pc = .done ∧ (s.pc = .done ∧ s' = s ∨ s'.cl = s.cl.switch fh)) ∨
        (s'.pc ≠ .done ∧ Remapped s.cl s'.cl ∧ ∀ q, Dirty s'.cl q → Dirty s.cl q)) := by
  have hpc : pagecount s.cl ≤ s.cl.difmap.length := by
    unfold pagecount
    rw [show DIFFPAGESIZE = 4096 from rfl, hok.len]
    simp only []
    split
    · exact Nat.mod_le _ _
    · omega
  unfold waitStep
  cases hp : s.pc with
  | absent => exact ⟨_, rfl, .inr ⟨by rw [hp]; simp, .refl _, fun q h => h⟩⟩
  | done => exact ⟨_, rfl, .inl ⟨hp, .inl ⟨rfl, rfl⟩⟩⟩
  | commit locked i d =>
    simp only []
    by_cases hi : i < pagecount s.cl
    · rw [if_pos hi]
      obtain ⟨cl', w', r, h1, h2, h3⟩ := commitPage_calm fh s.cl s.w i (by omega) hs hok.len
      rw [h1]
      cases r <;> exact ⟨_, rfl, .inr ⟨by simp, h2, h3⟩⟩
    · rw [if_neg hi]
      split
      · exact ⟨_, rfl, .inr ⟨by simp, .refl _, fun q h => h⟩⟩
      · split
        · exact ⟨_, rfl, .inl ⟨rfl, .inr rfl⟩⟩
        · exact ⟨_, rfl, .inr ⟨by simp, .refl _, fun q h => h⟩⟩

theorem waitRun_done (e : Endian) (fh : Nat) (evs : List WaitEv) (s : Waiting) (hp : s.pc = .done)
    (out : Out (Waiting × List Byte)) (h : waitRun e fh evs s = some out) : out = .val (s, []) := by
  cases evs with
  | nil => rw [waitRun] at h; cases h; rfl
  | cons ev rest =>
    cases ev <;> (rw [waitRun] at h; simp only [hp] at h; cases h)

theorem waitRun_calm (e : Endian) (fh : Nat) (evs : List WaitEv) : ∀ (s : Waiting) (before : List Spec.Cmd),
    WaitSafe s.cl → s.cl.ex.exportsize ≤ 2 ^ 31 → s.pc ≠ .done → (∀ q, Dirty s.cl q → Spec.Written before q) →
    (∀ pre c post, Spec.wishes evs = pre ++ c :: post →
      Spec.Calm s.cl.ex.exportsize s.cl.structured (before ++ pre) c) →
    ∀ out, waitRun e fh evs s = some out → ∃ s' sent, out = .val (s', sent) ∧
      ((s'.pc = .done ∧ s'.cl.waiting = false ∧ s'.cl.ex = { s.cl.ex with files := [⟨fh, 0⟩] }) ∨
        (s'.pc ≠ .done ∧ Remapped s.cl s'.cl)) := by
  induction evs with
  | nil =>
    intro s before _ _ hp _ _ out h
    rw [waitRun] at h
    cases h
    exact ⟨_, _, rfl, .inr ⟨hp, .refl _⟩⟩
  | cons ev rest ih =>
    intro s before hok hs hp hd ht out h
    cases ev with
    | appear =>
      rw [waitRun] at h
      cases hpc : s.pc with
      | absent =>
        simp only [hpc] at h
        split at h
        · exact ih s before hok hs hp hd ht out h
        · exact ih { s with pc := .commit false 0 0 } before hok hs (by simp) hd ht out h
      | commit l i d => simp only [hpc] at h; cases h
      | done => exact absurd hpc hp
    | commit =>
      rw [waitRun] at h
      cases hpc : s.pc with
      | absent => simp only [hpc] at h; cases h
      | done => exact absurd hpc hp
      | commit l i d =>
        simp only [hpc] at h
        obtain ⟨s1, h1, hx⟩ := waitStep_calm fh s hok hs
        rw [h1] at h
        simp only [] at h
        rcases hx with ⟨hdn, hx⟩ | ⟨hnd, hmv, hdr⟩
        · have hsw : s1.cl = s.cl.switch fh := by
            rcases hx with ⟨hx, _⟩ | hx
            · exact absurd hx hp
            · exact hx
          have := waitRun_done e fh rest s1 hdn out h
          refine ⟨s1, [], this, .inl ⟨hdn, by rw [hsw]; rfl, by rw [hsw]; rfl⟩⟩
        · obtain ⟨s', sent, k1, k2⟩ := ih s1 before (hok.remapped hmv) (by rw [hmv.ex]; exact hs) hnd
            (fun q hq => hd q (hdr q hq)) (by rw [hmv.ex, hmv.structured]; exact ht) out h
          refine ⟨s', sent, k1, ?_⟩
          rcases k2 with ⟨g1, g2, g3⟩ | ⟨g1, g2⟩
          · exact .inl ⟨g1, g2, by rw [g3, hmv.ex]⟩
          · exact .inr ⟨g1, hmv.trans g2⟩
    | request bytes =>
      have hm := mainloop_calm e s.cl s.w bytes before hok hd (by
        intro pre c post hpre
        exact ht pre c (post ++ Spec.wishes rest) (by simp [Spec.wishes, hpre]))
      obtain ⟨g1, g2, g3⟩ := hm
      have hgo : s.pc ≠ .done → (match waitRun e fh rest { s with cl := (mainloop e s.cl s.w bytes).cl, w := (mainloop e s.cl s.w bytes).w } with
          | some (.val (s', out)) => some (.val (s', (mainloop e s.cl s.w bytes).sent ++ out))
          | r => r) = some out → ∃ s' sent, out = .val (s', sent) ∧
          ((s'.pc = .done ∧ s'.cl.waiting = false ∧ s'.cl.ex = { s.cl.ex with files := [⟨fh, 0⟩] }) ∨
            (s'.pc ≠ .done ∧ Remapped s.cl s'.cl)) := by
        intro hp' h
        have hih := ih { s with cl := (mainloop e s.cl s.w bytes).cl, w := (mainloop e s.cl s.w bytes).w }
          (before ++ Spec.commandsIn bytes) (hok.remapped g2) (by simp only []; rw [g2.ex]; exact hs) hp g3 (by
            intro pre c post hpre
            simp only []
            rw [g2.ex, g2.structured, List.append_assoc]
            exact ht (Spec.commandsIn bytes ++ pre) c post (by simp [Spec.wishes, hpre]))
        cases hr : waitRun e fh rest { s with cl := (mainloop e s.cl s.w bytes).cl, w := (mainloop e s.cl s.w bytes).w } with
        | none => rw [hr] at h; cases h
        | some o =>
          obtain ⟨s', sent, k1, k2⟩ := hih o hr
          subst k1
          rw [hr] at h
          cases h
          refine ⟨s', _, rfl, ?_⟩
          rcases k2 with ⟨q1, q2, q3⟩ | ⟨q1, q2⟩
          · exact .inl ⟨q1, q2, by rw [q3]; simp only [g2.ex]⟩
          · exact .inr ⟨q1, g2.trans q2⟩
      rw [waitRun] at h
      cases hpc : s.pc with
      | done => exact absurd hpc hp
      | absent =>
        simp only [hpc] at h
        rw [hpc] at hgo
        rcases g1 with g1 | g1 <;> (rw [g1] at h; exact hgo (by simp) h)
      | commit l i d =>
        cases l with
        | true => simp only [hpc] at h; cases h
        | false =>
          simp only [hpc] at h
          rw [hpc] at hgo
          rcases g1 with g1 | g1 <;> (rw [g1] at h; exact hgo (by simp) h)

end Nbd
