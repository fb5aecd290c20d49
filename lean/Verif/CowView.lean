import Verif.CowLemmas
/-! # Copy-on-write: what a session sees of its own changes -/

set_option autoImplicit false

namespace Nbd

/-- Every call succeeds and moves a whole page if asked to. -/
def Generous (w : World) : Prop := ∀ t, ∃ n, 4096 ≤ n ∧ w.orc t = .done n

theorem Generous.healthy {w : World} (h : Generous w) : Healthy w := by
  intro t
  obtain ⟨n, h1, h2⟩ := h t
  exact ⟨n, by omega, h2⟩

theorem Generous.of_orc {w w' : World} (h : Generous w) (ho : w'.orc = w.orc) : Generous w' := by
  intro t; rw [ho]; exact h t

/-- What the session sees: pages in the diff file instead of the original ones. -/
def cowView (cl : Client) (w : World) : Flat := fun i =>
  if i < cl.ex.exportsize then
    match cl.difmap[i / DIFFPAGESIZE]? with
    | some m =>
      if m ≠ NOPAGE then content w (.fd cl.difffile, m * DIFFPAGESIZE + i % DIFFPAGESIZE) else view cl.ex w i
    | none => view cl.ex w i
  else 0

/-- A copy-on-write session in order: the map has one entry per page, pages in the diff file occupy distinct slots below
its length, and the next one will be appended at the end. -/
structure CowOk (cl : Client) (w : World) : Prop where
  good : GoodExport cl.ex
  cow : has cl.ex.flags F_COPYONWRITE = true
  nosparse : has cl.ex.flags F_SPARSE = false
  nosplice : has cl.ex.flags F_SPLICE = false
  nowait : cl.waiting = false
  whole : cl.ex.exportsize % 4096 = 0
  small : cl.ex.exportsize ≤ 2 ^ 32
  own : ∀ a x, home cl.ex a = some x → x.1 ≠ .fd cl.difffile
  len : cl.difmap.length = cl.ex.exportsize / 4096
  file : ∃ f, w.files (.fd cl.difffile) = some f ∧ cl.difffilelen * 4096 ≤ f.size
  pos : cl.diffpos = cl.difffilelen * 4096
  count : cl.difmap.countP (fun m => decide (m ≠ NOPAGE)) = cl.difffilelen
  slots : ∀ p m : Nat, cl.difmap[p]? = some m → m ≠ NOPAGE → m < cl.difffilelen
  inj : ∀ p q m : Nat, cl.difmap[p]? = some m → cl.difmap[q]? = some m → m ≠ NOPAGE → p = q

theorem CowOk.le {cl : Client} {w : World} (h : CowOk cl w) : cl.difffilelen ≤ cl.ex.exportsize / 4096 := by
  rw [← h.len, ← h.count]
  exact List.countP_le_length

theorem CowOk.dirty_lt {cl : Client} {w : World} (h : CowOk cl w) {p m : Nat} (hm : cl.difmap[p]? = some m)
    (hn : m ≠ NOPAGE) : m < 2 ^ 20 ∧ m < cl.difffilelen := by
  have h1 := h.slots p m hm hn
  have h2 := h.le
  have h3 := h.small
  omega

/-- If a page is clean there is still room: fewer slots used than there are pages. -/
theorem CowOk.room {cl : Client} {w : World} (h : CowOk cl w) {p : Nat} (hm : cl.difmap[p]? = some NOPAGE) :
    cl.difffilelen < 2 ^ 20 := by
  have h1 : cl.difmap.countP (fun m => decide (m ≠ NOPAGE)) < cl.difmap.length := by
    apply Nat.lt_of_le_of_ne List.countP_le_length
    intro heq
    rw [List.countP_eq_length] at heq
    have := heq NOPAGE (List.mem_of_getElem? hm)
    simp at this
  rw [h.count, h.len] at h1
  have := h.small
  omega

theorem diffOffset_small {m off : Nat} (h : m < 2 ^ 20) : diffOffset m off = m * 4096 + off := by
  unfold diffOffset
  rw [show DIFFPAGESIZE = 4096 from rfl, Nat.mod_eq_of_lt (by omega)]

theorem CowOk.of_files {cl : Client} {w w' : World} (h : CowOk cl w) (hf : w'.files = w.files) : CowOk cl w' :=
  { h with file := by rw [hf]; exact h.file }

theorem content_of_files {w w' : World} (hf : w'.files = w.files) (x : FileId × Nat) : content w' x = content w x := by
  unfold content; rw [hf]

theorem view_of_files {w w' : World} (ex : Export) (hf : w'.files = w.files) : view ex w' = view ex w := by
  funext a
  unfold view
  split
  · split
    · exact content_of_files hf _
    · rfl
  · rfl

theorem cowView_of_files {w w' : World} (cl : Client) (hf : w'.files = w.files) : cowView cl w' = cowView cl w := by
  funext i
  unfold cowView
  rw [view_of_files cl.ex hf]
  split
  · split
    · split
      · exact content_of_files hf _
      · rfl
    · rfl
  · rfl

/-- Changing only the diff file leaves the original alone. -/
theorem view_off_diff {cl : Client} {w w' : World} {tree : Bool} (hown : ∀ a x, home cl.ex a = some x → x.1 ≠ .fd cl.difffile)
    (hk : KeptOff cl.difffile tree w w') : view cl.ex w' = view cl.ex w := by
  funext a
  unfold view
  split
  · split
    · rename_i x hx
      exact hk.content x (hown a x hx)
    · rfl
  · rfl

theorem Backed.of_keptOff {cl : Client} {w w' : World} {tree : Bool} (hb : Backed cl.ex w)
    (hown : ∀ a x, home cl.ex a = some x → x.1 ≠ .fd cl.difffile)
    (hk : KeptOff cl.difffile tree w w') : Backed cl.ex w' := by
  intro a ha
  obtain ⟨id, o, f, h1, h2, h3⟩ := hb a ha
  refine ⟨id, o, f, h1, ?_, h3⟩
  rcases hk id (hown a _ h1) with h | ⟨_, h, _⟩
  · rw [h]; exact h2
  · rw [h] at h2; cases h2

theorem Backed.of_files {ex : Export} {w w' : World} (hb : Backed ex w) (hf : w'.files = w.files) : Backed ex w' := by
  intro a ha
  rw [hf]
  exact hb a ha

/-! ### Reading -/

theorem rawexpreadFully_backed_files (ex : Export) (hg : GoodExport ex) (w : World) (hh : Healthy w)
    (hb : Backed ex w) (c : ReadCtx) (hr : c.start + c.curOff + c.curLen ≤ ex.exportsize)
    (w' : World) (c' : ReadCtx) (ok : Bool) (h : rawexpreadFully ex w c = .val (w', c', ok)) :
    w'.files = w.files ∧ w'.orc = w.orc := by
  fun_induction rawexpreadFully ex w c with
  | case1 w c hl => cases h; exact ⟨rfl, rfl⟩
  | case2 => cases h
  | case3 => cases h
  | case4 w c hl w1 hq =>
    obtain ⟨_, _, _, h1, _⟩ := rawexpread_backed ex hg w hh hb _ _ (by omega) hr
    rw [hq] at h1; cases h1
  | case5 w c hl w1 hq =>
    obtain ⟨_, _, _, h1, _⟩ := rawexpread_backed ex hg w hh hb _ _ (by omega) hr
    rw [hq] at h1; cases h1
  | case6 => cases h
  | case7 => cases h
  | case8 w c hl w1 b bs hq c1 hd ih =>
    obtain ⟨_, hsp⟩ := rawexpread_spec ex hg w _ _ hr (by omega)
    obtain ⟨hle, _⟩ := (hsp _ _ hq).2 _ rfl
    have hst := deliver_start _ _ _ hd
    obtain ⟨_, _, _, h1, hf1, ho1⟩ := rawexpread_backed ex hg w hh hb _ _ (by omega) hr
    rw [hq] at h1; cases h1
    obtain ⟨i1, i2⟩ := ih (by intro t; rw [ho1]; exact hh t) (hb.of_files hf1) (by simp only [hst]; omega) h
    exact ⟨i1.trans hf1, i2.trans ho1⟩

/-- The read stays where reading back works: every page of it but the last is still the original one, and if replies are
structured and it spans several pages the last one is, too. -/
def Readable (cl : Client) (a len : Nat) : Prop :=
  ∀ p m : Nat, a / 4096 ≤ p → p ≤ (a + len - 1) / 4096 → cl.difmap[p]? = some m → m ≠ NOPAGE →
    p = (a + len - 1) / 4096 ∧ (cl.structured = true → p = a / 4096)

theorem lastPage_pos {a len : Nat} (hl : 0 < len) (h : a + len ≤ 2 ^ 63) : lastPage a len = (a + len - 1) / 4096 := by
  unfold lastPage
  have h1 : (a + len + (2 ^ 64 - 1)) % 2 ^ 64 = a + len - 1 := by omega
  rw [h1, show DIFFPAGESIZE = 4096 from rfl]

theorem cowView_clean {cl : Client} {w : World} {p : Nat} (hm : cl.difmap[p]? = some NOPAGE) (i : Nat)
    (hi : i / 4096 = p) : cowView cl w i = view cl.ex w i := by
  unfold cowView
  rw [show DIFFPAGESIZE = 4096 from rfl, hi, hm]
  simp only [ne_eq, not_true_eq_false, if_false]
  split
  · rfl
  · unfold view; rw [if_neg (by assumption)]

theorem cowView_dirty {cl : Client} {w : World} {p m : Nat} (hm : cl.difmap[p]? = some m) (hn : m ≠ NOPAGE) (i : Nat)
    (hi : i / 4096 = p) (hlt : i < cl.ex.exportsize) :
    cowView cl w i = content w (.fd cl.difffile, m * 4096 + i % 4096) := by
  unfold cowView
  rw [if_pos hlt, show DIFFPAGESIZE = 4096 from rfl, hi, hm]
  simp only []
  rw [if_pos hn]

/-- Reading from a page in the diff file: one `pread` returns exactly what the session sees. -/
theorem sysPread_dirty {cl : Client} {w : World} (hok : CowOk cl w) (hgen : Generous w) {p m : Nat}
    (hm : cl.difmap[p]? = some m) (hn : m ≠ NOPAGE) (off len : Nat) (hl : off + len ≤ 4096) :
    sysPread w (.fd cl.difffile) (diffOffset m off) len =
      (w.step, some ((cowView cl w).read (p * 4096 + off) len)) := by
  obtain ⟨hm20, hmlt⟩ := hok.dirty_lt hm hn
  obtain ⟨f, hf, hsz⟩ := hok.file
  obtain ⟨n, hn4, hnext⟩ := hgen w.tick
  have hp : p < cl.difmap.length := (List.getElem?_eq_some_iff.mp hm).1
  rw [hok.len] at hp
  have hwhole := hok.whole
  unfold sysPread
  simp only [hf, World.next, hnext, Prod.mk.injEq, Option.some.injEq, true_and]
  rw [diffOffset_small hm20]
  unfold File.pread
  have hmin : min (min n MAX_RW_COUNT) (min len (f.size - (m * 4096 + off))) = len := by
    simp only [MAX_RW_COUNT]
    omega
  rw [hmin]
  apply List.ext_getElem?
  intro i
  rw [Flat.read_getElem?, Flat.read_getElem?]
  split
  · rename_i hi
    rw [cowView_dirty hm hn (p * 4096 + off + i) (by omega) (by omega)]
    unfold content
    simp only [hf]
    have h1 : (p * 4096 + off + i) % 4096 = off + i := by omega
    rw [h1, Nat.add_assoc]
  · rfl

/-- What the page loop has put together, except for the bookkeeping of the read position, which the branch for pages in
the diff file does not maintain. -/
structure Got (v : Flat) (c c' : ReadCtx) (n : Nat) : Prop where
  start : c'.start = c.start
  structured : c'.structured = c.structured
  df : c'.df = c.df
  buf : c.chunked = false → c'.buf = bufSet c.buf c.curOff (v.read (c.start + c.curOff) n)
  bufKept : c.chunked = true → c'.buf = c.buf
  chunks : ∃ cs, c'.chunks = c.chunks ++ cs ∧ (c.chunked = false → cs = []) ∧
    (c.chunked = true → Spec.Tiles (c.start + c.curOff) cs (v.read (c.start + c.curOff) n))

theorem Tiles_append {a : Nat} {cs ds : List (Nat × List Byte)} {xs ys : List Byte}
    (h1 : Spec.Tiles a cs xs) (h2 : Spec.Tiles (a + xs.length) ds ys) : Spec.Tiles a (cs ++ ds) (xs ++ ys) := by
  induction h1 with
  | nil start => simpa using h2
  | cons start bs cs data hne hmax h ih =>
    rw [List.cons_append, List.append_assoc]
    refine .cons _ _ _ _ hne hmax (ih ?_)
    rw [List.length_append, ← Nat.add_assoc] at h2
    exact h2

theorem expreadPages_cow (cl : Client) (n : Nat) : ∀ (w : World) (c : ReadCtx) (mapcnt a len : Nat),
    CowOk cl w → Generous w → Backed cl.ex w → c.structured = cl.structured → c.df = false →
    a = c.start + c.curOff → mapcnt = a / 4096 → n = (a + len - 1) / 4096 + 1 - a / 4096 → 0 < len →
    a + len ≤ cl.ex.exportsize →
    (c.chunked = false → c.curOff + len ≤ c.buf.length) →
    (∀ p m : Nat, a / 4096 ≤ p → p ≤ (a + len - 1) / 4096 → cl.difmap[p]? = some m → m ≠ NOPAGE →
      p = (a + len - 1) / 4096 ∧ (cl.structured = true → p = a / 4096 ∧ len ≤ c.curLen)) →
    ∃ w' c', expreadPages cl n w c mapcnt a len = .val (w', c', true) ∧ w'.files = w.files ∧ w'.orc = w.orc ∧
      Got (cowView cl w) c c' len := by
  induction n with
  | zero => intro w c mapcnt a len _ _ _ _ _ _ _ hn hl; omega
  | succ n ih =>
    intro w c mapcnt a len hok hgen hb hstr hdf ha hmap hn hl hr hbuf hread
    have hwhole := hok.whole
    have hlen := hok.len
    have hsz := hok.good.size
    have hpage : mapcnt < cl.difmap.length := by rw [hlen]; omega
    obtain ⟨m, hm⟩ : ∃ m, cl.difmap[mapcnt]? = some m := ⟨_, List.getElem?_eq_getElem hpage⟩
    have hoff : a - mapcnt * 4096 = a % 4096 := by omega
    have hpl : pageLen (a % 4096) len = min len (4096 - a % 4096) := by
      unfold pageLen; rw [show DIFFPAGESIZE = 4096 from rfl]; split <;> omega
    generalize hrd : min len (4096 - a % 4096) = rdlen at hpl
    have hrdpos : 0 < rdlen := by omega
    rw [expreadPages]
    rw [show DIFFPAGESIZE = 4096 from rfl, hoff, hpl, hm]
    simp only []
    by_cases hne : m = NOPAGE
    · -- an original page
      subst hne
      rw [if_neg (by simp), hok.nowait, if_neg (by simp)]
      have hr1 : c.start + c.curOff + rdlen ≤ cl.ex.exportsize := by omega
      have hbuf1 : ({ c with curLen := rdlen } : ReadCtx).chunked = false →
          ({ c with curLen := rdlen } : ReadCtx).curOff + rdlen ≤ ({ c with curLen := rdlen } : ReadCtx).buf.length := by
        intro hc
        have hc : c.chunked = false := hc
        have := hbuf hc
        show c.curOff + rdlen ≤ c.buf.length
        omega
      obtain ⟨w1, c1, hq⟩ := rawexpreadFully_backed cl.ex hok.good w hgen.healthy hb { c with curLen := rdlen } hr1 hbuf1
      obtain ⟨hsame, k, hdel, hk⟩ := (rawexpreadFully_spec cl.ex hok.good w { c with curLen := rdlen } hr1 hbuf1).2 _ _ _ hq
      obtain rfl : k = rdlen := hk rfl
      obtain ⟨hf, ho⟩ := rawexpreadFully_backed_files cl.ex hok.good w hgen.healthy hb _ hr1 _ _ _ hq
      rw [hq]
      simp only []
      have hview : (view cl.ex w).read a k = (cowView cl w).read a k := by
        apply Flat.read_congr
        intro i h1 h2
        exact (cowView_clean hm i (by omega)).symm
      have hst : c1.start = c.start := hdel.start
      have hco : c1.curOff = c.curOff + k := hdel.curOff
      have hch1 : c1.chunked = c.chunked := by
        unfold ReadCtx.chunked; rw [hdel.structured, hdel.df]
      by_cases hrest : len = k
      · -- the last page
        have hn0 : n = 0 := by omega
        subst hn0
        refine ⟨w1, c1, by rw [expreadPages], hf, ho, ?_⟩
        subst hrest
        refine ⟨hdel.start, hdel.structured, hdel.df, ?_, hdel.bufKept, ?_⟩
        · intro hc
          rw [hdel.buf hc, ← ha, ← hview]
        · obtain ⟨cs, k1, k2, k3⟩ := hdel.chunks
          refine ⟨cs, k1, k2, ?_⟩
          intro hc
          have := k3 hc
          rw [← ha, ← hview, ha]
          exact this
      · obtain ⟨w2, c2, hq2, hf2, ho2, hgot⟩ := ih w1 c1 (mapcnt + 1) (a + k) (len - k) (hok.of_files hf)
          (hgen.of_orc ho) (hb.of_files hf) (hdel.structured.trans hstr) (hdel.df.trans hdf)
          (by rw [hst, hco]; omega) (by omega) (by omega) (by omega) (by omega)
          (by
            intro hc
            rw [hch1] at hc
            have h1 := hbuf hc
            have h2 := hdel.buf hc
            rw [hco, h2, bufSet_length]
            · show c.curOff + k + (len - k) ≤ c.buf.length
              omega
            · rw [Flat.read_length]
              show c.curOff + k ≤ c.buf.length
              omega)
          (by
            intro p m' h1 h2 h3 h4
            obtain ⟨h5, h6⟩ := hread p m' (by omega) (by omega) h3 h4
            refine ⟨by omega, ?_⟩
            intro hs
            obtain ⟨h7, _⟩ := h6 hs
            omega)
        refine ⟨w2, c2, hq2, hf2.trans hf, ho2.trans ho, ?_⟩
        rw [cowView_of_files cl hf] at hgot
        refine ⟨hgot.start.trans hdel.start, hgot.structured.trans hdel.structured, hgot.df.trans hdel.df, ?_, ?_, ?_⟩
        · intro hc
          have h1 := hbuf hc
          rw [hgot.buf (hch1.trans hc), hdel.buf hc, hst, hco]
          show bufSet (bufSet c.buf c.curOff ((view cl.ex w).read (c.start + c.curOff) k)) _ _ = _
          rw [← ha, hview]
          have h2 := bufSet_append c.buf c.curOff ((cowView cl w).read a k) ((cowView cl w).read (a + k) (len - k))
            (by simp only [Flat.read_length]; omega)
          rw [Flat.read_length] at h2
          rw [← Nat.add_assoc, ← ha, h2, ← Flat.read_add]
          congr 2
          omega
        · intro hc
          rw [hgot.bufKept (hch1.trans hc)]
          exact hdel.bufKept hc
        · obtain ⟨cs, k1, k2, k3⟩ := hdel.chunks
          obtain ⟨ds, l1, l2, l3⟩ := hgot.chunks
          refine ⟨cs ++ ds, by rw [l1, k1, List.append_assoc], ?_, ?_⟩
          · intro hc
            rw [k2 hc, l2 (hch1.trans hc)]; rfl
          · intro hc
            have h1 := k3 hc
            have h2 := l3 (hch1.trans hc)
            simp only [] at h1
            rw [hst, hco, ← Nat.add_assoc, ← ha] at h2
            rw [← ha, hview] at h1
            have h3 := Tiles_append h1 (by rw [Flat.read_length]; exact h2)
            rw [← Flat.read_add] at h3
            rw [← ha]
            rwa [show k + (len - k) = len by omega] at h3
    · -- a page in the diff file: it is the last one
      rw [if_pos hne]
      obtain ⟨hlast, hs⟩ := hread mapcnt m (by omega) (by omega) hm hne
      have hrl : rdlen = len := by omega
      subst hrl
      have hn0 : n = 0 := by omega
      subst hn0
      rw [sysPread_dirty hok hgen hm hne (a % 4096) rdlen (by omega)]
      simp only []
      rw [show mapcnt * 4096 + a % 4096 = a by omega]
      have hdl : ∃ c', c.deliver ((cowView cl w).read a rdlen) = .val c' ∧ Got (cowView cl w) c c' rdlen := by
        unfold ReadCtx.deliver
        rw [Flat.read_length]
        cases hc : c.chunked with
        | true =>
          have hcs : cl.structured = true := by
            rw [← hstr]
            unfold ReadCtx.chunked at hc
            simp only [Bool.and_eq_true] at hc
            exact hc.1
          have := (hs hcs).2
          rw [if_pos rfl, if_neg (by omega)]
          refine ⟨_, rfl, rfl, rfl, rfl, by simp [hc], by simp, _, rfl, by simp [hc], ?_⟩
          intro _
          rw [ha]
          have h1 := Spec.Tiles.cons (c.start + c.curOff) ((cowView cl w).read (c.start + c.curOff) rdlen) [] []
            (by intro h0; have := congrArg List.length h0; simp at this; omega)
            (by rw [Flat.read_length]; omega) (.nil _)
          rw [List.append_nil] at h1
          exact h1
        | false =>
          have := hbuf hc
          rw [if_neg (by simp), if_neg (by omega)]
          refine ⟨_, rfl, rfl, rfl, rfl, ?_, by simp [hc], [], by simp, by simp, by simp [hc]⟩
          intro _
          rw [ha]
      obtain ⟨c', hd, hgot⟩ := hdl
      rw [hd]
      simp only []
      rw [if_neg (by rw [Flat.read_length]; simp), expreadPages]
      exact ⟨_, _, rfl, rfl, rfl, hgot⟩

/-- A read that stays where reading back works returns what the session sees. -/
theorem handleRead_cow (e : Endian) (cl : Client) (w : World) (r : Req) (hok : CowOk cl w) (hgen : Generous w)
    (hb : Backed cl.ex w) (hf : r.type < 262144) (hl : 0 < r.len) (hr : r.start + r.len ≤ cl.ex.exportsize)
    (hread : Readable cl r.start r.len) :
    ∃ w' msgs rs, handleRead e cl w r = .val (w', msgs) ∧ w'.files = w.files ∧ w'.orc = w.orc ∧ Encodes msgs rs ∧
      Spec.ReadAnswer r.cookie r.start ((cowView cl w).read r.start r.len) cl.structured rs := by
  have hsz := hok.good.size
  have hpg : cl.paged = true := by unfold Client.paged; rw [hok.cow]; rfl
  have hdf : has r.type CMD_FLAG_DF = false := has_df_of_flags (by omega)
  obtain ⟨w', c', hq, hfl, ho, hgot⟩ := expreadPages_cow cl (pageCount r.start r.len) w (initCtx cl r)
    (r.start / 4096) r.start r.len hok hgen hb rfl rfl rfl rfl
    (by unfold pageCount; rw [lastPage_pos hl (by omega)]; rfl) hl hr
    (by
      intro hc
      have hst : cl.structured = false := by
        simp only [ReadCtx.chunked, initCtx, Bool.not_false, Bool.and_true] at hc
        exact hc
      simp [initCtx, hst])
    (by
      intro p m h1 h2 h3 h4
      obtain ⟨h5, h6⟩ := hread p m h1 h2 h3 h4
      exact ⟨h5, fun hs => ⟨h6 hs, Nat.le_refl _⟩⟩)
  have hex : expread cl w (initCtx cl r) = .val (w', c', true) := by
    unfold expread
    rw [hpg, if_pos rfl]
    exact hq
  have hcr : ∃ ms, completeRead e c' r.cookie none = .val ms := by
    unfold completeRead
    have h1 : c'.structured = cl.structured := hgot.structured
    have h2 : c'.df = false := hgot.df
    rw [h1, h2]
    by_cases hst : cl.structured = true
    · rw [if_pos hst]; exact ⟨_, rfl⟩
    · have hst : cl.structured = false := by simpa using hst
      rw [if_neg (by simp [hst])]
      have hbf := hgot.buf (by simp [ReadCtx.chunked, initCtx, hst])
      simp only [initCtx, hst, Nat.add_zero, Bool.not_false, if_true] at hbf
      rw [bufSet_all _ _ (by simp)] at hbf
      rw [hbf, allInit_map]
      exact ⟨_, rfl⟩
  obtain ⟨ms, hcr⟩ := hcr
  have hnr : ∃ msgs, handleNormalRead e cl w r = .val (w', msgs) := by
    unfold handleNormalRead
    rw [hdf]
    simp only [Bool.and_false, Bool.false_and, Bool.false_eq_true, if_false, Bool.false_or]
    have hex' := hex
    unfold initCtx at hex'
    rw [hex']
    simp only [if_true]
    rw [hcr]
    exact ⟨_, rfl⟩
  obtain ⟨msgs, hnr⟩ := hnr
  obtain ⟨c2, ok2, hq2, hx⟩ := handleNormalRead_replies e cl w w' r msgs hdf hnr
  rw [hex] at hq2
  cases hq2
  rw [if_pos rfl] at hx
  have hhr : handleRead e cl w r = .val (w', msgs) := by
    unfold handleRead
    rw [hok.nosplice, if_neg (by simp)]
    exact hnr
  obtain ⟨cs, k1, k2, k3⟩ := hgot.chunks
  simp only [initCtx, List.nil_append, Nat.add_zero] at k1 k2 k3
  rcases hx with ⟨hst, hx⟩ | ⟨hst, data, hi, hll, hx⟩
  · have htile := k3 (by simp [ReadCtx.chunked, hst])
    refine ⟨w', msgs, _, hhr, hfl, ho, hx, ?_⟩
    rw [hst, map_mod_chunks, k1, map_mod_id]
    · exact .structured cs htile
    · intro x hxm
      have := tiles_offsets htile x hxm
      rw [Flat.read_length] at this
      omega
  · refine ⟨w', msgs, _, hhr, hfl, ho, hx, ?_⟩
    have hbf := hgot.buf (by simp [ReadCtx.chunked, initCtx, hst])
    simp only [initCtx, hst, Nat.add_zero, Bool.not_false, if_true] at hbf
    rw [bufSet_all _ _ (by simp)] at hbf
    rw [hbf, allInit_map] at hi
    cases hi
    rw [hst]
    exact .simple

/-! ### Writing -/

theorem pageIn_backed (ex : Export) (hg : GoodExport ex) (w : World) (hh : Healthy w) (hb : Backed ex w)
    (pb : List (Option Byte)) (ps dn rdlen : Nat) (hr : ps + rdlen ≤ ex.exportsize) (hl : dn + rdlen ≤ pb.length) :
    ∃ w', pageIn ex w pb ps dn rdlen = .val (w', bufSet pb dn ((view ex w).read ps rdlen), true) ∧
      w'.files = w.files ∧ w'.orc = w.orc := by
  fun_induction pageIn ex w pb ps dn rdlen with
  | case1 => exact ⟨_, by rw [Flat.read_zero, bufSet_nil], rfl, rfl⟩
  | case2 w pb ps dn rdlen h hq =>
    obtain ⟨_, _, _, h1, _⟩ := rawexpread_backed ex hg w hh hb _ _ (by omega) hr
    rw [hq] at h1; cases h1
  | case3 w pb ps dn rdlen h hq =>
    obtain ⟨_, _, _, h1, _⟩ := rawexpread_backed ex hg w hh hb _ _ (by omega) hr
    rw [hq] at h1; cases h1
  | case4 w pb ps dn rdlen h w1 hq =>
    obtain ⟨_, _, _, h1, _⟩ := rawexpread_backed ex hg w hh hb _ _ (by omega) hr
    rw [hq] at h1; cases h1
  | case5 w pb ps dn rdlen h w1 hq =>
    obtain ⟨_, _, _, h1, _⟩ := rawexpread_backed ex hg w hh hb _ _ (by omega) hr
    rw [hq] at h1; cases h1
  | case6 w pb ps dn rdlen h w1 b bs hq ih =>
    obtain ⟨_, _, _, h1, hf1, ho1⟩ := rawexpread_backed ex hg w hh hb _ _ (by omega) hr
    rw [hq] at h1; cases h1
    obtain ⟨hle, hval⟩ := ((rawexpread_spec ex hg w _ _ hr (by omega)).2 _ _ hq).2 _ rfl
    obtain ⟨w', i1, i2, i3⟩ := ih (by intro t; rw [ho1]; exact hh t) (hb.of_files hf1) (by omega)
      (by rw [bufSet_length _ _ _ (by omega)]; omega)
    refine ⟨w', ?_, i2.trans hf1, i3.trans ho1⟩
    rw [i1, view_of_files ex hf1, bufSet_append _ _ _ _ (by simp only [Flat.read_length]; omega)]
    have h2 : (b :: bs) ++ (view ex w).read (ps + (b :: bs).length) (rdlen - (b :: bs).length) =
        (view ex w).read ps rdlen := by
      conv => lhs; arg 1; rw [hval]
      rw [← Flat.read_add]
      congr 1
      omega
    rw [h2]

/-- What is known after part of a copy-on-write write. -/
structure CowStep (cl : Client) (w : World) (cl' : Client) (w' : World) : Prop where
  ok : CowOk cl' w'
  seat : SameSeat cl cl'
  orc : w'.orc = w.orc
  kept : KeptOff cl.difffile (has cl.ex.flags F_TREEFILES) w w'

theorem CowStep.trans {a b c : Client} {u v w : World} (h1 : CowStep a u b v) (h2 : CowStep b v c w) :
    CowStep a u c w := by
  refine ⟨h2.ok, h1.seat.trans h2.seat, h2.orc.trans h1.orc, h1.kept.trans ?_⟩
  have := h2.kept
  rwa [h1.seat.difffile, h1.seat.ex] at this

theorem sysPwrite_generous {w : World} (hgen : Generous w) (d : Nat) (f : File) (hf : w.files (.fd d) = some f) (off : Nat)
    (bs : List Byte) (hl : bs.length ≤ 4096) :
    sysPwrite w (.fd d) off bs = ((w.step).set (.fd d) (f.pwrite off bs), some bs.length) := by
  obtain ⟨n, hn4, hnext⟩ := hgen w.tick
  unfold sysPwrite
  simp only [hf, World.next, hnext]
  rw [List.take_of_length_le (by omega), Nat.min_eq_right (by omega)]

/-- The session's view is unchanged outside page `p` and given on page `p`. -/
theorem cowView_ext {cl cl' : Client} {w w' : World} (a : Nat) (bs : List Byte) (p : Nat)
    (hex : cl'.ex = cl.ex) (hin : a / 4096 = p) (hend : a % 4096 + bs.length ≤ 4096) (hr : a + bs.length ≤ cl.ex.exportsize)
    (hother : ∀ i, i / 4096 ≠ p → i < cl.ex.exportsize → cowView cl' w' i = cowView cl w i)
    (hpage : ∀ i, i / 4096 = p → i < cl.ex.exportsize → cowView cl' w' i = (cowView cl w).write a bs i) :
    cowView cl' w' = (cowView cl w).write a bs := by
  funext i
  by_cases hi : i < cl.ex.exportsize
  · by_cases hp : i / 4096 = p
    · exact hpage i hp hi
    · rw [hother i hp hi, Flat.write_outside]
      omega
  · rw [Flat.write_outside _ _ _ _ (by omega)]
    unfold cowView
    rw [hex, if_neg hi, if_neg hi]

/-- Overwriting part of a page that is already in the diff file. -/
theorem write_dirty (cl : Client) (w : World) (hok : CowOk cl w) (p m a : Nat) (bs : List Byte)
    (hm : cl.difmap[p]? = some m) (hn : m ≠ NOPAGE) (f : File) (hf : w.files (.fd cl.difffile) = some f)
    (hin : a / 4096 = p) (hend : a % 4096 + bs.length ≤ 4096) (hr : a + bs.length ≤ cl.ex.exportsize) :
    CowStep cl w cl ((w.step).set (.fd cl.difffile) (f.pwrite (diffOffset m (a % 4096)) bs)) ∧
    cowView cl ((w.step).set (.fd cl.difffile) (f.pwrite (diffOffset m (a % 4096)) bs)) = (cowView cl w).write a bs := by
  obtain ⟨hm20, hmlt⟩ := hok.dirty_lt hm hn
  rw [diffOffset_small hm20]
  generalize hw' : (w.step).set (.fd cl.difffile) (f.pwrite (m * 4096 + a % 4096) bs) = w'
  have hkept : KeptOff cl.difffile (has cl.ex.flags F_TREEFILES) w w' := by
    rw [← hw']; exact .of_set _ rfl
  have hf' : w'.files (.fd cl.difffile) = some (f.pwrite (m * 4096 + a % 4096) bs) := by
    rw [← hw']; exact World.set_files_same _ _ _
  have hcont : ∀ o, content w' (.fd cl.difffile, o) = f.data.write (m * 4096 + a % 4096) bs o := by
    intro o; unfold content; simp only [hf']; rfl
  have hcont0 : ∀ o, content w (.fd cl.difffile, o) = f.data o := by
    intro o; unfold content; simp only [hf]
  have hv := view_off_diff hok.own hkept
  refine ⟨⟨{ hok with file := ?_ }, .refl _, by rw [← hw']; rfl, hkept⟩, ?_⟩
  · obtain ⟨f0, h1, h2⟩ := hok.file
    rw [hf] at h1; cases h1
    refine ⟨_, hf', ?_⟩
    simp only [File.pwrite]
    split <;> omega
  · apply cowView_ext a bs p rfl hin hend hr
    · intro i hip hi
      unfold cowView
      rw [if_pos hi, if_pos hi, hv]
      cases hmi : cl.difmap[i / DIFFPAGESIZE]? with
      | none => rfl
      | some mi =>
        simp only []
        split
        · rename_i hne
          have hmm : mi ≠ m := by
            intro h0
            subst h0
            exact hip (hok.inj (i / DIFFPAGESIZE) p mi hmi hm hne)
          rw [hcont, hcont0, Flat.write_outside]
          rw [show DIFFPAGESIZE = 4096 from rfl]
          omega
        · rfl
    · intro i hip hi
      rw [cowView_dirty hm hn i hip hi, hcont]
      by_cases hx : a ≤ i ∧ i < a + bs.length
      · rw [show m * 4096 + i % 4096 = m * 4096 + a % 4096 + (i - a) by omega,
          Flat.write_inside _ _ _ _ (by omega)]
        conv => rhs; rw [show i = a + (i - a) by omega]
        rw [Flat.write_inside _ _ _ _ (by omega)]
      · rw [Flat.write_outside _ _ _ _ (by omega), Flat.write_outside _ _ _ _ (by omega),
          cowView_dirty hm hn i hip hi, hcont0]

theorem bufSet_some (xs bs : List Byte) (off : Nat) :
    bufSet (xs.map some) off bs = (xs.take off ++ bs ++ xs.drop (off + bs.length)).map some := by
  unfold bufSet
  simp only [List.map_append, List.map_take, List.map_drop]

/-- The client after a page was appended to the diff file for page `p`. -/
def Client.appended (cl : Client) (p : Nat) : Client :=
  { cl with
    difmap := cl.difmap.set p cl.difffilelen
    difffilelen := cl.difffilelen + 1
    diffpos := cl.diffpos + 4096 }

/-- Appending a page to the diff file and recording where it is. -/
theorem write_clean (cl : Client) (w : World) (hok : CowOk cl w) (p a : Nat) (bs page : List Byte)
    (hm : cl.difmap[p]? = some NOPAGE) (f : File) (hf : w.files (.fd cl.difffile) = some f)
    (hin : a / 4096 = p) (hend : a % 4096 + bs.length ≤ 4096) (hr : a + bs.length ≤ cl.ex.exportsize)
    (hpl : page.length = 4096)
    (hpage : ∀ j, j < 4096 → page[j]? = some ((cowView cl w).write a bs (p * 4096 + j))) :
    CowStep cl w (cl.appended p) ((w.step).set (.fd cl.difffile) (f.pwrite cl.diffpos page)) ∧
    cowView (cl.appended p) ((w.step).set (.fd cl.difffile) (f.pwrite cl.diffpos page)) =
      (cowView cl w).write a bs := by
  have hroom := hok.room hm
  have hlt : p < cl.difmap.length := (List.getElem?_eq_some_iff.mp hm).1
  generalize hw' : (w.step).set (.fd cl.difffile) (f.pwrite cl.diffpos page) = w'
  have hkept : KeptOff cl.difffile (has cl.ex.flags F_TREEFILES) w w' := by
    rw [← hw']; exact .of_set _ rfl
  have hf' : w'.files (.fd cl.difffile) = some (f.pwrite cl.diffpos page) := by
    rw [← hw']; exact World.set_files_same _ _ _
  have hpos := hok.pos
  have hcont : ∀ o, content w' (.fd cl.difffile, o) = f.data.write (cl.difffilelen * 4096) page o := by
    intro o; unfold content; simp only [hf', ← hpos]; rfl
  have hcont0 : ∀ o, content w (.fd cl.difffile, o) = f.data o := by
    intro o; unfold content; simp only [hf]
  have hv := view_off_diff hok.own hkept
  have hnl : cl.difffilelen ≠ NOPAGE := by unfold NOPAGE; omega
  have hset : ∀ q : Nat, (cl.difmap.set p cl.difffilelen)[q]? = if q = p then some cl.difffilelen else cl.difmap[q]? := by
    intro q
    by_cases hq : q = p
    · subst hq; rw [if_pos rfl, List.getElem?_set_self hlt]
    · rw [if_neg hq, List.getElem?_set_ne (Ne.symm hq)]
  refine ⟨⟨{ hok with len := ?_, file := ?_, pos := ?_, count := ?_, slots := ?_, inj := ?_ }, ⟨rfl, rfl, rfl, rfl, rfl⟩,
    by rw [← hw']; rfl, hkept⟩, ?_⟩
  · show (cl.difmap.set p cl.difffilelen).length = _
    rw [List.length_set]; exact hok.len
  · obtain ⟨f0, h1, h2⟩ := hok.file
    rw [hf] at h1; cases h1
    refine ⟨_, hf', ?_⟩
    show (cl.difffilelen + 1) * 4096 ≤ _
    simp only [File.pwrite]
    have hne : page ≠ [] := by intro h0; rw [h0] at hpl; simp at hpl
    rw [if_neg hne, hpl, hpos, Nat.add_mul, Nat.one_mul]
    exact Nat.le_max_right _ _
  · show cl.diffpos + 4096 = (cl.difffilelen + 1) * 4096
    rw [hpos, Nat.add_mul, Nat.one_mul]
  · show List.countP _ (cl.difmap.set p cl.difffilelen) = cl.difffilelen + 1
    have hge : cl.difmap[p] = NOPAGE := by
      have h0 := List.getElem?_eq_getElem hlt
      rw [hm] at h0
      exact (Option.some.inj h0).symm
    rw [List.countP_set hlt, hge, hok.count]
    simp [hnl]
  · intro q m hq hne
    have hq : (cl.difmap.set p cl.difffilelen)[q]? = some m := hq
    show m < cl.difffilelen + 1
    rw [hset] at hq
    split at hq
    · cases hq; omega
    · have := hok.slots q m hq hne; omega
  · intro q q' m h1 h2 hne
    have h1 : (cl.difmap.set p cl.difffilelen)[q]? = some m := h1
    have h2 : (cl.difmap.set p cl.difffilelen)[q']? = some m := h2
    rw [hset] at h1 h2
    split at h1 <;> split at h2
    · omega
    · cases h1; have := hok.slots q' _ h2 hne; omega
    · cases h2; have := hok.slots q _ h1 hne; omega
    · exact hok.inj q q' m h1 h2 hne
  · apply cowView_ext (cl := cl) (cl' := cl.appended p) (w := w) (w' := w') a bs p rfl hin hend hr
    · intro i hip hi
      unfold cowView
      rw [if_pos hi]
      show (if i < cl.ex.exportsize then (match (cl.difmap.set p cl.difffilelen)[i / DIFFPAGESIZE]? with
        | some m => if m ≠ NOPAGE then content w' (.fd cl.difffile, m * DIFFPAGESIZE + i % DIFFPAGESIZE) else view cl.ex w' i
        | none => view cl.ex w' i) else 0) = _
      rw [if_pos hi, hv, hset, if_neg (by exact hip)]
      cases hmi : cl.difmap[i / DIFFPAGESIZE]? with
      | none => rfl
      | some mi =>
        simp only []
        split
        · rename_i hne
          have := hok.slots _ _ hmi hne
          rw [hcont, hcont0, Flat.write_outside]
          rw [show DIFFPAGESIZE = 4096 from rfl]
          omega
        · rfl
    · intro i hip hi
      rw [cowView_dirty (cl := cl.appended p) (p := p) (m := cl.difffilelen) (by show (cl.difmap.set p cl.difffilelen)[p]? = _; rw [hset, if_pos rfl]) hnl i hip hi]
      show content w' (.fd cl.difffile, cl.difffilelen * 4096 + i % 4096) = _
      rw [hcont]
      have hj := hpage (i % 4096) (by omega)
      have hlt2 : i % 4096 < page.length := by omega
      rw [Flat.write_inside _ _ _ _ hlt2]
      rw [List.getElem?_eq_getElem hlt2] at hj
      have hj := Option.some.inj hj
      rw [hj, show p * 4096 + i % 4096 = i by omega]

/-- Is page `q` in the diff file? -/
def Dirty (cl : Client) (q : Nat) : Prop := ∃ m, cl.difmap[q]? = some m ∧ m ≠ NOPAGE

theorem expwritePages_cow (n : Nat) : ∀ (cl : Client) (w : World) (pb : List (Option Byte)) (mapcnt a : Nat)
    (buf : List Byte), CowOk cl w → Generous w → Backed cl.ex w → pb.length = 4096 → mapcnt = a / 4096 →
    0 < buf.length → n = (a + buf.length - 1) / 4096 + 1 - a / 4096 → a + buf.length ≤ cl.ex.exportsize →
    ∃ cl' w', expwritePages n cl w pb mapcnt a buf = .val (cl', w', true) ∧ CowStep cl w cl' w' ∧
      cowView cl' w' = (cowView cl w).write a buf ∧
      ∀ q, Dirty cl' q → Dirty cl q ∨ (a / 4096 ≤ q ∧ q ≤ (a + buf.length - 1) / 4096) := by
  induction n with
  | zero => intro cl w pb mapcnt a buf _ _ _ _ _ hl hn; omega
  | succ n ih =>
    intro cl w pb mapcnt a buf hok hgen hb hpb hmap hl hn hr
    have hwhole := hok.whole
    have hlen := hok.len
    have hsz := hok.good.size
    have hpage : mapcnt < cl.difmap.length := by rw [hlen]; omega
    obtain ⟨m, hm⟩ : ∃ m, cl.difmap[mapcnt]? = some m := ⟨_, List.getElem?_eq_getElem hpage⟩
    have hoff : a - mapcnt * 4096 = a % 4096 := by omega
    have hcap : mapcnt * 4096 + 4096 ≤ cl.ex.exportsize := by
      clear hm
      omega
    have hpl : pageLen (a % 4096) buf.length = min buf.length (4096 - a % 4096) := by
      unfold pageLen; rw [show DIFFPAGESIZE = 4096 from rfl]; split <;> omega
    generalize hrd : min buf.length (4096 - a % 4096) = wr at hpl
    have hwrpos : 0 < wr := by omega
    have htl : (buf.take wr).length = wr := by rw [List.length_take]; omega
    have hend : a % 4096 + (buf.take wr).length ≤ 4096 := by omega
    have hrange : a + (buf.take wr).length ≤ cl.ex.exportsize := by omega
    -- the rest of the loop, after this page has been stored
    have hrest : ∀ (cl1 : Client) (w1 : World) (pb1 : List (Option Byte)), pb1.length = 4096 →
        CowStep cl w cl1 w1 → cowView cl1 w1 = (cowView cl w).write a (buf.take wr) →
        (∀ q, Dirty cl1 q → Dirty cl q ∨ q = mapcnt) →
        ∃ cl' w', expwritePages n cl1 w1 pb1 (mapcnt + 1) (a + wr) (buf.drop wr) = .val (cl', w', true) ∧
          CowStep cl w cl' w' ∧ cowView cl' w' = (cowView cl w).write a buf ∧
          ∀ q, Dirty cl' q → Dirty cl q ∨ (a / 4096 ≤ q ∧ q ≤ (a + buf.length - 1) / 4096) := by
      intro cl1 w1 pb1 hp1 hst hv hd
      by_cases hlast : buf.length = wr
      · have hn0 : n = 0 := by omega
        subst hn0
        refine ⟨cl1, w1, by rw [expwritePages], hst, ?_, ?_⟩
        · rw [hv, List.take_of_length_le (by omega)]
        · intro q hq
          rcases hd q hq with h | h
          · exact .inl h
          · right; omega
      · have hdl : (buf.drop wr).length = buf.length - wr := List.length_drop
        have hb1 : Backed cl1.ex w1 := by
          have := hb.of_keptOff hok.own hst.kept
          rw [hst.seat.ex]; exact this
        obtain ⟨cl', w', h1, h2, h3, h4⟩ := ih cl1 w1 pb1 (mapcnt + 1) (a + wr) (buf.drop wr) hst.ok
          (hgen.of_orc hst.orc) hb1 hp1 (by omega) (by omega) (by rw [hdl]; omega)
          (by rw [hdl, hst.seat.ex]; omega)
        refine ⟨cl', w', h1, hst.trans h2, ?_, ?_⟩
        · rw [h3, hv]
          conv => rhs; rw [← List.take_append_drop wr buf]
          rw [Flat.write_append, htl]
        · intro q hq
          rcases h4 q hq with h | h
          · rcases hd q h with h | h
            · exact .inl h
            · right; omega
          · right; rw [hdl] at h; omega
    obtain ⟨f, hf, hfs⟩ := hok.file
    rw [expwritePages]
    rw [show DIFFPAGESIZE = 4096 from rfl, hoff, hpl, hm]
    simp only []
    by_cases hne : m = NOPAGE
    · subst hne
      have hroom := hok.room hm
      rw [if_neg (by simp), hok.nowait, hok.nosparse]
      simp only [Bool.false_eq_true, and_false, if_false]
      have hmod : (cl.difffilelen + 1) % 2 ^ 32 = cl.difffilelen + 1 := Nat.mod_eq_of_lt (by omega)
      rw [hmod]
      have hcv : ∀ j, j < 4096 → cowView cl w (mapcnt * 4096 + j) = view cl.ex w (mapcnt * 4096 + j) := by
        intro j hj
        exact cowView_clean hm _ (by omega)
      -- the page buffer is filled from the original if the write covers only a part of it
      have hfill : ∃ (w1 : World) (pb1 : List (Option Byte)) (page : List Byte), (if a % 4096 ≠ 0 ∨ wr ≠ 4096 then pageIn cl.ex w pb (mapcnt * 4096) 0 4096
            else .val (w, pb, true)) = .val (w1, pb1, true) ∧ w1.files = w.files ∧ w1.orc = w.orc ∧
          bufSet pb1 (a % 4096) (buf.take wr) = page.map some ∧ page.length = 4096 ∧
          ∀ j, j < 4096 → page[j]? = some ((cowView cl w).write a (buf.take wr) (mapcnt * 4096 + j)) := by
        by_cases hpart : a % 4096 ≠ 0 ∨ wr ≠ 4096
        · rw [if_pos hpart]
          obtain ⟨w1, h1, h2, h3⟩ := pageIn_backed cl.ex hok.good w hgen.healthy hb pb (mapcnt * 4096) 0 4096
            hcap (by rw [hpb]; exact Nat.le_refl _)
          have hbs : bufSet pb 0 ((view cl.ex w).read (mapcnt * 4096) 4096) =
              ((view cl.ex w).read (mapcnt * 4096) 4096).map some := by
            unfold bufSet
            rw [List.take_zero, Flat.read_length, List.drop_of_length_le (by omega)]
            simp
          rw [hbs] at h1
          refine ⟨w1, _, _, h1, h2, h3, bufSet_some _ _ _, ?_, ?_⟩
          · simp only [List.length_append, List.length_take, List.length_drop, Flat.read_length]
            simp only [List.length_take] at htl
            omega
          · intro j hj
            rw [List.getElem?_append, List.getElem?_append]
            simp only [List.length_append, List.length_take, Flat.read_length, List.getElem?_take, List.getElem?_drop,
              Flat.read_getElem?]
            simp only [List.length_take] at htl
            rw [htl, Nat.min_eq_left (by omega : a % 4096 ≤ 4096)]
            by_cases hj1 : j < a % 4096
            · rw [if_pos (by omega), if_pos hj1, if_pos hj1, if_pos (by omega),
                Flat.write_outside _ _ _ _ (.inl (by omega)), hcv j hj]
            · by_cases hj2 : j < a % 4096 + wr
              · rw [if_pos hj2, if_neg hj1, if_pos (by omega)]
                rw [show mapcnt * 4096 + j = a + (j - a % 4096) by omega,
                  Flat.write_inside _ _ _ _ (by rw [List.length_take]; omega), List.getElem_take,
                  List.getElem?_eq_getElem (by omega)]
              · rw [if_neg hj2, if_pos (by omega), Flat.write_outside _ _ _ _ (.inr (by rw [List.length_take]; omega)),
                  hcv j hj]
                rw [show a % 4096 + wr + (j - (a % 4096 + wr)) = j by omega]
        · rw [if_neg hpart]
          have h0 : a % 4096 = 0 := by omega
          have hw4 : wr = 4096 := by omega
          refine ⟨w, pb, buf.take wr, rfl, rfl, rfl, ?_, by omega, ?_⟩
          · unfold bufSet
            rw [h0, List.take_zero, htl, List.drop_of_length_le (by omega)]
            simp
          · intro j hj
            rw [show mapcnt * 4096 + j = a + j by omega, Flat.write_inside _ _ _ _ (by omega),
              List.getElem?_eq_getElem (by omega)]
      obtain ⟨w1, pb1, page, h1, h2, h3, h4, h5, h6⟩ := hfill
      rw [h1]
      simp only []
      rw [h4, allInit_map]
      simp only []
      have hok1 := hok.of_files h2
      have hf1 : w1.files (.fd cl.difffile) = some f := by rw [h2]; exact hf
      have hda : diffAppend (⟨cl.ex, false, cl.difmap.set mapcnt cl.difffilelen, cl.difffilelen + 1, cl.difffile,
          cl.diffpos, cl.structured, cl.tls⟩ : Client) w1 page = ((w1.step).set (.fd cl.difffile) (f.pwrite cl.diffpos page), cl.appended mapcnt, some 4096) := by
        unfold diffAppend
        simp only []
        rw [sysPwrite_generous (hgen.of_orc h3) cl.difffile f hf1 cl.diffpos page (by omega), h5]
        simp only [Client.appended, hok.nowait]
      rw [hda]
      simp only []
      rw [if_neg (by simp)]
      obtain ⟨hstep, hv⟩ := write_clean cl w1 hok1 mapcnt a (buf.take wr) page hm f hf1 hmap.symm hend hrange h5
        (by rw [cowView_of_files cl h2]; exact h6)
      rw [cowView_of_files cl h2] at hv
      apply hrest _ _ _ (by rw [List.length_map]; exact h5) _ hv
      · rintro q ⟨m', hq, hne'⟩
        have hq : (cl.difmap.set mapcnt cl.difffilelen)[q]? = some m' := hq
        by_cases hqm : q = mapcnt
        · exact .inr hqm
        · rw [List.getElem?_set_ne (Ne.symm hqm)] at hq
          exact .inl ⟨m', hq, hne'⟩
      · exact ⟨hstep.ok, hstep.seat, hstep.orc.trans h3, (KeptOff.of_files h2).trans hstep.kept⟩
    · rw [if_pos hne]
      rw [sysPwrite_generous hgen cl.difffile f hf _ _ (by omega), htl]
      simp only []
      rw [if_neg (by simp)]
      obtain ⟨hstep, hv⟩ := write_dirty cl w hok mapcnt m a (buf.take wr) hm hne f hf hmap.symm hend hrange
      exact hrest _ _ _ hpb hstep hv (fun q hq => .inl hq)

theorem sysFsync_content (w : World) (id : FileId) : SameContent w (sysFsync w id).1 := by
  intro x
  unfold sysFsync
  split
  · rfl
  · rename_i f hf
    split
    · rfl
    · unfold content
      by_cases h : x.1 = id
      · rw [h, World.set_files_same, hf]; rfl
      · rw [World.set_files_ne _ _ h]; rfl

theorem SameContent.cowView {w w' : World} (h : SameContent w w') (cl : Client) : cowView cl w' = cowView cl w := by
  funext i
  unfold Nbd.cowView
  rw [h.view]
  split
  · split
    · split
      · exact h _
      · rfl
    · rfl
  · rfl

theorem sysFsync_cow (cl : Client) (w : World) (hok : CowOk cl w) : CowStep cl w cl (sysFsync w (.fd cl.difffile)).1 := by
  refine ⟨{ hok with file := ?_ }, .refl _, ?_, sysFsync_keptOff _ _ _⟩
  · obtain ⟨f, hf, hs⟩ := hok.file
    unfold sysFsync
    rw [hf]
    simp only []
    split
    · exact ⟨f, hf, hs⟩
    · exact ⟨_, World.set_files_same _ _ _, hs⟩
  · unfold sysFsync
    split
    · rfl
    · split <;> rfl

theorem expwrite_cow (cl : Client) (w : World) (a : Nat) (buf : List Byte) (fua : Bool) (hok : CowOk cl w)
    (hgen : Generous w) (hb : Backed cl.ex w) (hl : 0 < buf.length) (hr : a + buf.length ≤ cl.ex.exportsize) :
    ∃ cl' w', expwrite cl w a buf fua = .val (cl', w', true) ∧ CowStep cl w cl' w' ∧
      cowView cl' w' = (cowView cl w).write a buf ∧
      ∀ q, Dirty cl' q → Dirty cl q ∨ (a / 4096 ≤ q ∧ q ≤ (a + buf.length - 1) / 4096) := by
  have hsz := hok.good.size
  have hpg : cl.paged = true := by unfold Client.paged; rw [hok.cow]; rfl
  obtain ⟨cl', w', h1, h2, h3, h4⟩ := expwritePages_cow (pageCount a buf.length) cl w (List.replicate DIFFPAGESIZE none)
    (a / 4096) a buf hok hgen hb (by rw [List.length_replicate]; rfl) rfl hl
    (by unfold pageCount; rw [lastPage_pos hl (by omega)]; rfl) hr
  unfold expwrite
  rw [hpg, if_pos rfl, show a / DIFFPAGESIZE = a / 4096 from rfl, h1]
  simp only []
  split
  · refine ⟨_, _, rfl, h2.trans (sysFsync_cow _ _ h2.ok), ?_, h4⟩
    rw [(sysFsync_content _ _).cowView]; exact h3
  · exact ⟨_, _, rfl, h2, h3, h4⟩

end Nbd
