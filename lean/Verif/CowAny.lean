import Verif.CowSession
/-! # Copy-on-write sessions on a kernel whose calls may fail or be short -/

set_option autoImplicit false

namespace Nbd.Spec

/-- What a copy-on-write session answers on any kernel: like a flat array, except that a read or a flush may fail (and change
nothing), and that nothing is said any more once a write or a write-zeroes has been answered with an error (`true`). -/
inductive CowRun (size : Nat) (ro structured : Bool) : Flat → List Cmd → List Reply → Bool → Prop where
  | nil (f : Flat) : CowRun size ro structured f [] [] false
  | step (f g : Flat) (c : Cmd) (rs : List Reply) (cs : List Cmd) (rest : List Reply) (bad : Bool)
      (h1 : SureStep size ro structured f c rs g) (h2 : CowRun size ro structured g cs rest bad) :
      CowRun size ro structured f (c :: cs) (rs ++ rest) bad
  | readFails (f : Flat) (c : Cmd) (rs : List Reply) (cs : List Cmd) (rest : List Reply) (bad : Bool)
      (hc : c.code = 0) (hr : c.start + c.len ≤ size)
      (h : ReadFailure c.cookie c.start (f.read c.start c.len) structured rs)
      (h2 : CowRun size ro structured f cs rest bad) : CowRun size ro structured f (c :: cs) (rs ++ rest) bad
  | flushFails (f : Flat) (c : Cmd) (err : Nat) (cs : List Cmd) (rest : List Reply) (bad : Bool)
      (hc : c.code = 3) (he : err ∈ errnos) (h2 : CowRun size ro structured f cs rest bad) :
      CowRun size ro structured f (c :: cs) (.simple err c.cookie [] :: rest) bad
  | writeFails (f : Flat) (c : Cmd) (err : Nat) (cs : List Cmd)
      (hc : c.code = 1 ∨ c.code = 6) (hw : ro = false) (hr : c.start + c.len ≤ size) (he : err ∈ errnos) :
      CowRun size ro structured f (c :: cs) [.simple err c.cookie []] true

end Nbd.Spec

namespace Nbd

open Spec (Sent)

/-- A kernel that answers "zero bytes" only at the end of a file. -/
def NoEarlyEof (w : World) : Prop := ∀ t, w.orc t ≠ .done 0

theorem NoEarlyEof.of_orc {w w' : World} (h : NoEarlyEof w) (ho : w'.orc = w.orc) : NoEarlyEof w' := by
  intro t; rw [ho]; exact h t

theorem getFilepos_present (ex : Export) (hg : GoodExport ex) (w : World) (hb : Backed ex w) (a : Nat)
    (ha : a < ex.exportsize) :
    (∃ w' id off mb, getFilepos ex w a = .val (w', some (.file id, off, mb)) ∧
      w'.files = w.files ∧ w'.orc = w.orc ∧ home ex a = some (id, off)) ∨
    ∃ w' off mb, getFilepos ex w a = .val (w', some (.bad, off, mb)) ∧ w'.files = w.files ∧ w'.orc = w.orc := by
  have hsz := hg.size
  cases ht : has ex.flags F_TREEFILES with
  | false =>
    obtain ⟨fi, nx, hloc, hq⟩ := getFilepos_files ex w a (by omega) ht (hg.files ht)
    left
    refine ⟨w, _, _, _, hq, rfl, rfl, ?_⟩
    simp [home, ht, hloc]
  | true =>
    obtain ⟨id, o, f, h1, h2, h3⟩ := hb a ha
    unfold home at h1
    rw [ht] at h1
    simp only [if_true, Option.map_eq_some_iff, Prod.mk.injEq] at h1
    obtain ⟨p, hp, rfl, rfl⟩ := h1
    cases hnext : w.next with
    | done n =>
      left
      refine ⟨w.step, .path p, a % TREEPAGESIZE,
        ((1 + a / TREEPAGESIZE) * TREEPAGESIZE) - a, ?_, rfl, rfl, ?_⟩
      · unfold getFilepos
        rw [if_neg (by omega), if_pos ht]
        simp only [openTreefile, hp, h2, hnext]
      · simp [home, ht, hp]
    | err e =>
      right
      refine ⟨w.fail e, a % TREEPAGESIZE, ((1 + a / TREEPAGESIZE) * TREEPAGESIZE) - a, ?_, rfl, rfl⟩
      unfold getFilepos
      rw [if_neg (by omega), if_pos ht]
      simp only [openTreefile, hp, h2, hnext]

theorem rawexpread_present (ex : Export) (hg : GoodExport ex) (w : World) (hh : NoEarlyEof w)
    (hb : Backed ex w) (a len : Nat) (hl : 0 < len) (hr : a + len ≤ ex.exportsize) :
    ∃ w' r, rawexpread ex w a len = .val (w', r) ∧ w'.files = w.files ∧ w'.orc = w.orc ∧ r ≠ some [] := by
  rcases getFilepos_present ex hg w hb a (by omega) with ⟨w1, id, off, mb, hq, hf, ho, hhome⟩ | ⟨w1, off, mb, hq, hf, ho⟩
  · obtain ⟨id', o', f, h1, h2, h3⟩ := hb a (by omega)
    rw [hhome] at h1
    cases h1
    have hh1 := hh.of_orc ho
    unfold rawexpread
    rw [hq]
    simp only [handlePread, sysPread, hf, h2]
    cases hnext : w1.next with
    | err e => exact ⟨_, none, rfl, hf, ho, by simp⟩
    | done n =>
      have hn : n ≠ 0 := by
        intro h0
        subst h0
        exact hh1 w1.tick hnext
      refine ⟨_, _, rfl, hf, ho, ?_⟩
      intro h0
      have hlen : 0 < (f.pread off (clip mb len) (min n MAX_RW_COUNT)).length := by
        have := clip_pos (mb := mb) hl
        simp only [File.pread, Flat.read_length, MAX_RW_COUNT]
        omega
      rw [Option.some.inj h0] at hlen
      simp at hlen
  · unfold rawexpread
    rw [hq]
    exact ⟨_, none, rfl, hf, ho, by simp⟩

theorem rawexpreadFully_present (ex : Export) (hg : GoodExport ex) (w : World) (hh : NoEarlyEof w)
    (hb : Backed ex w) (c : ReadCtx) (hr : c.start + c.curOff + c.curLen ≤ ex.exportsize)
    (hbuf : c.chunked = false → c.curOff + c.curLen ≤ c.buf.length) :
    ∃ w' c' ok, rawexpreadFully ex w c = .val (w', c', ok) ∧ w'.files = w.files ∧ w'.orc = w.orc := by
  fun_induction rawexpreadFully ex w c with
  | case1 w c h => exact ⟨_, _, _, rfl, rfl, rfl⟩
  | case2 w c h hq =>
    obtain ⟨_, _, h1, _⟩ := rawexpread_present ex hg w hh hb _ _ (by omega) hr
    rw [hq] at h1; cases h1
  | case3 w c h hq =>
    obtain ⟨_, _, h1, _⟩ := rawexpread_present ex hg w hh hb _ _ (by omega) hr
    rw [hq] at h1; cases h1
  | case4 w c h w1 hq =>
    obtain ⟨_, _, h1, h2, h3, _⟩ := rawexpread_present ex hg w hh hb _ _ (by omega) hr
    rw [hq] at h1; cases h1
    exact ⟨_, _, _, rfl, h2, h3⟩
  | case5 w c h w1 hq =>
    obtain ⟨_, _, h1, h2, h3, _⟩ := rawexpread_present ex hg w hh hb _ _ (by omega) hr
    rw [hq] at h1; cases h1
    exact ⟨_, _, _, rfl, h2, h3⟩
  | case6 w c h w1 b bs hq hd =>
    obtain ⟨_, hsp⟩ := rawexpread_spec ex hg w _ _ hr (by omega)
    obtain ⟨hle, _⟩ := (hsp _ _ hq).2 _ rfl
    obtain ⟨c2, hd2, _⟩ := deliver_spec c (b :: bs) hle hbuf
    rw [hd] at hd2; cases hd2
  | case7 w c h w1 b bs hq hd =>
    obtain ⟨_, hsp⟩ := rawexpread_spec ex hg w _ _ hr (by omega)
    obtain ⟨hle, _⟩ := (hsp _ _ hq).2 _ rfl
    obtain ⟨c2, hd2, _⟩ := deliver_spec c (b :: bs) hle hbuf
    rw [hd] at hd2; cases hd2
  | case8 w c h w1 b bs hq c1 hd ih =>
    obtain ⟨_, hsp⟩ := rawexpread_spec ex hg w _ _ hr (by omega)
    obtain ⟨hle, _⟩ := (hsp _ _ hq).2 _ rfl
    obtain ⟨_, _, h1, hf1, ho1, _⟩ := rawexpread_present ex hg w hh hb _ _ (by omega) hr
    rw [hq] at h1; cases h1
    obtain ⟨c2, hd2, e1, e2, e3, e4, e5, e6⟩ := deliver_spec c (b :: bs) hle hbuf
    rw [hd] at hd2; cases hd2
    obtain ⟨w', c', ok, i1, i2, i3⟩ := ih (hh.of_orc ho1) (hb.of_files hf1) (by simp only [e1]; omega)
      (by
        intro hc
        have hc : c.chunked = false := by
          rw [← hc]; unfold ReadCtx.chunked; simp only [e3, e4]
        have := hbuf hc
        simp only [(e5 hc).1]
        rw [bufSet_length _ _ _ (by omega)]
        omega)
    exact ⟨w', c', ok, i1, i2.trans hf1, i3.trans ho1⟩

/-- Reading from a page in the diff file: an error, or a prefix of what the session sees. -/
theorem sysPread_saved {cl : Client} {w : World} (hok : CowOk cl w) {p m : Nat}
    (hm : cl.difmap[p]? = some m) (hn : m ≠ NOPAGE) (off len : Nat) (hl : off + len ≤ 4096) :
    ∃ w' r, sysPread w (.fd cl.difffile) (diffOffset m off) len = (w', r) ∧ w'.files = w.files ∧ w'.orc = w.orc ∧
      ∀ bs, r = some bs → bs.length ≤ len ∧ bs = (cowView cl w).read (p * 4096 + off) bs.length := by
  obtain ⟨hm20, hmlt⟩ := hok.dirty_lt hm hn
  obtain ⟨f, hf, hsz⟩ := hok.file
  have hp : p < cl.difmap.length := (List.getElem?_eq_some_iff.mp hm).1
  rw [hok.len] at hp
  have hwhole := hok.whole
  unfold sysPread
  simp only [hf]
  cases hnext : w.next with
  | err e => exact ⟨_, none, rfl, rfl, rfl, by simp⟩
  | done n =>
    refine ⟨_, _, rfl, rfl, rfl, ?_⟩
    intro bs hbs
    have hbs := Option.some.inj hbs
    rw [diffOffset_small hm20] at hbs
    unfold File.pread at hbs
    have hlen : bs.length = min (min n MAX_RW_COUNT) (min len (f.size - (m * 4096 + off))) := by
      rw [← hbs, Flat.read_length]
    refine ⟨by omega, ?_⟩
    rw [← hlen] at hbs
    apply List.ext_getElem?
    intro i
    conv => lhs; rw [← hbs]
    rw [Flat.read_getElem?, Flat.read_getElem?]
    split
    · rename_i hi
      rw [cowView_dirty hm hn (p * 4096 + off + i) (by omega) (by omega)]
      unfold content
      simp only [hf]
      have h1 : (p * 4096 + off + i) % 4096 = off + i := by omega
      rw [h1, Nat.add_assoc]
    · rfl

theorem Got.zero (v : Flat) (c : ReadCtx) : Got v c c 0 :=
  ⟨rfl, rfl, rfl, fun _ => by rw [Flat.read_zero, bufSet_nil], fun _ => rfl, [], by simp, fun _ => rfl,
    fun _ => by rw [Flat.read_zero]; exact .nil _⟩

/-- The page loop of a read: what is delivered is a prefix of what the session sees, all of it if success is reported. -/
theorem expreadPages_any (cl : Client) (n : Nat) : ∀ (w : World) (c : ReadCtx) (mapcnt a len : Nat),
    CowOk cl w → NoEarlyEof w → Backed cl.ex w → c.structured = cl.structured → c.df = false →
    a = c.start + c.curOff → mapcnt = a / 4096 → n = (a + len - 1) / 4096 + 1 - a / 4096 → 0 < len →
    a + len ≤ cl.ex.exportsize →
    (c.chunked = false → c.curOff + len ≤ c.buf.length) →
    (∀ p m : Nat, a / 4096 ≤ p → p ≤ (a + len - 1) / 4096 → cl.difmap[p]? = some m → m ≠ NOPAGE →
      p = (a + len - 1) / 4096 ∧ (cl.structured = true → p = a / 4096 ∧ len ≤ c.curLen)) →
    ∃ w' c' ok, expreadPages cl n w c mapcnt a len = .val (w', c', ok) ∧ w'.files = w.files ∧ w'.orc = w.orc ∧
      ∃ k, k ≤ len ∧ Got (cowView cl w) c c' k ∧ (ok = true → k = len) := by
  induction n with
  | zero => intro w c mapcnt a len _ _ _ _ _ _ _ hn hl; omega
  | succ n ih =>
    intro w c mapcnt a len hok hgen hb hstr hdf ha hmap hn hl hr hbuf hread
    have hwhole := hok.whole
    have hlen := hok.len
    have hsz := hok.good.size
    have hpage : mapcnt < cl.difmap.length := by rw [hlen]; omega
    obtain ⟨m, hm⟩ : ∃ m, cl.difmap[mapcnt]? = some m := ⟨_, List.getElem?_eq_getElem hpage⟩
    have hoff : a - mapcnt * 4096 = a % 4096 := by omega
    have hpl : pageLen (a % 4096) len = min len (4096 - a % 4096) := by
      unfold pageLen; rw [show DIFFPAGESIZE = 4096 from rfl]; split <;> omega
    generalize hrd : min len (4096 - a % 4096) = rdlen at hpl
    have hrdpos : 0 < rdlen := by omega
    rw [expreadPages]
    rw [show DIFFPAGESIZE = 4096 from rfl, hoff, hpl, hm]
    simp only []
    by_cases hne : m = NOPAGE
    · -- an original page
      subst hne
      rw [if_neg (by simp), hok.nowait, if_neg (by simp)]
      have hr1 : c.start + c.curOff + rdlen ≤ cl.ex.exportsize := by omega
      have hbuf1 : ({ c with curLen := rdlen } : ReadCtx).chunked = false →
          ({ c with curLen := rdlen } : ReadCtx).curOff + rdlen ≤ ({ c with curLen := rdlen } : ReadCtx).buf.length := by
        intro hc
        have hc : c.chunked = false := hc
        have := hbuf hc
        show c.curOff + rdlen ≤ c.buf.length
        omega
      obtain ⟨w1, c1, ok1, hq, hf, ho⟩ := rawexpreadFully_present cl.ex hok.good w hgen hb { c with curLen := rdlen } hr1 hbuf1
      obtain ⟨hsame, k, hdel, hk⟩ := (rawexpreadFully_spec cl.ex hok.good w { c with curLen := rdlen } hr1 hbuf1).2 _ _ _ hq
      have hkle : k ≤ rdlen := hdel.le
      have hview : (view cl.ex w).read a k = (cowView cl w).read a k := by
        apply Flat.read_congr
        intro i h1 h2
        exact (cowView_clean hm i (by omega)).symm
      have hgot1 : Got (cowView cl w) c c1 k := by
        refine ⟨hdel.start, hdel.structured, hdel.df, ?_, hdel.bufKept, ?_⟩
        · intro hc
          rw [hdel.buf hc, ← ha, ← hview]
        · obtain ⟨cs, k1, k2, k3⟩ := hdel.chunks
          refine ⟨cs, k1, k2, ?_⟩
          intro hc
          have := k3 hc
          rw [← ha, ← hview, ha]
          exact this
      rw [hq]
      cases ok1 with
      | false => exact ⟨w1, c1, false, rfl, hf, ho, k, by omega, hgot1, by simp⟩
      | true =>
      obtain rfl : k = rdlen := hk rfl
      simp only []
      have hst : c1.start = c.start := hdel.start
      have hco : c1.curOff = c.curOff + k := hdel.curOff
      have hch1 : c1.chunked = c.chunked := by
        unfold ReadCtx.chunked; rw [hdel.structured, hdel.df]
      by_cases hrest : len = k
      · -- the last page
        have hn0 : n = 0 := by omega
        subst hn0
        exact ⟨w1, c1, true, by rw [expreadPages], hf, ho, k, by omega, hgot1, fun _ => hrest.symm⟩
      · obtain ⟨w2, c2, ok2, hq2, hf2, ho2, k2, hk2, hgot, hk2'⟩ := ih w1 c1 (mapcnt + 1) (a + k) (len - k) (hok.of_files hf)
          (hgen.of_orc ho) (hb.of_files hf) (hdel.structured.trans hstr) (hdel.df.trans hdf)
          (by rw [hst, hco]; omega) (by omega) (by omega) (by omega) (by omega)
          (by
            intro hc
            rw [hch1] at hc
            have h1 := hbuf hc
            have h2 := hdel.buf hc
            rw [hco, h2, bufSet_length]
            · show c.curOff + k + (len - k) ≤ c.buf.length
              omega
            · rw [Flat.read_length]
              show c.curOff + k ≤ c.buf.length
              omega)
          (by
            intro p m' h1 h2 h3 h4
            obtain ⟨h5, h6⟩ := hread p m' (by omega) (by omega) h3 h4
            refine ⟨by omega, ?_⟩
            intro hs
            obtain ⟨h7, _⟩ := h6 hs
            omega)
        refine ⟨w2, c2, ok2, hq2, hf2.trans hf, ho2.trans ho, k + k2, by omega, ?_, fun h => by have := hk2' h; omega⟩
        rw [cowView_of_files cl hf] at hgot
        refine ⟨hgot.start.trans hdel.start, hgot.structured.trans hdel.structured, hgot.df.trans hdel.df, ?_, ?_, ?_⟩
        · intro hc
          have h1 := hbuf hc
          rw [hgot.buf (hch1.trans hc), hgot1.buf hc, hst, hco, ← ha]
          have h2 := bufSet_append c.buf c.curOff ((cowView cl w).read a k) ((cowView cl w).read (a + k) k2)
            (by simp only [Flat.read_length]; omega)
          rw [Flat.read_length] at h2
          rw [← Nat.add_assoc, ← ha, h2, ← Flat.read_add]
        · intro hc
          rw [hgot.bufKept (hch1.trans hc)]
          exact hdel.bufKept hc
        · obtain ⟨cs, k1, k2', k3⟩ := hgot1.chunks
          obtain ⟨ds, l1, l2, l3⟩ := hgot.chunks
          refine ⟨cs ++ ds, by rw [l1, k1, List.append_assoc], ?_, ?_⟩
          · intro hc
            rw [k2' hc, l2 (hch1.trans hc)]; rfl
          · intro hc
            have h1 := k3 hc
            have h2 := l3 (hch1.trans hc)
            rw [hst, hco, ← Nat.add_assoc, ← ha] at h2
            rw [← ha] at h1
            have h3 := Tiles_append h1 (by rw [Flat.read_length]; exact h2)
            rw [← Flat.read_add] at h3
            rw [← ha]
            exact h3
    · -- a page in the diff file: it is the last one
      rw [if_pos hne]
      obtain ⟨hlast, hs⟩ := hread mapcnt m (by omega) (by omega) hm hne
      have hrl : rdlen = len := by omega
      subst hrl
      have hn0 : n = 0 := by omega
      subst hn0
      obtain ⟨w1, r, hq, hf, ho, hr1⟩ := sysPread_saved hok hm hne (a % 4096) rdlen (by omega)
      rw [hq]
      cases r with
      | none => exact ⟨_, _, _, rfl, hf, ho, 0, by omega, .zero _ _, by simp⟩
      | some bs =>
      obtain ⟨hble, hbv⟩ := hr1 bs rfl
      rw [show mapcnt * 4096 + a % 4096 = a by omega] at hbv
      simp only []
      have hdl : ∃ c', c.deliver bs = .val c' ∧ (bs.length = rdlen → Got (cowView cl w) c c' rdlen) := by
        unfold ReadCtx.deliver
        cases hc : c.chunked with
        | true =>
          have hcs : cl.structured = true := by
            rw [← hstr]
            unfold ReadCtx.chunked at hc
            simp only [Bool.and_eq_true] at hc
            exact hc.1
          have := (hs hcs).2
          rw [if_pos rfl, if_neg (by omega)]
          refine ⟨_, rfl, fun hfull => ⟨rfl, rfl, rfl, by simp [hc], by simp, _, rfl, by simp [hc], ?_⟩⟩
          intro _
          rw [hfull, ha] at hbv
          have h1 := Spec.Tiles.cons (c.start + c.curOff) bs [] [] (by intro h0; rw [h0] at hfull; simp at hfull; omega)
            (by omega) (.nil _)
          rw [List.append_nil] at h1
          rw [← hbv]
          exact h1
        | false =>
          have := hbuf hc
          rw [if_neg (by simp), if_neg (by omega)]
          refine ⟨_, rfl, fun hfull => ⟨rfl, rfl, rfl, ?_, by simp [hc], [], by simp, by simp, by simp [hc]⟩⟩
          intro _
          rw [hfull, ha] at hbv
          rw [← hbv]
      obtain ⟨c', hd, hgot⟩ := hdl
      rw [hd]
      simp only []
      by_cases hfull : bs.length = rdlen
      · rw [if_neg (by simpa using hfull), expreadPages]
        exact ⟨_, _, _, rfl, hf, ho, _, Nat.le_refl _, hgot hfull, fun _ => rfl⟩
      · rw [if_pos hfull]
        exact ⟨_, _, _, rfl, hf, ho, 0, by omega, .zero _ _, by simp⟩

/-- A read that stays where reading back works returns what the session sees, or an error after a prefix of it. -/
theorem handleRead_any (e : Endian) (cl : Client) (w : World) (r : Req) (hok : CowOk cl w) (hgen : NoEarlyEof w)
    (hb : Backed cl.ex w) (hf : r.type < 262144) (hl : 0 < r.len) (hr : r.start + r.len ≤ cl.ex.exportsize)
    (hread : Readable cl r.start r.len) :
    ∃ w' msgs rs, handleRead e cl w r = .val (w', msgs) ∧ w'.files = w.files ∧ w'.orc = w.orc ∧ Encodes msgs rs ∧
      (Spec.ReadAnswer r.cookie r.start ((cowView cl w).read r.start r.len) cl.structured rs ∨
       Spec.ReadFailure r.cookie r.start ((cowView cl w).read r.start r.len) cl.structured rs) := by
  have hsz := hok.good.size
  have hpg : cl.paged = true := by unfold Client.paged; rw [hok.cow]; rfl
  have hdf : has r.type CMD_FLAG_DF = false := has_df_of_flags (by omega)
  obtain ⟨w', c', ok, hq, hfl, ho, k, hk, hgot, hkok⟩ := expreadPages_any cl (pageCount r.start r.len) w (initCtx cl r)
    (r.start / 4096) r.start r.len hok hgen hb rfl rfl rfl rfl
    (by unfold pageCount; rw [lastPage_pos hl (by omega)]; rfl) hl hr
    (by
      intro hc
      have hst : cl.structured = false := by
        simp only [ReadCtx.chunked, initCtx, Bool.not_false, Bool.and_true] at hc
        exact hc
      simp [initCtx, hst])
    (by
      intro p m h1 h2 h3 h4
      obtain ⟨h5, h6⟩ := hread p m h1 h2 h3 h4
      exact ⟨h5, fun hs => ⟨h6 hs, Nat.le_refl _⟩⟩)
  have hex : expread cl w (initCtx cl r) = .val (w', c', ok) := by
    unfold expread
    rw [hpg, if_pos rfl]
    exact hq
  have hcr : ∃ ms, completeRead e c' r.cookie (if ok then none else some (nbdErrno e w'.errno)) = .val ms := by
    unfold completeRead
    have h1 : c'.structured = cl.structured := hgot.structured
    have h2 : c'.df = false := hgot.df
    rw [h1, h2]
    by_cases hst : cl.structured = true
    · rw [if_pos hst]
      cases ok <;> exact ⟨_, rfl⟩
    · have hst : cl.structured = false := by simpa using hst
      rw [if_neg (by simp [hst])]
      cases ok with
      | false => exact ⟨_, rfl⟩
      | true =>
        obtain rfl := hkok rfl
        have hbf := hgot.buf (by simp [ReadCtx.chunked, initCtx, hst])
        simp only [initCtx, hst, Nat.add_zero, Bool.not_false, if_true] at hbf
        rw [bufSet_all _ _ (by simp)] at hbf
        rw [hbf, allInit_map]
        exact ⟨_, rfl⟩
  obtain ⟨ms, hcr⟩ := hcr
  have hnr : ∃ msgs, handleNormalRead e cl w r = .val (w', msgs) := by
    unfold handleNormalRead
    rw [hdf]
    simp only [Bool.and_false, Bool.false_and, Bool.false_eq_true, if_false, Bool.false_or]
    have hex' := hex
    unfold initCtx at hex'
    rw [hex']
    simp only []
    rw [hcr]
    exact ⟨_, rfl⟩
  obtain ⟨msgs, hnr⟩ := hnr
  obtain ⟨c2, ok2, hq2, hx⟩ := handleNormalRead_replies e cl w w' r msgs hdf hnr
  rw [hex] at hq2
  cases hq2
  have hhr : handleRead e cl w r = .val (w', msgs) := by
    unfold handleRead
    rw [hok.nosplice, if_neg (by simp)]
    exact hnr
  obtain ⟨cs, k1, k2, k3⟩ := hgot.chunks
  simp only [initCtx, List.nil_append, Nat.add_zero] at k1 k2 k3
  have hoffs : cl.structured = true → ∀ x ∈ cs, x.1 < 2 ^ 64 := by
    intro hst x hxm
    have htile := k3 (by simp [ReadCtx.chunked, hst])
    have := tiles_offsets htile x hxm
    rw [Flat.read_length] at this
    omega
  cases ok with
  | true =>
    obtain rfl := hkok rfl
    rw [if_pos rfl] at hx
    rcases hx with ⟨hst, hx⟩ | ⟨hst, data, hi, hll, hx⟩
    · have htile := k3 (by simp [ReadCtx.chunked, hst])
      refine ⟨w', msgs, _, hhr, hfl, ho, hx, .inl ?_⟩
      rw [hst, map_mod_chunks, k1, map_mod_id _ (hoffs hst)]
      exact .structured cs htile
    · refine ⟨w', msgs, _, hhr, hfl, ho, hx, .inl ?_⟩
      have hbf := hgot.buf (by simp [ReadCtx.chunked, initCtx, hst])
      simp only [initCtx, hst, Nat.add_zero, Bool.not_false, if_true] at hbf
      rw [bufSet_all _ _ (by simp)] at hbf
      rw [hbf, allInit_map] at hi
      cases hi
      rw [hst]
      exact .simple
  | false =>
    rw [if_neg (by simp)] at hx
    rcases hx with ⟨hst, hx⟩ | ⟨hst, hx⟩
    · have htile := k3 (by simp [ReadCtx.chunked, hst])
      refine ⟨w', msgs, _, hhr, hfl, ho, hx, .inr ?_⟩
      rw [hst, map_mod_chunks, k1, map_mod_id _ (hoffs hst)]
      rw [Tiles_take_aux _ _ _ _ hk] at htile
      exact .structured k _ cs htile (errnoWire_toNat_mem _) _ (by simp [readFailed, store16_length])
    · refine ⟨w', msgs, _, hhr, hfl, ho, hx, .inr ?_⟩
      rw [hst]
      exact .simple _ (errnoWire_toNat_mem _)

/-! ### Writing -/

theorem pageIn_present (ex : Export) (hg : GoodExport ex) (w : World) (hh : NoEarlyEof w) (hb : Backed ex w)
    (pb : List (Option Byte)) (ps dn rdlen : Nat) (hr : ps + rdlen ≤ ex.exportsize) (hl : dn + rdlen ≤ pb.length) :
    ∃ w' pb' ok, pageIn ex w pb ps dn rdlen = .val (w', pb', ok) ∧ w'.files = w.files ∧ w'.orc = w.orc ∧
      (ok = true → pb' = bufSet pb dn ((view ex w).read ps rdlen)) := by
  fun_induction pageIn ex w pb ps dn rdlen with
  | case1 => exact ⟨_, _, _, rfl, rfl, rfl, fun _ => by rw [Flat.read_zero, bufSet_nil]⟩
  | case2 w pb ps dn rdlen h hq =>
    obtain ⟨_, _, h1, _⟩ := rawexpread_present ex hg w hh hb _ _ (by omega) hr
    rw [hq] at h1; cases h1
  | case3 w pb ps dn rdlen h hq =>
    obtain ⟨_, _, h1, _⟩ := rawexpread_present ex hg w hh hb _ _ (by omega) hr
    rw [hq] at h1; cases h1
  | case4 w pb ps dn rdlen h w1 hq =>
    obtain ⟨_, _, h1, h2, h3, _⟩ := rawexpread_present ex hg w hh hb _ _ (by omega) hr
    rw [hq] at h1; cases h1
    exact ⟨_, _, _, rfl, h2, h3, by simp⟩
  | case5 w pb ps dn rdlen h w1 hq =>
    obtain ⟨_, _, h1, _, _, h4⟩ := rawexpread_present ex hg w hh hb _ _ (by omega) hr
    rw [hq] at h1; cases h1
    exact absurd rfl h4
  | case6 w pb ps dn rdlen h w1 b bs hq ih =>
    obtain ⟨_, _, h1, hf1, ho1, _⟩ := rawexpread_present ex hg w hh hb _ _ (by omega) hr
    rw [hq] at h1; cases h1
    obtain ⟨hle, hval⟩ := ((rawexpread_spec ex hg w _ _ hr (by omega)).2 _ _ hq).2 _ rfl
    obtain ⟨w', pb', ok, i1, i2, i3, i4⟩ := ih (hh.of_orc ho1) (hb.of_files hf1) (by omega)
      (by rw [bufSet_length _ _ _ (by omega)]; omega)
    refine ⟨w', pb', ok, i1, i2.trans hf1, i3.trans ho1, ?_⟩
    intro h
    rw [i4 h, view_of_files ex hf1, bufSet_append _ _ _ _ (by simp only [Flat.read_length]; omega)]
    have h2 : (b :: bs) ++ (view ex w).read (ps + (b :: bs).length) (rdlen - (b :: bs).length) =
        (view ex w).read ps rdlen := by
      conv => lhs; arg 1; rw [hval]
      rw [← Flat.read_add]
      congr 1
      omega
    rw [h2]

theorem sysPwrite_any (w : World) (d : Nat) (f : File) (hf : w.files (.fd d) = some f) (off : Nat) (bs : List Byte) :
    ∃ w' r, sysPwrite w (.fd d) off bs = (w', r) ∧ w'.orc = w.orc ∧
      (r = some bs.length → w' = (w.step).set (.fd d) (f.pwrite off bs)) := by
  unfold sysPwrite
  simp only [hf]
  cases hnext : w.next with
  | err e => exact ⟨_, _, rfl, rfl, by simp⟩
  | done n =>
    refine ⟨_, _, rfl, rfl, ?_⟩
    intro h
    have h := Option.some.inj h
    rw [List.take_of_length_le (by omega)]

theorem expwritePages_any (n : Nat) : ∀ (cl : Client) (w : World) (pb : List (Option Byte)) (mapcnt a : Nat)
    (buf : List Byte), CowOk cl w → NoEarlyEof w → Backed cl.ex w → pb.length = 4096 → mapcnt = a / 4096 →
    0 < buf.length → n = (a + buf.length - 1) / 4096 + 1 - a / 4096 → a + buf.length ≤ cl.ex.exportsize →
    ∃ cl' w' ok, expwritePages n cl w pb mapcnt a buf = .val (cl', w', ok) ∧ w'.orc = w.orc ∧
      (ok = true → CowStep cl w cl' w' ∧ cowView cl' w' = (cowView cl w).write a buf ∧
        ∀ q, Dirty cl' q → Dirty cl q ∨ (a / 4096 ≤ q ∧ q ≤ (a + buf.length - 1) / 4096)) := by
  induction n with
  | zero => intro cl w pb mapcnt a buf _ _ _ _ _ hl hn; omega
  | succ n ih =>
    intro cl w pb mapcnt a buf hok hgen hb hpb hmap hl hn hr
    have hwhole := hok.whole
    have hlen := hok.len
    have hsz := hok.good.size
    have hpage : mapcnt < cl.difmap.length := by rw [hlen]; omega
    obtain ⟨m, hm⟩ : ∃ m, cl.difmap[mapcnt]? = some m := ⟨_, List.getElem?_eq_getElem hpage⟩
    have hoff : a - mapcnt * 4096 = a % 4096 := by omega
    have hcap : mapcnt * 4096 + 4096 ≤ cl.ex.exportsize := by
      clear hm
      omega
    have hpl : pageLen (a % 4096) buf.length = min buf.length (4096 - a % 4096) := by
      unfold pageLen; rw [show DIFFPAGESIZE = 4096 from rfl]; split <;> omega
    generalize hrd : min buf.length (4096 - a % 4096) = wr at hpl
    have hwrpos : 0 < wr := by omega
    have htl : (buf.take wr).length = wr := by rw [List.length_take]; omega
    have hend : a % 4096 + (buf.take wr).length ≤ 4096 := by omega
    have hrange : a + (buf.take wr).length ≤ cl.ex.exportsize := by omega
    -- the rest of the loop, after this page has been stored
    have hrest : ∀ (cl1 : Client) (w1 : World) (pb1 : List (Option Byte)), pb1.length = 4096 →
        CowStep cl w cl1 w1 → cowView cl1 w1 = (cowView cl w).write a (buf.take wr) →
        (∀ q, Dirty cl1 q → Dirty cl q ∨ q = mapcnt) →
        ∃ cl' w' ok, expwritePages n cl1 w1 pb1 (mapcnt + 1) (a + wr) (buf.drop wr) = .val (cl', w', ok) ∧
          w'.orc = w.orc ∧
          (ok = true → CowStep cl w cl' w' ∧ cowView cl' w' = (cowView cl w).write a buf ∧
          ∀ q, Dirty cl' q → Dirty cl q ∨ (a / 4096 ≤ q ∧ q ≤ (a + buf.length - 1) / 4096)) := by
      intro cl1 w1 pb1 hp1 hst hv hd
      by_cases hlast : buf.length = wr
      · have hn0 : n = 0 := by omega
        subst hn0
        refine ⟨cl1, w1, true, by rw [expwritePages], hst.orc, fun _ => ⟨hst, ?_, ?_⟩⟩
        · rw [hv, List.take_of_length_le (by omega)]
        · intro q hq
          rcases hd q hq with h | h
          · exact .inl h
          · right; omega
      · have hdl : (buf.drop wr).length = buf.length - wr := List.length_drop
        have hb1 : Backed cl1.ex w1 := by
          have := hb.of_keptOff hok.own hst.kept
          rw [hst.seat.ex]; exact this
        obtain ⟨cl', w', ok, h1, ho, hx⟩ := ih cl1 w1 pb1 (mapcnt + 1) (a + wr) (buf.drop wr) hst.ok
          (hgen.of_orc hst.orc) hb1 hp1 (by omega) (by omega) (by rw [hdl]; omega)
          (by rw [hdl, hst.seat.ex]; omega)
        refine ⟨cl', w', ok, h1, ho.trans hst.orc, ?_⟩
        intro hokt
        obtain ⟨h2, h3, h4⟩ := hx hokt
        refine ⟨hst.trans h2, ?_, ?_⟩
        · rw [h3, hv]
          conv => rhs; rw [← List.take_append_drop wr buf]
          rw [Flat.write_append, htl]
        · intro q hq
          rcases h4 q hq with h | h
          · rcases hd q h with h | h
            · exact .inl h
            · right; omega
          · right; rw [hdl] at h; omega
    obtain ⟨f, hf, hfs⟩ := hok.file
    rw [expwritePages]
    rw [show DIFFPAGESIZE = 4096 from rfl, hoff, hpl, hm]
    simp only []
    by_cases hne : m = NOPAGE
    · subst hne
      have hroom := hok.room hm
      rw [if_neg (by simp), hok.nowait, hok.nosparse]
      simp only [Bool.false_eq_true, and_false, if_false]
      have hmod : (cl.difffilelen + 1) % 2 ^ 32 = cl.difffilelen + 1 := Nat.mod_eq_of_lt (by omega)
      rw [hmod]
      have hcv : ∀ j, j < 4096 → cowView cl w (mapcnt * 4096 + j) = view cl.ex w (mapcnt * 4096 + j) := by
        intro j hj
        exact cowView_clean hm _ (by omega)
      -- the page buffer is filled from the original if the write covers only a part of it
      have hfill : ∃ (w1 : World) (pb1 : List (Option Byte)) (ok1 : Bool),
          (if a % 4096 ≠ 0 ∨ wr ≠ 4096 then pageIn cl.ex w pb (mapcnt * 4096) 0 4096
            else .val (w, pb, true)) = .val (w1, pb1, ok1) ∧ w1.files = w.files ∧ w1.orc = w.orc ∧
          (ok1 = true → ∃ page : List Byte, bufSet pb1 (a % 4096) (buf.take wr) = page.map some ∧ page.length = 4096 ∧
          ∀ j, j < 4096 → page[j]? = some ((cowView cl w).write a (buf.take wr) (mapcnt * 4096 + j))) := by
        by_cases hpart : a % 4096 ≠ 0 ∨ wr ≠ 4096
        · rw [if_pos hpart]
          obtain ⟨w1, pb1, ok1, h1, h2, h3, h4⟩ := pageIn_present cl.ex hok.good w hgen hb pb (mapcnt * 4096) 0 4096
            hcap (by rw [hpb]; exact Nat.le_refl _)
          have hbs : bufSet pb 0 ((view cl.ex w).read (mapcnt * 4096) 4096) =
              ((view cl.ex w).read (mapcnt * 4096) 4096).map some := by
            unfold bufSet
            rw [List.take_zero, Flat.read_length, List.drop_of_length_le (by omega)]
            simp
          refine ⟨w1, pb1, ok1, h1, h2, h3, fun hok1 => ?_⟩
          rw [h4 hok1, hbs]
          refine ⟨_, bufSet_some _ _ _, ?_, ?_⟩
          · simp only [List.length_append, List.length_take, List.length_drop, Flat.read_length]
            simp only [List.length_take] at htl
            omega
          · intro j hj
            rw [List.getElem?_append, List.getElem?_append]
            simp only [List.length_append, List.length_take, Flat.read_length, List.getElem?_take, List.getElem?_drop,
              Flat.read_getElem?]
            simp only [List.length_take] at htl
            rw [htl, Nat.min_eq_left (by omega : a % 4096 ≤ 4096)]
            by_cases hj1 : j < a % 4096
            · rw [if_pos (by omega), if_pos hj1, if_pos hj1, if_pos (by omega),
                Flat.write_outside _ _ _ _ (.inl (by omega)), hcv j hj]
            · by_cases hj2 : j < a % 4096 + wr
              · rw [if_pos hj2, if_neg hj1, if_pos (by omega)]
                rw [show mapcnt * 4096 + j = a + (j - a % 4096) by omega,
                  Flat.write_inside _ _ _ _ (by rw [List.length_take]; omega), List.getElem_take,
                  List.getElem?_eq_getElem (by omega)]
              · rw [if_neg hj2, if_pos (by omega), Flat.write_outside _ _ _ _ (.inr (by rw [List.length_take]; omega)),
                  hcv j hj]
                rw [show a % 4096 + wr + (j - (a % 4096 + wr)) = j by omega]
        · rw [if_neg hpart]
          have h0 : a % 4096 = 0 := by omega
          have hw4 : wr = 4096 := by omega
          refine ⟨w, pb, true, rfl, rfl, rfl, fun _ => ⟨buf.take wr, ?_, by omega, ?_⟩⟩
          · unfold bufSet
            rw [h0, List.take_zero, htl, List.drop_of_length_le (by omega)]
            simp
          · intro j hj
            rw [show mapcnt * 4096 + j = a + j by omega, Flat.write_inside _ _ _ _ (by omega),
              List.getElem?_eq_getElem (by omega)]
      obtain ⟨w1, pb1, ok1, h1, h2, h3, hpg⟩ := hfill
      rw [h1]
      cases ok1 with
      | false => exact ⟨_, _, _, rfl, h3, by simp⟩
      | true =>
      obtain ⟨page, h4, h5, h6⟩ := hpg rfl
      simp only []
      rw [h4, allInit_map]
      simp only []
      have hok1 := hok.of_files h2
      have hf1 : w1.files (.fd cl.difffile) = some f := by rw [h2]; exact hf
      obtain ⟨w2, r, hpw, ho2, hfull⟩ := sysPwrite_any w1 cl.difffile f hf1 cl.diffpos page
      unfold diffAppend
      simp only []
      rw [hpw]
      cases r with
      | none => exact ⟨_, _, _, rfl, ho2.trans h3, by simp⟩
      | some k =>
      simp only []
      by_cases hk : k = 4096
      · subst hk
        rw [if_neg (by simp)]
        have hw2 := hfull (by rw [h5])
        subst hw2
        obtain ⟨hstep, hv⟩ := write_clean cl w1 hok1 mapcnt a (buf.take wr) page hm f hf1 hmap.symm hend hrange h5
          (by rw [cowView_of_files cl h2]; exact h6)
        rw [cowView_of_files cl h2] at hv
        have happ : (⟨cl.ex, false, cl.difmap.set mapcnt cl.difffilelen, cl.difffilelen + 1, cl.difffile,
          cl.diffpos + 4096, cl.structured, cl.tls⟩ : Client) = cl.appended mapcnt := by
          simp only [Client.appended, hok.nowait]
        rw [happ]
        apply hrest _ _ _ (by rw [List.length_map]; exact h5) _ hv
        · rintro q ⟨m', hq, hne'⟩
          have hq : (cl.difmap.set mapcnt cl.difffilelen)[q]? = some m' := hq
          by_cases hqm : q = mapcnt
          · exact .inr hqm
          · rw [List.getElem?_set_ne (Ne.symm hqm)] at hq
            exact .inl ⟨m', hq, hne'⟩
        · exact ⟨hstep.ok, hstep.seat, hstep.orc.trans h3, (KeptOff.of_files h2).trans hstep.kept⟩
      · rw [if_pos hk]
        exact ⟨_, _, _, rfl, ho2.trans h3, by simp⟩
    · rw [if_pos hne]
      obtain ⟨w2, r, hpw, ho2, hfull⟩ := sysPwrite_any w cl.difffile f hf (diffOffset m (a % 4096)) (buf.take wr)
      rw [hpw]
      cases r with
      | none => exact ⟨_, _, _, rfl, ho2, by simp⟩
      | some k =>
      simp only []
      by_cases hk : k = wr
      · subst hk
        rw [if_neg (by simp)]
        have hw2 := hfull (by rw [htl])
        subst hw2
        obtain ⟨hstep, hv⟩ := write_dirty cl w hok mapcnt m a (buf.take k) hm hne f hf hmap.symm hend hrange
        exact hrest _ _ _ hpb hstep hv (fun q hq => .inl hq)
      · rw [if_pos hk]
        exact ⟨_, _, _, rfl, ho2, by simp⟩

theorem sysFsync_orc (w : World) (id : FileId) : (sysFsync w id).1.orc = w.orc := by
  unfold sysFsync
  split
  · rfl
  · split <;> rfl

theorem expwrite_any (cl : Client) (w : World) (a : Nat) (buf : List Byte) (fua : Bool) (hok : CowOk cl w)
    (hgen : NoEarlyEof w) (hb : Backed cl.ex w) (hl : 0 < buf.length) (hr : a + buf.length ≤ cl.ex.exportsize) :
    ∃ cl' w' ok, expwrite cl w a buf fua = .val (cl', w', ok) ∧ w'.orc = w.orc ∧
      (ok = true → CowStep cl w cl' w' ∧ cowView cl' w' = (cowView cl w).write a buf ∧
        ∀ q, Dirty cl' q → Dirty cl q ∨ (a / 4096 ≤ q ∧ q ≤ (a + buf.length - 1) / 4096)) := by
  have hsz := hok.good.size
  have hpg : cl.paged = true := by unfold Client.paged; rw [hok.cow]; rfl
  obtain ⟨cl', w', ok, h1, ho, hx⟩ := expwritePages_any (pageCount a buf.length) cl w (List.replicate DIFFPAGESIZE none)
    (a / 4096) a buf hok hgen hb (by rw [List.length_replicate]; rfl) rfl hl
    (by unfold pageCount; rw [lastPage_pos hl (by omega)]; rfl) hr
  unfold expwrite
  rw [hpg, if_pos rfl, show a / DIFFPAGESIZE = a / 4096 from rfl, h1]
  cases ok with
  | false => exact ⟨_, _, _, rfl, ho, by simp⟩
  | true =>
    obtain ⟨h2, h3, h4⟩ := hx rfl
    simp only []
    split
    · refine ⟨_, _, _, rfl, (sysFsync_orc _ _).trans ho, fun _ => ⟨h2.trans (sysFsync_cow _ _ h2.ok), ?_, h4⟩⟩
      rw [(sysFsync_content _ _).cowView]; exact h3
    · exact ⟨_, _, _, rfl, ho, fun _ => ⟨h2, h3, h4⟩⟩

/-! ### No call changes what the later calls will return -/

theorem sysPread_orc (w : World) (id : FileId) (off len : Nat) : (sysPread w id off len).1.orc = w.orc := by
  unfold sysPread
  split
  · rfl
  · split <;> rfl

theorem sysPwrite_orc (w : World) (id : FileId) (off : Nat) (bs : List Byte) : (sysPwrite w id off bs).1.orc = w.orc := by
  unfold sysPwrite
  split
  · rfl
  · split <;> rfl

theorem openTreefile_orc (w : World) (name : List Char) (rdwr : Bool) (size pos : Nat) (w' : World)
    (h : Handle) (hq : openTreefile w name rdwr size pos = .val (w', h)) : w'.orc = w.orc := by
  unfold openTreefile at hq
  split at hq
  · cases hq
  · split at hq
    · split at hq <;> cases hq <;> rfl
    · split at hq
      · cases hq; rfl
      · simp only [] at hq
        split at hq
        · split at hq
          · cases hq
          · split at hq
            · cases hq
            · cases hq
            · cases hq; rfl
        · split at hq
          · cases hq
          · cases hq; rfl

theorem getFilepos_orc (ex : Export) (w : World) (a : Nat) (w' : World) (r : Option (Handle × Nat × Nat))
    (hq : getFilepos ex w a = .val (w', r)) : w'.orc = w.orc := by
  unfold getFilepos at hq
  split at hq
  · cases hq; rfl
  · split at hq
    · split at hq
      · rename_i ho
        cases hq
        exact openTreefile_orc _ _ _ _ _ _ _ ho
      · cases hq
      · cases hq
    · split at hq
      · cases hq
      · split at hq
        · cases hq
        · split at hq
          · cases hq
          · split at hq <;> cases hq <;> rfl

theorem rawexpread_orc (ex : Export) (w : World) (a len : Nat) (w' : World) (r : Option (List Byte))
    (hq : rawexpread ex w a len = .val (w', r)) : w'.orc = w.orc := by
  unfold rawexpread at hq
  split at hq
  · cases hq
  · cases hq
  · rename_i hg
    cases hq
    exact getFilepos_orc _ _ _ _ _ hg
  · rename_i w1 h off mb hg
    simp only [Out.val.injEq] at hq
    refine Eq.trans ?_ (getFilepos_orc _ _ _ _ _ hg)
    have h1 : (handlePread w1 h off (clip mb len)).1.orc = w1.orc := by
      unfold handlePread
      split
      · exact sysPread_orc _ _ _ _
      · rfl
      · split <;> rfl
    rw [hq] at h1
    exact h1

theorem rawexpreadFully_orc (ex : Export) (w : World) (c : ReadCtx) (w' : World) (c' : ReadCtx)
    (ok : Bool) (h : rawexpreadFully ex w c = .val (w', c', ok)) : w'.orc = w.orc := by
  fun_induction rawexpreadFully ex w c with
  | case1 => cases h; rfl
  | case2 => cases h
  | case3 => cases h
  | case4 w c hl w1 hq => cases h; exact rawexpread_orc _ _ _ _ _ _ hq
  | case5 w c hl w1 hq => cases h; exact rawexpread_orc _ _ _ _ _ _ hq
  | case6 => cases h
  | case7 => cases h
  | case8 w c hl w1 b bs hq c1 hd ih => exact (ih h).trans (rawexpread_orc _ _ _ _ _ _ hq)

theorem expread_orc (cl : Client) (hpg : cl.paged = true) (w : World) (c : ReadCtx) (w' : World) (c' : ReadCtx) (ok : Bool)
    (h : expread cl w c = .val (w', c', ok)) : w'.orc = w.orc := by
  unfold expread at h
  rw [hpg, if_pos rfl] at h
  generalize pageCount (c.start + c.curOff) c.reqLen = n at h
  generalize (c.start + c.curOff) / DIFFPAGESIZE = mapcnt at h
  generalize c.start + c.curOff = a at h
  generalize c.reqLen = len at h
  fun_induction expreadPages cl n w c mapcnt a len with
  | case1 => cases h; rfl
  | case2 => cases h
  | case3 n w c mapcnt a len off rdlen m hm hne w1 hp =>
    cases h
    have := sysPread_orc w (.fd cl.difffile) (diffOffset m off) rdlen
    rw [hp] at this; exact this
  | case4 => cases h
  | case5 => cases h
  | case6 n w c mapcnt a len off rdlen m hm hne w1 bs hp c1 hd hlen =>
    cases h
    have := sysPread_orc w (.fd cl.difffile) (diffOffset m off) rdlen
    rw [hp] at this; exact this
  | case7 n w c mapcnt a len off rdlen m hm hne w1 bs hp c1 hd hlen ih =>
    refine (ih h).trans ?_
    have := sysPread_orc w (.fd cl.difffile) (diffOffset m off) rdlen
    rw [hp] at this; exact this
  | case8 => cases h; rfl
  | case9 => cases h
  | case10 => cases h
  | case11 n w c mapcnt a len off rdlen m hm hne hw w1 c1 hq =>
    cases h
    exact rawexpreadFully_orc _ _ _ _ _ _ hq
  | case12 n w c mapcnt a len off rdlen m hm hne hw w1 c1 hq ih =>
    exact (ih h).trans (rawexpreadFully_orc _ _ _ _ _ _ hq)

theorem pageIn_orc (ex : Export) (w : World) (pb : List (Option Byte)) (ps dn rdlen : Nat) (w' : World)
    (pb' : List (Option Byte)) (ok : Bool) (h : pageIn ex w pb ps dn rdlen = .val (w', pb', ok)) : w'.orc = w.orc := by
  fun_induction pageIn ex w pb ps dn rdlen with
  | case1 => cases h; rfl
  | case2 => cases h
  | case3 => cases h
  | case4 => cases h; exact rawexpread_orc _ _ _ _ _ _ ‹_›
  | case5 => cases h; exact rawexpread_orc _ _ _ _ _ _ ‹_›
  | case6 w pb ps dn rdlen hl w1 b bs hq ih => exact (ih h).trans (rawexpread_orc _ _ _ _ _ _ hq)

theorem diffAppend_orc (cl : Client) (w : World) (bs : List Byte) : (diffAppend cl w bs).1.orc = w.orc := by
  have h := sysPwrite_orc w (.fd cl.difffile) cl.diffpos bs
  unfold diffAppend
  split <;> (rename_i hq; rw [hq] at h; exact h)

theorem expwritePages_orc (n : Nat) : ∀ (cl : Client) (w : World) (pb : List (Option Byte)) (mapcnt a : Nat)
    (buf : List Byte) (cl' : Client) (w' : World) (ok : Bool),
    expwritePages n cl w pb mapcnt a buf = .val (cl', w', ok) → w'.orc = w.orc := by
  induction n with
  | zero => intro cl w pb mapcnt a buf cl' w' ok h; rw [expwritePages] at h; cases h; rfl
  | succ n ih =>
    intro cl w pb mapcnt a buf cl' w' ok h
    rw [expwritePages] at h
    simp only [] at h
    split at h
    · cases h
    · rename_i m hm
      split at h
      · have hk := sysPwrite_orc w (.fd cl.difffile) (diffOffset m (a - mapcnt * DIFFPAGESIZE))
          (buf.take (pageLen (a - mapcnt * DIFFPAGESIZE) buf.length))
        split at h
        · rename_i hq
          cases h
          rw [hq] at hk; exact hk
        · rename_i hq
          rw [hq] at hk
          split at h
          · cases h; exact hk
          · exact (ih _ _ _ _ _ _ _ _ _ h).trans hk
      · split at h
        · cases h; rfl
        · split at h
          · cases h
          · cases h
          · rename_i hf
            cases h
            split at hf
            · exact pageIn_orc _ _ _ _ _ _ _ _ _ hf
            · cases hf
          · rename_i w1 pb1 hf
            have h1 : w1.orc = w.orc := by
              split at hf
              · exact pageIn_orc _ _ _ _ _ _ _ _ _ hf
              · cases hf; rfl
            split at h
            · cases h
            · rename_i page _
              have h2 := diffAppend_orc { cl with
                difmap := cl.difmap.set mapcnt (if has cl.ex.flags F_SPARSE then mapcnt % 2 ^ 32 else cl.difffilelen)
                difffilelen := if has cl.ex.flags F_SPARSE then cl.difffilelen else (cl.difffilelen + 1) % 2 ^ 32 } w1 page
              split at h
              · rename_i hd
                rw [hd] at h2
                cases h
                exact h2.trans h1
              · rename_i hd
                rw [hd] at h2
                split at h
                · cases h; exact h2.trans h1
                · exact (ih _ _ _ _ _ _ _ _ _ h).trans (h2.trans h1)

theorem expwrite_orc (cl : Client) (hpg : cl.paged = true) (w : World) (a : Nat) (buf : List Byte) (fua : Bool) (cl' : Client)
    (w' : World) (ok : Bool) (h : expwrite cl w a buf fua = .val (cl', w', ok)) : w'.orc = w.orc := by
  unfold expwrite at h
  rw [hpg, if_pos rfl] at h
  split at h
  · cases h
  · cases h
  · rename_i hq
    cases h
    exact expwritePages_orc _ _ _ _ _ _ _ _ _ _ hq
  · rename_i hq
    have h1 := expwritePages_orc _ _ _ _ _ _ _ _ _ _ hq
    split at h
    · cases h; exact (sysFsync_orc _ _).trans h1
    · cases h; exact h1

theorem expwriteZeroes_orc (cl : Client) (hpg : cl.paged = true) (w : World) (a len : Nat) (fua : Bool) (cl' : Client)
    (w' : World) (ok : Bool) (h : expwriteZeroes cl w a len fua = .val (cl', w', ok)) : w'.orc = w.orc := by
  fun_induction expwriteZeroes cl w a len fua with
  | case1 => cases h; rfl
  | case2 => cases h
  | case3 => cases h
  | case4 cl w len hl l cl1 w1 hq => cases h; exact expwrite_orc _ hpg _ _ _ _ _ _ _ hq
  | case5 cl w len hl l cl1 w1 hq ih =>
    have hs := (expwrite_keptOff _ hpg _ _ _ _ _ _ _ hq).2
    exact (ih (by rw [hs.paged]; exact hpg) h).trans (expwrite_orc _ hpg _ _ _ _ _ _ _ hq)

theorem handleRequest_orc (e : Endian) (cl : Client) (hcow : has cl.ex.flags F_COPYONWRITE = true)
    (hns : has cl.ex.flags F_SPLICE = false) (w : World) (r : Req) (p : Payload) (hp : p.piped = false) (cl' : Client)
    (w' : World) (msgs : List Msg) (h : handleRequest e cl w r p = .val (cl', w', msgs)) : w'.orc = w.orc := by
  have hpg : cl.paged = true := by unfold Client.paged; rw [hcow]; rfl
  cases handleRequest_handled e cl cl' w w' r p msgs h with
  | refused => rfl
  | read hf ht hr _ _ hq =>
    unfold handleRead at hq
    rw [hns, if_neg (by simp)] at hq
    obtain ⟨c', ok, hx, _⟩ := handleNormalRead_replies e cl w w' r msgs (has_df_of_flags (by omega)) hq
    exact expread_orc _ hpg _ _ _ _ _ hx
  | write hf ht hw hr _ _ _ hq =>
    unfold handleWrite at hq
    cases p with
    | nothing => cases hq
    | pipe => cases hp
    | data bs =>
      simp only [] at hq
      split at hq
      · cases hq
      · cases hq
      · rename_i hx
        cases hq
        exact expwrite_orc _ hpg _ _ _ _ _ _ _ hx
  | flush hf ht =>
    unfold handleFlush expflush
    rw [hcow]
    exact sysFsync_orc _ _
  | trim hf ht hw hr _ _ hq =>
    unfold handleTrim exptrim at hq
    rw [hcow] at hq
    split at hq
    · cases hq
    · cases hq
    · rename_i hx
      cases hq
      split at hx
      · cases hx
      · split at hx
        · cases hx
        · cases hx; rfl
  | zeroes hf ht hw hr _ _ _ hq =>
    unfold handleWriteZeroes at hq
    split at hq
    · cases hq
    · cases hq
    · rename_i hx
      cases hq
      exact expwriteZeroes_orc _ hpg _ _ _ _ _ _ _ hx

theorem mainloop_orc (e : Endian) (cl : Client) (hcow : has cl.ex.flags F_COPYONWRITE = true)
    (hns : has cl.ex.flags F_SPLICE = false) (w : World) (stream : List Byte) :
    (mainloop e cl w stream).w.orc = w.orc := by
  fun_induction mainloop e cl w stream with
  | case1 => rfl
  | case2 => rfl
  | case3 => exact congrArg World.orc (fetch_nosplice _ _ hns _ _ _ _ ‹_›)
  | case4 => exact congrArg World.orc (fetch_nosplice _ _ hns _ _ _ _ ‹_›)
  | case5 => exact congrArg World.orc (fetch_nosplice _ _ hns _ _ _ _ ‹_›)
  | case6 => exact congrArg World.orc (fetch_nosplice _ _ hns _ _ _ _ ‹_›)
  | case7 cl w stream w1 r p rest hf cl' w' msgs hq ih =>
    have h1 := handleRequest_orc e cl hcow hns w1 r p (fetch_piped _ _ hns _ _ _ _ _ _ hf) _ _ _ hq
    have h2 := (handleRequest_keptOff e cl hcow hns w1 r p (fetch_piped _ _ hns _ _ _ _ _ _ hf) _ _ _ hq).2
    have h3 := fetch_nosplice _ _ hns _ _ _ _ hf
    subst h3
    exact (ih (by rw [h2.ex]; exact hcow) (by rw [h2.ex]; exact hns)).trans h1

/-! ### Sessions -/

/-- How one request of a copy-on-write session can go. -/
inductive CowOutcome (cl : Client) (w : World) (c : Spec.Cmd) (rs : List Spec.Reply) (cl' : Client) (w' : World) : Prop where
  | sure (h : Spec.SureStep cl.ex.exportsize (badWrite cl) cl.structured (cowView cl w) c rs (cowView cl' w'))
      (st : CowStep cl w cl' w') (hd : ∀ q, Dirty cl' q → Dirty cl q ∨ ((c.code = 1 ∨ c.code = 6) ∧ c.touches q))
  | readFails (hc : c.code = 0) (hr : c.start + c.len ≤ cl.ex.exportsize)
      (h : Spec.ReadFailure c.cookie c.start ((cowView cl w).read c.start c.len) cl.structured rs)
      (hcl : cl' = cl) (hv : cowView cl w' = cowView cl w) (st : CowStep cl w cl w')
  | flushFails (hc : c.code = 3) (err : Nat) (he : err ∈ Spec.errnos) (hrs : rs = [.simple err c.cookie []])
      (hcl : cl' = cl) (hv : cowView cl w' = cowView cl w) (st : CowStep cl w cl w')
  | writeFails (hc : c.code = 1 ∨ c.code = 6) (hw : badWrite cl = false) (hr : c.start + c.len ≤ cl.ex.exportsize)
      (err : Nat) (he : err ∈ Spec.errnos) (hrs : rs = [.simple err c.cookie []])

/-- One request of a copy-on-write session, on any kernel. -/
theorem handleRequest_any (e : Endian) (cl : Client) (w : World) (r : Req) (p : Payload) (hok : CowOk cl w)
    (hgen : NoEarlyEof w) (hb : Backed cl.ex w) (hlen : r.len < 2 ^ 32) (hfit : p.fits r) (hp : p.piped = false)
    (before : List Spec.Cmd) (hd : ∀ q, Dirty cl q → Spec.Written before q)
    (ht : Spec.Tractable cl.structured before (cmdOf r p)) :
    ∃ cl' w' msgs rs, handleRequest e cl w r p = .val (cl', w', msgs) ∧ Encodes msgs rs ∧
      CowOutcome cl w (cmdOf r p) rs cl' w' := by
  have hsz := hok.good.size
  have hsame : CowStep cl w cl w := ⟨hok, .refl _, rfl, .refl _ _ _⟩
  have hrefuse : ∀ n, errorReply e cl w r n = .val (cl, w, [simpleMsg e r (some (nbdErrno e n))]) ∧
      Encodes [simpleMsg e r (some (nbdErrno e n))] [.simple (errnoWire n).toNat r.cookie []] := by
    intro n
    refine ⟨rfl, ?_⟩
    rw [nbdErrno_eq]; exact simpleMsg_encodes e r (some _)
  have hok0 : Encodes [simpleMsg e r none] [.simple 0 r.cookie []] := simpleMsg_encodes e r none
  have hcode : r.type < 262144 → (cmdOf r p).code = r.type % 65536 := by
    intro h; simp only [cmdOf]; rw [if_pos h]
  have hinr : badRange cl r = false → r.start + r.len ≤ cl.ex.exportsize := inRange hok.good hlen
  have hsure : ∀ rs, Spec.SureStep cl.ex.exportsize (badWrite cl) cl.structured (cowView cl w) (cmdOf r p) rs (cowView cl w) →
      CowOutcome cl w (cmdOf r p) rs cl w := fun rs h => .sure h hsame (fun q hq => .inl hq)
  unfold handleRequest
  simp only []
  split
  · rename_i hfl
    refine ⟨_, _, _, _, (hrefuse EINVAL).1, (hrefuse EINVAL).2, hsure _ ?_⟩
    refine .refused (c := cmdOf r p) _ (errnoWire_toNat_mem _) (.inl ?_)
    simp only [cmdOf]; rw [if_neg (by omega)]; decide
  · rename_i hfl
    have hf : r.type < 262144 := by omega
    have hcode := hcode hf
    split
    · rename_i h0
      have h0 : r.type % 65536 = 0 := h0
      split
      · rename_i hbr
        refine ⟨_, _, _, _, (hrefuse EINVAL).1, (hrefuse EINVAL).2, hsure _ ?_⟩
        exact .refused (c := cmdOf r p) _ (errnoWire_toNat_mem _)
          (.inr (.inr ⟨by rw [hcode, h0]; decide, badRange_size hok.good hlen hbr⟩))
      · rename_i hbr
        have hr := hinr (by simpa using hbr)
        have hl : 0 < r.len := ht.nonempty (.inl (by rw [hcode, h0]))
        obtain ⟨w', msgs, rs, h1, h2, h3, h4, h5⟩ := handleRead_any e cl w r hok hgen hb hf hl hr (by
          intro q m k1 k2 k3 k4
          exact ht.read (by rw [hcode, h0]) q ⟨hl, k1, k2⟩ (hd q ⟨m, k3, k4⟩))
        rw [h1]
        have hst : CowStep cl w cl w' := ⟨hok.of_files h2, .refl _, h3, .of_files h2⟩
        rcases h5 with h5 | h5
        · refine ⟨_, _, _, rs, rfl, h4, .sure ?_ hst (fun q hq => .inl hq)⟩
          rw [cowView_of_files cl h2]
          exact .read (c := cmdOf r p) rs (by rw [hcode, h0]) hr h5
        · exact ⟨_, _, _, rs, rfl, h4, .readFails (by rw [hcode, h0]) hr h5 rfl (cowView_of_files cl h2) hst⟩
    · split
      · rename_i h1
        have h1 : r.type % 65536 = 1 := h1
        split
        · rename_i hbw
          refine ⟨_, _, _, _, (hrefuse EPERM).1, (hrefuse EPERM).2, hsure _ ?_⟩
          exact .refused (c := cmdOf r p) _ (errnoWire_toNat_mem _)
            (.inr (.inl ⟨by rw [hcode, h1]; decide, hbw⟩))
        · rename_i hbw
          have hbw : badWrite cl = false := by simpa using hbw
          split
          · rename_i hbr
            refine ⟨_, _, _, _, (hrefuse ENOSPC).1, (hrefuse ENOSPC).2, hsure _ ?_⟩
            exact .refused (c := cmdOf r p) _ (errnoWire_toNat_mem _)
              (.inr (.inr ⟨by rw [hcode, h1]; decide, badRange_size hok.good hlen hbr⟩))
          · rename_i hbr
            have hr := hinr (by simpa using hbr)
            have hl : 0 < r.len := ht.nonempty (.inr (by rw [hcode, h1]))
            cases p with
            | nothing => exact absurd h1 hfit
            | pipe bs => cases hp
            | data bs =>
              have hbl : bs.length = r.len := hfit
              obtain ⟨cl', w', ok, k1, ko, kx⟩ := expwrite_any cl w r.start bs (has r.type CMD_FLAG_FUA) hok hgen hb
                (by omega) (by omega)
              unfold handleWrite
              simp only []
              rw [k1]
              simp only []
              rw [resultOf_eq]
              refine ⟨_, _, _, _, rfl, simpleMsg_encodes e r _, ?_⟩
              cases ok with
              | false => exact .writeFails (.inl (by rw [hcode, h1])) hbw hr _ (errnoWire_toNat_mem _) rfl
              | true =>
                obtain ⟨k2, k3, k4⟩ := kx rfl
                refine .sure ?_ k2 ?_
                · rw [k3]
                  exact .write (c := cmdOf r (.data bs)) (by rw [hcode, h1]) hbw hr
                · intro q hq
                  rcases k4 q hq with h | h
                  · exact .inl h
                  · exact .inr ⟨.inl (by rw [hcode, h1]), hl, h.1, by rw [hbl] at h; exact h.2⟩
      · split
        · rename_i h3
          have h3 : r.type % 65536 = 3 := h3
          have hw : (expflush cl w).1 = (sysFsync w (.fd cl.difffile)).1 := by
            unfold expflush
            rw [hok.cow, if_pos rfl]
          have hv : cowView cl (sysFsync w (.fd cl.difffile)).1 = cowView cl w := (sysFsync_content _ _).cowView cl
          unfold handleFlush
          simp only []
          rw [hw, resultOf_eq]
          refine ⟨_, _, _, _, rfl, simpleMsg_encodes e r _, ?_⟩
          cases (expflush cl w).2 with
          | true =>
            refine .sure ?_ (sysFsync_cow cl w hok) (fun q hq => .inl hq)
            rw [hv]
            exact .flush (c := cmdOf r p) (by rw [hcode, h3])
          | false => exact .flushFails (by rw [hcode, h3]) _ (errnoWire_toNat_mem _) rfl rfl hv (sysFsync_cow cl w hok)
        · split
          · rename_i h4
            have h4 : r.type % 65536 = 4 := h4
            split
            · rename_i hbw
              refine ⟨_, _, _, _, (hrefuse EPERM).1, (hrefuse EPERM).2, hsure _ ?_⟩
              exact .refused (c := cmdOf r p) _ (errnoWire_toNat_mem _)
                (.inr (.inl ⟨by rw [hcode, h4]; decide, hbw⟩))
            · rename_i hbw
              have hbw : badWrite cl = false := by simpa using hbw
              split
              · rename_i hbr
                refine ⟨_, _, _, _, (hrefuse EINVAL).1, (hrefuse EINVAL).2, hsure _ ?_⟩
                exact .refused (c := cmdOf r p) _ (errnoWire_toNat_mem _)
                  (.inr (.inr ⟨by rw [hcode, h4]; decide, badRange_size hok.good hlen hbr⟩))
              · rename_i hbr
                have hr := hinr (by simpa using hbr)
                have hro : has cl.ex.flags F_READONLY = false := by
                  unfold badWrite at hbw
                  exact (Bool.or_eq_false_iff.mp hbw).1
                unfold handleTrim exptrim
                rw [hro, if_neg (by simp), if_neg (by omega), hok.cow, if_pos rfl]
                exact ⟨_, _, _, _, rfl, hok0, hsure _ (.trim (c := cmdOf r p) (by rw [hcode, h4]) hbw hr)⟩
          · split
            · rename_i h6
              have h6 : r.type % 65536 = 6 := h6
              split
              · rename_i hbw
                refine ⟨_, _, _, _, (hrefuse EPERM).1, (hrefuse EPERM).2, hsure _ ?_⟩
                exact .refused (c := cmdOf r p) _ (errnoWire_toNat_mem _)
                  (.inr (.inl ⟨by rw [hcode, h6]; decide, hbw⟩))
              · rename_i hbw
                have hbw : badWrite cl = false := by simpa using hbw
                split
                · rename_i hbr
                  refine ⟨_, _, _, _, (hrefuse ENOSPC).1, (hrefuse ENOSPC).2, hsure _ ?_⟩
                  exact .refused (c := cmdOf r p) _ (errnoWire_toNat_mem _)
                    (.inr (.inr ⟨by rw [hcode, h6]; decide, badRange_size hok.good hlen hbr⟩))
                · rename_i hbr
                  have hr := hinr (by simpa using hbr)
                  have hz := ht.zeroes (by rw [hcode, h6])
                  have hz : r.len ≤ 64 * 1024 * 1024 := hz
                  unfold handleWriteZeroes
                  by_cases hl : r.len = 0
                  · rw [expwriteZeroes.eq_def, if_pos hl]
                    refine ⟨_, _, _, _, rfl, hok0, hsure _ ?_⟩
                    have h := Spec.SureStep.zeroes (size := cl.ex.exportsize) (structured := cl.structured)
                      (f := cowView cl w) (c := cmdOf r p) (by rw [hcode, h6]) hbw hr
                    have hnil : Flat.zeros (cmdOf r p).len = [] := by
                      show Flat.zeros r.len = []
                      rw [hl]; rfl
                    rw [hnil, Flat.write_nil] at h
                    exact h
                  · obtain ⟨cl', w', ok, k1, ko, kx⟩ := expwrite_any cl w r.start (Flat.zeros r.len)
                      (has r.type CMD_FLAG_FUA) hok hgen hb (by rw [Flat.zeros_length]; omega)
                      (by rw [Flat.zeros_length]; omega)
                    have hmin : min r.len ZEROCHUNK = r.len := Nat.min_eq_left hz
                    rw [expwriteZeroes.eq_def, if_neg hl]
                    simp only []
                    rw [hmin, k1]
                    cases ok with
                    | false =>
                      simp only []
                      rw [resultOf_eq]
                      refine ⟨_, _, _, _, rfl, simpleMsg_encodes e r _, ?_⟩
                      exact .writeFails (.inr (by rw [hcode, h6])) hbw hr _ (errnoWire_toNat_mem _) rfl
                    | true =>
                      obtain ⟨k2, k3, k4⟩ := kx rfl
                      simp only []
                      rw [Nat.sub_self, expwriteZeroes.eq_def, if_pos rfl]
                      refine ⟨_, _, _, _, rfl, hok0, .sure ?_ k2 ?_⟩
                      · rw [k3]
                        exact .zeroes (c := cmdOf r p) (by rw [hcode, h6]) hbw hr
                      · intro q hq
                        rcases k4 q hq with h | h
                        · exact .inl h
                        · refine .inr ⟨.inr (by rw [hcode, h6]), ?_, h.1, ?_⟩
                          · show 0 < r.len; omega
                          · rw [Flat.zeros_length] at h; exact h.2
            · rename_i n0 n1 n3 n4 n6
              refine ⟨_, _, _, _, (hrefuse EINVAL).1, (hrefuse EINVAL).2, hsure _ ?_⟩
              refine .refused (c := cmdOf r p) _ (errnoWire_toNat_mem _) (.inl ?_)
              rw [hcode]
              simp only [List.mem_cons, List.not_mem_nil, or_false, not_or]
              exact ⟨n0, n1, n3, n4, n6⟩

/-- One request, through the request loop. -/
theorem mainloop_any_one (e : Endian) (cl : Client) (w : World) (s : Sent) (hs : s.Ok) (hok : CowOk cl w)
    (hgen : NoEarlyEof w) (hb : Backed cl.ex w) (before : List Spec.Cmd) (hd : ∀ q, Dirty cl q → Spec.Written before q)
    (ht : Spec.Tractable cl.structured before s.cmd) :
    ∃ rs, (mainloop e cl w s.encode).sent = Spec.wire rs ∧ (mainloop e cl w s.encode).ending = .gone ∧
      CowOutcome cl w s.cmd rs (mainloop e cl w s.encode).cl (mainloop e cl w s.encode).w := by
  rcases fetch_sent e cl w s hs [] with ⟨_, _, hx⟩ | ⟨w1, p, hf, _, _, hfit, hbytes, _⟩
  · rw [hok.nosplice] at hx; cases hx
  · have hw1 := fetch_nosplice e cl hok.nosplice w w1 _ _ hf
    subst hw1
    rw [List.append_nil] at hf
    have hcmd : cmdOf (reqOf e s) p = s.cmd := by
      unfold cmdOf Spec.Sent.cmd; rw [hbytes]; rfl
    obtain ⟨cl', w', msgs, rs, h1, h2, h3⟩ := handleRequest_any e cl w1 (reqOf e s) p hok hgen hb hs.fits.len hfit
      (fetch_piped e cl hok.nosplice _ _ _ _ _ _ hf) before hd (by rw [hcmd]; exact ht)
    rw [mainloop_push _ _ _ _ _ _ _ _ hf, h1]
    simp only [mainloop_nil]
    rw [hcmd] at h3
    refine ⟨rs, ?_, rfl, h3⟩
    have := Run.cons_sent ⟨reqOf e s, p, msgs⟩ ⟨[], cl', w', .gone⟩ rs [] h2.wire rfl
    rw [List.append_nil] at this
    exact this

/-- Copy-on-write sessions in any state, sending anything, taking turns with one that is in order. -/
theorem turns_any (e : Endian) (i : Nat) (sched : List (Nat × List Byte)) : ∀ (cls : Nat → Client) (w : World)
    (before : List Spec.Cmd) (mine : List Sent)
    (_ : (sched.filter (fun x => x.1 == i)).map Prod.snd = mine.map Sent.encode) (_ : ∀ s ∈ mine, s.Ok)
    (_ : ∀ j, has (cls j).ex.flags F_COPYONWRITE = true ∧ has (cls j).ex.flags F_SPLICE = false)
    (_ : CowOk (cls i) w) (_ : NoEarlyEof w) (_ : Backed (cls i).ex w)
    (_ : ∀ j, j ≠ i → (cls i).difffile ≠ (cls j).difffile)
    (_ : ∀ j a x, home (cls i).ex a = some x → x.1 ≠ .fd (cls j).difffile)
    (_ : ∀ q, Dirty (cls i) q → Spec.Written before q)
    (_ : ∀ pre c post, mine.map Sent.cmd = pre ++ c :: post → Spec.Tractable (cls i).structured (before ++ pre) c),
    ∃ rs bad rest, sentTo i (turns e sched cls w).1 = Spec.wire rs ++ rest ∧
      Spec.CowRun (cls i).ex.exportsize (badWrite (cls i)) (cls i).structured (cowView (cls i) w)
        (mine.map Sent.cmd) rs bad ∧ (bad = false → rest = []) := by
  induction sched with
  | nil =>
    intro cls w before mine hm _ _ _ _ _ _ _ _ _
    have : mine = [] := by
      cases mine with
      | nil => rfl
      | cons s t => simp at hm
    subst this
    exact ⟨[], false, [], rfl, .nil _, fun _ => rfl⟩
  | cons x rest ih =>
    obtain ⟨k, bs⟩ := x
    intro cls w before mine hm hs hc hok hgen hb hdist hbase hd ht
    rw [turns]
    simp only []
    obtain ⟨hk, hseat0⟩ := mainloop_keptOff e (cls k) (hc k).1 (hc k).2 w bs
    have horc := mainloop_orc e (cls k) (hc k).1 (hc k).2 w bs
    have hseat : ∀ j, SameSeat (cls j) (if j = k then (mainloop e (cls k) w bs).cl else cls j) := by
      intro j; split
      · rename_i h; subst h; exact hseat0
      · exact .refl _
    have hbw : badWrite (if i = k then (mainloop e (cls k) w bs).cl else cls i) = badWrite (cls i) := by
      unfold badWrite; rw [(hseat i).ex]
    have hb1 : Backed (cls i).ex (mainloop e (cls k) w bs).w := by
      intro a ha
      obtain ⟨id, o, f, b1, b2, b3⟩ := hb a ha
      refine ⟨id, o, f, b1, ?_, b3⟩
      rcases hk id (hbase k a _ b1) with h | ⟨_, h, _⟩
      · rw [h]; exact b2
      · rw [h] at b2; cases b2
    by_cases hik : i = k
    · subst hik
      simp only [List.filter_cons, beq_self_eq_true, if_true, List.map_cons] at hm
      cases mine with
      | nil => simp at hm
      | cons s mine =>
      simp only [List.map_cons, List.cons.injEq] at hm
      obtain ⟨rfl, hm⟩ := hm
      have ht0 : Spec.Tractable (cls i).structured before s.cmd := by
        have := ht [] s.cmd (mine.map Sent.cmd) (by simp)
        rwa [List.append_nil] at this
      obtain ⟨rs, h1, h2, h3⟩ := mainloop_any_one e (cls i) w s (hs s (by simp)) hok hgen hb before hd ht0
      generalize hrun : mainloop e (cls i) w s.encode = run at *
      have hsent : ∀ out, sentTo i ((i, run.sent) :: out) = run.sent ++ sentTo i out := by
        intro out
        unfold sentTo
        simp only [List.filter_cons, beq_self_eq_true, if_true, List.map_cons, List.flatten_cons]
      rw [hsent, h1]
      -- the rest of the session, if this request left it in order
      have hnext : ∀ (_ : CowStep (cls i) w run.cl run.w)
          (_ : ∀ q, Dirty run.cl q → Spec.Written (before ++ [s.cmd]) q),
          ∃ rs' bad rest', sentTo i (turns e rest (fun j => if j = i then run.cl else cls j) run.w).1 =
            Spec.wire rs' ++ rest' ∧
            Spec.CowRun (cls i).ex.exportsize (badWrite (cls i)) (cls i).structured (cowView run.cl run.w)
              (mine.map Sent.cmd) rs' bad ∧ (bad = false → rest' = []) := by
        intro hst hd'
        have hbw0 : badWrite run.cl = badWrite (cls i) := by unfold badWrite; rw [hseat0.ex]
        have := ih (fun j => if j = i then run.cl else cls j) run.w (before ++ [s.cmd]) mine hm
          (fun s' h' => hs s' (by simp [h']))
          (by intro j; simp only [(hseat j).ex]; exact hc j)
          (by simp only [if_true]; exact hst.ok)
          (hgen.of_orc horc)
          (by simp only [if_true, hseat0.ex]; exact hb1)
          (by intro j hj; simp only [if_true, hseat0.difffile, (hseat j).difffile]; exact hdist j hj)
          (by intro j a x; simp only [if_true, hseat0.ex, (hseat j).difffile]; exact hbase j a x)
          (by simp only [if_true]; exact hd')
          (by
            intro pre c post hpre
            simp only [if_true, hseat0.structured]
            rw [List.append_assoc]
            exact ht ([s.cmd] ++ pre) c post (by simp [hpre]))
        simp only [if_true, hseat0.ex, hseat0.structured, hbw0] at this
        exact this
      have hmono : ∀ q, Dirty (cls i) q → Spec.Written (before ++ [s.cmd]) q := by
        intro q hq
        obtain ⟨c, h1, h2⟩ := hd q hq
        exact ⟨c, by simp [h1], h2⟩
      cases h3 with
      | sure h st hdd =>
        obtain ⟨rs', bad, rest', i1, i2, i3⟩ := hnext st (by
          intro q hq
          rcases hdd q hq with h | h
          · exact hmono q h
          · exact ⟨s.cmd, by simp, h⟩)
        refine ⟨rs ++ rs', bad, rest', ?_, .step _ _ _ _ _ _ _ h i2, i3⟩
        rw [i1]; simp [Spec.wire]
      | readFails hc0 hr h hcl hv st =>
        rw [hcl] at hnext
        obtain ⟨rs', bad, rest', i1, i2, i3⟩ := hnext st hmono
        rw [hv] at i2
        refine ⟨rs ++ rs', bad, rest', ?_, .readFails _ _ _ _ _ _ hc0 hr h i2, i3⟩
        rw [hcl, i1]; simp [Spec.wire]
      | flushFails hc0 err he hrs hcl hv st =>
        rw [hcl] at hnext
        obtain ⟨rs', bad, rest', i1, i2, i3⟩ := hnext st hmono
        rw [hv] at i2
        refine ⟨_ :: rs', bad, rest', ?_, .flushFails _ _ _ _ _ _ hc0 he i2, i3⟩
        rw [hcl, i1, hrs]; simp [Spec.wire]
      | writeFails hc0 hw hr err he hrs =>
        refine ⟨rs, true, _, rfl, ?_, by simp⟩
        rw [hrs]
        exact .writeFails _ _ _ _ hc0 hw hr he
    · have hki : (k == i) = false := by simpa using Ne.symm hik
      rw [List.filter_cons, hki, if_neg (by simp)] at hm
      obtain ⟨hok', hv'⟩ := hok.other (hdist k (Ne.symm hik)) (hbase k) hk
      have := ih (fun j => if j = k then (mainloop e (cls k) w bs).cl else cls j) (mainloop e (cls k) w bs).w before mine hm hs
          (by intro j; simp only [(hseat j).ex]; exact hc j)
          (by simp only [hik, if_false]; exact hok')
          (hgen.of_orc horc)
          (by simp only [(hseat i).ex]; exact hb1)
          (by intro j hj; simp only [(hseat i).difffile, (hseat j).difffile]; exact hdist j hj)
          (by intro j a x; simp only [(hseat i).ex, (hseat j).difffile]; exact hbase j a x)
          (by simp only [hik, if_false]; exact hd)
          (by intro pre c post hpre; simp only [(hseat i).structured]; exact ht pre c post hpre)
      simp only [(hseat i).ex, (hseat i).structured, hbw] at this
      simp only [hik, if_false, hv'] at this
      obtain ⟨rs, bad, rest', i1, i2, i3⟩ := this
      refine ⟨rs, bad, rest', ?_, i2, i3⟩
      rw [← i1]
      unfold sentTo
      rw [List.filter_cons, hki, if_neg (by simp)]

end Nbd
