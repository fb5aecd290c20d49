import Verif.SessionLemmas
/-! # No crash, and no error without a cause -/

namespace Nbd

/-- Every system call succeeds and transfers at least one byte (possibly fewer than asked). -/
def Healthy (w : World) : Prop := ∀ t, ∃ n, 0 < n ∧ w.orc t = .done n

/-- Every byte of the export is present in its file. -/
def Backed (ex : Export) (w : World) : Prop :=
  ∀ a, a < ex.exportsize → ∃ id o f, home ex a = some (id, o) ∧ w.files id = some f ∧ o < f.size

theorem Healthy.next {w : World} (h : Healthy w) : ∃ n, 0 < n ∧ w.next = .done n := h w.tick

theorem getFilepos_backed (ex : Export) (hg : GoodExport ex) (w : World) (hh : Healthy w)
    (hb : Backed ex w) (a : Nat) (ha : a < ex.exportsize) :
    ∃ w' id off mb, getFilepos ex w a = .val (w', some (.file id, off, mb)) ∧
      w'.files = w.files ∧ w'.orc = w.orc ∧ home ex a = some (id, off) := by
  have hsz := hg.size
  cases ht : has ex.flags F_TREEFILES with
  | false =>
    obtain ⟨fi, nx, hloc, hq⟩ := getFilepos_files ex w a (by omega) ht (hg.files ht)
    refine ⟨w, _, _, _, hq, rfl, rfl, ?_⟩
    simp [home, ht, hloc]
  | true =>
    obtain ⟨id, o, f, h1, h2, h3⟩ := hb a ha
    unfold home at h1
    rw [ht] at h1
    simp only [if_true, Option.map_eq_some_iff, Prod.mk.injEq] at h1
    obtain ⟨p, hp, rfl, rfl⟩ := h1
    obtain ⟨n, hn, hnext⟩ := hh.next
    refine ⟨w.step, .path p, a % TREEPAGESIZE,
      ((1 + a / TREEPAGESIZE) * TREEPAGESIZE) - a, ?_, rfl, rfl, ?_⟩
    · unfold getFilepos
      rw [if_neg (by omega), if_pos ht]
      simp only [openTreefile, hp, h2, hnext]
    · simp [home, ht, hp]

theorem clip_pos {mb len : Nat} (h : 0 < len) : 0 < clip mb len := by
  unfold clip; split <;> omega

theorem rawexpread_backed (ex : Export) (hg : GoodExport ex) (w : World) (hh : Healthy w)
    (hb : Backed ex w) (a len : Nat) (hl : 0 < len) (hr : a + len ≤ ex.exportsize) :
    ∃ w' b bs, rawexpread ex w a len = .val (w', some (b :: bs)) ∧ w'.files = w.files ∧
      w'.orc = w.orc := by
  obtain ⟨w1, id, off, mb, hq, hf, ho, hhome⟩ := getFilepos_backed ex hg w hh hb a (by omega)
  obtain ⟨id', o', f, h1, h2, h3⟩ := hb a (by omega)
  rw [hhome] at h1
  cases h1
  have hh1 : Healthy w1 := by intro t; rw [ho]; exact hh t
  obtain ⟨n, hn, hnext⟩ := hh1.next
  unfold rawexpread
  rw [hq]
  simp only [handlePread, sysPread, hf, h2, hnext]
  have hlen : 0 < (f.pread off (clip mb len) (min n MAX_RW_COUNT)).length := by
    have := clip_pos (mb := mb) hl
    simp only [File.pread, Flat.read_length, MAX_RW_COUNT]
    omega
  cases hbs : f.pread off (clip mb len) (min n MAX_RW_COUNT) with
  | nil => rw [hbs] at hlen; simp at hlen
  | cons b bs => exact ⟨_, b, bs, rfl, hf, ho⟩

theorem rawexpreadFully_backed (ex : Export) (hg : GoodExport ex) (w : World) (hh : Healthy w)
    (hb : Backed ex w) (c : ReadCtx) (hr : c.start + c.curOff + c.curLen ≤ ex.exportsize)
    (hbuf : c.chunked = false → c.curOff + c.curLen ≤ c.buf.length) :
    ∃ w' c', rawexpreadFully ex w c = .val (w', c', true) := by
  fun_induction rawexpreadFully ex w c with
  | case1 w c h => exact ⟨_, _, rfl⟩
  | case2 w c h hq =>
    obtain ⟨_, _, _, h1, _⟩ := rawexpread_backed ex hg w hh hb _ _ (by omega) hr
    rw [hq] at h1; cases h1
  | case3 w c h hq =>
    obtain ⟨_, _, _, h1, _⟩ := rawexpread_backed ex hg w hh hb _ _ (by omega) hr
    rw [hq] at h1; cases h1
  | case4 w c h w1 hq =>
    obtain ⟨_, _, _, h1, _⟩ := rawexpread_backed ex hg w hh hb _ _ (by omega) hr
    rw [hq] at h1; cases h1
  | case5 w c h w1 hq =>
    obtain ⟨_, _, _, h1, _⟩ := rawexpread_backed ex hg w hh hb _ _ (by omega) hr
    rw [hq] at h1; cases h1
  | case6 w c h w1 b bs hq hd =>
    obtain ⟨_, hsp⟩ := rawexpread_spec ex hg w _ _ hr (by omega)
    obtain ⟨hle, _⟩ := (hsp _ _ hq).2 _ rfl
    obtain ⟨c', hd', _⟩ := deliver_spec c (b :: bs) hle hbuf
    rw [hd] at hd'; cases hd'
  | case7 w c h w1 b bs hq hd =>
    obtain ⟨_, hsp⟩ := rawexpread_spec ex hg w _ _ hr (by omega)
    obtain ⟨hle, _⟩ := (hsp _ _ hq).2 _ rfl
    obtain ⟨c', hd', _⟩ := deliver_spec c (b :: bs) hle hbuf
    rw [hd] at hd'; cases hd'
  | case8 w c h w1 b bs hq c' hd ih =>
    obtain ⟨_, hsp⟩ := rawexpread_spec ex hg w _ _ hr (by omega)
    obtain ⟨hle, _⟩ := (hsp _ _ hq).2 _ rfl
    obtain ⟨c2, hd', hst, hrl, hstr, hdf, hbf, hch⟩ := deliver_spec c (b :: bs) hle hbuf
    rw [hd] at hd'; cases hd'
    obtain ⟨_, _, _, h1, hf1, ho1⟩ := rawexpread_backed ex hg w hh hb _ _ (by omega) hr
    rw [hq] at h1; cases h1
    apply ih
    · intro t; rw [ho1]; exact hh t
    · intro x hx; rw [hf1]; exact hb x hx
    · simp only [hst]; omega
    · intro hc
      have hc' : c.chunked = false := by
        rw [← hc]; simp [ReadCtx.chunked, hstr, hdf]
      simp only [(hbf hc').1]
      rw [bufSet_length _ _ _ (by have := hbuf hc'; omega)]
      have := hbuf hc'
      omega

theorem Backed.of_grow {ex : Export} {w w' : World} (hb : Backed ex w)
    (h : ∀ id f, w.files id = some f → ∃ f', w'.files id = some f' ∧ f.size ≤ f'.size) :
    Backed ex w' := by
  intro a ha
  obtain ⟨id, o, f, h1, h2, h3⟩ := hb a ha
  obtain ⟨f', h4, h5⟩ := h id f h2
  exact ⟨id, o, f', h1, h4, by omega⟩

theorem sysFsync_grow (w : World) (id : FileId) :
    (sysFsync w id).1.orc = w.orc ∧
    ∀ i f, w.files i = some f → ∃ f', (sysFsync w id).1.files i = some f' ∧ f.size ≤ f'.size := by
  unfold sysFsync
  split
  · exact ⟨rfl, fun i f h => ⟨f, h, Nat.le_refl _⟩⟩
  · rename_i g hg
    split
    · exact ⟨rfl, fun i f h => ⟨f, h, Nat.le_refl _⟩⟩
    · refine ⟨rfl, fun i f h => ?_⟩
      by_cases hi : i = id
      · subst hi
        rw [hg] at h; cases h
        exact ⟨_, World.set_files_same _ _ _, Nat.le_refl _⟩
      · exact ⟨f, by rw [World.set_files_ne _ _ hi]; exact h, Nat.le_refl _⟩

theorem rawexpwrite_backed (ex : Export) (hg : GoodExport ex) (w : World) (hh : Healthy w)
    (hb : Backed ex w) (a : Nat) (buf : List Byte) (fua : Bool) (hl : 0 < buf.length)
    (hr : a + buf.length ≤ ex.exportsize) :
    ∃ w' n, rawexpwrite ex w a buf fua = .val (w', some (n + 1)) ∧ Healthy w' ∧ Backed ex w' := by
  obtain ⟨w1, id, off, mb, hq, hf, ho, hhome⟩ := getFilepos_backed ex hg w hh hb a (by omega)
  obtain ⟨id', o', f, h1, h2, h3⟩ := hb a (by omega)
  rw [hhome] at h1
  cases h1
  have hh1 : Healthy w1 := by intro t; rw [ho]; exact hh t
  obtain ⟨n, hn, hnext⟩ := hh1.next
  unfold rawexpwrite
  rw [hq]
  simp only [handlePwrite, sysPwrite, hf, h2, hnext]
  have hc := clip_pos (mb := mb) hl
  have hc2 := clip_le mb buf.length
  have hlen : 0 < min n (buf.take (clip mb buf.length)).length := by
    rw [List.length_take]; omega
  generalize hbs : buf.take (clip mb buf.length) = bs at *
  have hgrow : ∀ i g, w.files i = some g → ∃ g',
      (w1.step.set id (f.pwrite off (bs.take n))).files i = some g' ∧ g.size ≤ g'.size := by
    intro i g hi
    by_cases hid : i = id
    · subst hid
      rw [h2] at hi; cases hi
      refine ⟨_, World.set_files_same _ _ _, ?_⟩
      simp only [File.pwrite]
      split <;> omega
    · exact ⟨g, by rw [World.set_files_ne _ _ hid]; simp [hf, hi], Nat.le_refl _⟩
  obtain ⟨m, hm⟩ : ∃ m, min n bs.length = m + 1 := ⟨min n bs.length - 1, by omega⟩
  rw [hm]
  refine ⟨_, m, rfl, ?_, ?_⟩
  · intro t
    split
    · rw [handleSyncIgnored, (sysFsync_grow _ _).1]
      simp only [World.set_orc, World.step_orc, ho]; exact hh t
    · simp only [World.set_orc, World.step_orc, ho]; exact hh t
  · split
    · exact (hb.of_grow hgrow).of_grow (sysFsync_grow _ _).2
    · exact hb.of_grow hgrow

theorem rawexpwriteFully_backed (ex : Export) (hg : GoodExport ex) (w : World) (hh : Healthy w)
    (hb : Backed ex w) (a : Nat) (buf : List Byte) (fua : Bool)
    (hr : a + buf.length ≤ ex.exportsize) :
    ∃ w', rawexpwriteFully ex w a buf fua = .val (w', true) ∧ Healthy w' ∧ Backed ex w' := by
  have key : ∀ w a (buf : List Byte), Healthy w → Backed ex w → 0 < buf.length →
      a + buf.length ≤ ex.exportsize → ∀ o, rawexpwrite ex w a buf fua = o →
      ∃ w' n, o = .val (w', some (n + 1)) ∧ Healthy w' ∧ Backed ex w' := by
    intro w a buf hh hb hl hr o ho
    rw [← ho]; exact rawexpwrite_backed ex hg w hh hb a buf fua hl hr
  fun_induction rawexpwriteFully ex w a buf fua with
  | case1 w a buf h => exact ⟨w, rfl, hh, hb⟩
  | case2 w a buf h hq =>
    obtain ⟨_, _, h1, _⟩ := key w a buf hh hb (by omega) hr _ hq; cases h1
  | case3 w a buf h hq =>
    obtain ⟨_, _, h1, _⟩ := key w a buf hh hb (by omega) hr _ hq; cases h1
  | case4 w a buf h w1 hq =>
    obtain ⟨_, _, h1, _⟩ := key w a buf hh hb (by omega) hr _ hq; cases h1
  | case5 w a buf h w1 hq =>
    obtain ⟨_, _, h1, _⟩ := key w a buf hh hb (by omega) hr _ hq; cases h1
  | case6 w a buf h w1 n hq ih =>
    obtain ⟨w', n', h1, h2, h3⟩ := key w a buf hh hb (by omega) hr _ hq
    cases h1
    have hn : n + 1 ≤ buf.length := by
      unfold rawexpwrite at hq
      split at hq
      · cases hq
      · cases hq
      · cases hq
      · simp only [Out.val.injEq, Prod.mk.injEq] at hq
        have h2 := hq.2
        rename_i hh' off mb _
        have hc2 := clip_le mb buf.length
        unfold handlePwrite sysPwrite at h2
        split at h2
        · split at h2
          · cases h2
          · split at h2
            · cases h2
            · simp only [Option.some.injEq, List.length_take] at h2; omega
        · cases h2
        · split at h2
          · cases h2
          · simp only [Option.some.injEq, List.length_take] at h2; omega
    exact ih h2 h3 (by rw [List.length_drop]; omega)

theorem expspliceIn_backed (ex : Export) (hg : GoodExport ex) (w : World) (hh : Healthy w)
    (hb : Backed ex w) (a len : Nat) (pipe : List Byte) (hr : a + len ≤ ex.exportsize) :
    ∃ w' out, expspliceIn ex w a len pipe = .val (w', out, true) := by
  fun_induction expspliceIn ex w a len pipe with
  | case1 => exact ⟨_, _, rfl⟩
  | case2 w a len pipe h hq =>
    obtain ⟨_, _, _, h1, _⟩ := rawexpread_backed ex hg w hh hb a len (by omega) hr
    rw [hq] at h1; cases h1
  | case3 w a len pipe h hq =>
    obtain ⟨_, _, _, h1, _⟩ := rawexpread_backed ex hg w hh hb a len (by omega) hr
    rw [hq] at h1; cases h1
  | case4 w a len pipe h w1 hq =>
    obtain ⟨_, _, _, h1, _⟩ := rawexpread_backed ex hg w hh hb a len (by omega) hr
    rw [hq] at h1; cases h1
  | case5 w a len pipe h w1 hq =>
    obtain ⟨_, _, _, h1, _⟩ := rawexpread_backed ex hg w hh hb a len (by omega) hr
    rw [hq] at h1; cases h1
  | case6 w a len pipe h w1 b bs hq ih =>
    obtain ⟨_, _, _, h1, hf, ho⟩ := rawexpread_backed ex hg w hh hb a len (by omega) hr
    rw [hq] at h1; cases h1
    obtain ⟨hle, _⟩ := ((rawexpread_spec ex hg w a len hr (by omega)).2 _ _ hq).2 _ rfl
    apply ih
    · intro t; rw [ho]; exact hh t
    · intro x hx; rw [hf]; exact hb x hx
    · omega

theorem expspliceOut_backed (ex : Export) (hg : GoodExport ex) (w : World) (hh : Healthy w)
    (hb : Backed ex w) (a len : Nat) (pipe : List Byte) (fua : Bool) (hl : pipe.length = len)
    (hr : a + len ≤ ex.exportsize) (hw : has ex.flags F_READONLY = false) :
    ∃ w', expspliceOut ex w a len pipe fua = .val (w', true) := by
  have key : ∀ w a len (pipe : List Byte), Healthy w → Backed ex w → 0 < len → pipe.length = len →
      a + len ≤ ex.exportsize → ∀ o, rawexpwrite ex w a (pipe.take len) fua = o →
      ∃ w' n, o = .val (w', some (n + 1)) ∧ Healthy w' ∧ Backed ex w' := by
    intro w a len pipe hh hb hl hpl hr o ho
    have htl : (pipe.take len).length = len := by rw [List.length_take]; omega
    rw [← ho]; exact rawexpwrite_backed ex hg w hh hb a _ fua (by omega) (by omega)
  fun_induction expspliceOut ex w a len pipe fua with
  | case1 => exact ⟨_, rfl⟩
  | case2 w a len pipe h hq =>
    obtain ⟨_, _, h1, _⟩ := key w a len pipe hh hb (by omega) hl hr _ hq; cases h1
  | case3 w a len pipe h hq =>
    obtain ⟨_, _, h1, _⟩ := key w a len pipe hh hb (by omega) hl hr _ hq; cases h1
  | case4 w a len pipe h w1 hq =>
    obtain ⟨_, _, h1, _⟩ := key w a len pipe hh hb (by omega) hl hr _ hq; cases h1
  | case5 w a len pipe h w1 hq =>
    obtain ⟨_, _, h1, _⟩ := key w a len pipe hh hb (by omega) hl hr _ hq; cases h1
  | case6 w a len pipe h w1 n hq ih =>
    obtain ⟨w', n', h1, h2, h3⟩ := key w a len pipe hh hb (by omega) hl hr _ hq
    cases h1
    have htl : (pipe.take len).length = len := by rw [List.length_take]; omega
    obtain ⟨hn, _⟩ := ((rawexpwrite_spec ex hg w a (pipe.take len) fua (by omega) (by omega) hw).2
      _ _ hq).2 _ rfl
    exact ih h2 h3 (by rw [List.length_drop]; omega) (by omega)

theorem expwriteZeroes_backed (cl : Client) (hp : Plain cl) (w : World) (hh : Healthy w)
    (hb : Backed cl.ex w) (a len : Nat) (fua : Bool) (hr : a + len ≤ cl.ex.exportsize) :
    ∃ w', expwriteZeroes cl w a len fua = .val (cl, w', true) ∧ Healthy w' ∧ Backed cl.ex w' := by
  induction len using Nat.strongRecOn generalizing w with
  | _ len ih =>
  unfold expwriteZeroes
  split
  · exact ⟨w, rfl, hh, hb⟩
  · rename_i h0
    have hz : 0 < ZEROCHUNK := by decide
    obtain ⟨w1, h1, h2, h3⟩ := rawexpwriteFully_backed cl.ex hp.good w hh hb a
      (Flat.zeros (min len ZEROCHUNK)) fua (by rw [Flat.zeros_length]; omega)
    simp only [expwrite, hp.paged, Bool.false_eq_true, if_false, h1]
    exact ih _ (by omega) w1 h2 h3 (by omega)

theorem flushFiles_healthy (fs : List FileInfo) (w : World) (hh : Healthy w)
    (hf : ∀ fi ∈ fs, ∃ f, w.files (.fd fi.fhandle) = some f) : (flushFiles fs w).2 = true := by
  induction fs generalizing w with
  | nil => rfl
  | cons fi fs ih =>
    obtain ⟨f, hf1⟩ := hf fi (by simp)
    obtain ⟨n, hn, hnext⟩ := hh.next
    have hq : sysFsync w (.fd fi.fhandle) = (w.step.set (.fd fi.fhandle) f.sync, true) := by
      simp [sysFsync, hf1, hnext]
    unfold flushFiles
    rw [hq]
    simp only []
    apply ih
    · exact hh
    · intro gi hgi
      obtain ⟨g, hg⟩ := hf gi (by simp [hgi])
      have := (sysFsync_grow w (.fd fi.fhandle)).2 _ _ hg
      rw [hq] at this
      obtain ⟨f', h1, _⟩ := this
      exact ⟨f', h1⟩

/-- On a healthy store every permitted in-range request (and every flush) succeeds. -/
theorem handleRequest_healthy (e : Endian) (cl : Client) (hp : Plain cl) (w : World) (r : Req)
    (p : Payload) (hlen : r.len < 2 ^ 32) (hpl : p.fits r)
    (hh : Healthy w) (hb : Backed cl.ex w)
    (hfl : ∀ fi ∈ cl.ex.files, ∃ f, w.files (.fd fi.fhandle) = some f)
    (hnw : has cl.ex.flags F_WAIT = false)
    (hf : r.type < 262144)
    (hcode : r.type % 65536 = 3 ∨
      (r.start + r.len ≤ cl.ex.exportsize ∧
        (r.type % 65536 = 0 ∨
         (badWrite cl = false ∧ (r.type % 65536 = 6 ∨ r.type % 65536 = 1))))) :
    ∃ cl' w' msgs rs, handleRequest e cl w r p = .val (cl', w', msgs) ∧ Encodes msgs rs ∧
      ∀ x ∈ rs, x.error = 0 := by
  have hsz := hp.good.size
  have hr : r.start + r.len ≤ cl.ex.exportsize → badRange cl r = false := by
    intro h
    unfold badRange
    simp only [gt_iff_lt, Bool.or_eq_false_iff, decide_eq_false_iff_not, Nat.not_lt]
    omega
  have hfl4 : ¬ (r.type - r.type % 65536) / 65536 / 4 ≠ 0 := by omega
  have hpg := hp.paged
  have hncow : has cl.ex.flags F_COPYONWRITE = false := by
    unfold Client.paged at hpg
    rw [Bool.or_eq_false_iff] at hpg
    exact hpg.1
  have hdf : has r.type CMD_FLAG_DF = false := has_df_of_flags (by omega)
  unfold handleRequest
  rw [if_neg hfl4]
  rcases hcode with h3 | ⟨hrange, h0 | ⟨hbw, h6 | h1⟩⟩
  · rw [if_neg (by rw [h3]; decide), if_neg (by rw [h3]; decide), if_pos (by rw [h3]; decide)]
    have hok : (expflush cl w).2 = true := by
      unfold expflush
      rw [hncow, hnw]
      simp only [Bool.false_eq_true, if_false]
      split
      · split <;> rfl
      · exact flushFiles_healthy _ w hh hfl
    simp only [handleFlush]
    refine ⟨_, _, _, [.simple 0 r.cookie []], rfl, ?_, ?_⟩
    · rw [resultOf_eq, hok]; exact simpleMsg_encodes e r none
    · simp [Spec.Reply.error]
  · rw [if_pos (by rw [h0]; rfl), hr hrange]
    simp only [Bool.false_eq_true, if_false]
    have hnorm : ∀ w1, Healthy w1 → Backed cl.ex w1 → ∃ w' msgs rs,
        handleNormalRead e cl w1 r = .val (w', msgs) ∧ Encodes msgs rs ∧ ∀ x ∈ rs, x.error = 0 := by
      intro w1 hh1 hb1
      obtain ⟨w', c', hq⟩ := rawexpreadFully_backed cl.ex hp.good w1 hh1 hb1 (initCtx cl r)
        (by simp only [initCtx]; omega)
        (by intro hc; simp [initCtx, ReadCtx.chunked] at hc ⊢; simp [hc])
      have hex : expread cl w1 (initCtx cl r) = .val (w', c', true) := by
        unfold expread; rw [hpg]; simpa using hq
      have hval : ∃ msgs, handleNormalRead e cl w1 r = .val (w', msgs) := by
        obtain ⟨hsame, n, hdel, hok⟩ := (rawexpreadFully_spec cl.ex hp.good w1 (initCtx cl r)
          (by simp only [initCtx]; omega)
          (by intro hc; simp [initCtx, ReadCtx.chunked] at hc ⊢; simp [hc])).2 w' c' true hq
        unfold handleNormalRead
        simp only [hdf, Bool.and_false, Bool.false_and, Bool.false_eq_true, if_false, Bool.false_or]
        have hex' := hex
        unfold initCtx at hex'
        rw [hex']
        simp only [if_true]
        unfold completeRead
        cases hst : cl.structured with
        | true =>
          have : c'.structured = true := by rw [hdel.structured]; exact hst
          have hd : c'.df = false := hdel.df
          simp [this, hd]
        | false =>
          have hs : c'.structured = false := by rw [hdel.structured]; exact hst
          have hbf := hdel.buf (by simp [ReadCtx.chunked, initCtx, hst])
          simp only [initCtx, hst, Nat.add_zero, Bool.not_false, if_true] at hbf
          have hn := hok rfl
          simp only [initCtx] at hn
          subst hn
          rw [bufSet_all _ _ (by simp)] at hbf
          simp [hs, hbf, allInit_map]
      obtain ⟨msgs, hval⟩ := hval
      obtain ⟨c2, ok, hq2, hx⟩ := handleNormalRead_replies e cl w1 w' r msgs hdf hval
      rw [hex] at hq2
      cases hq2
      rw [if_pos rfl] at hx
      rcases hx with ⟨_, henc⟩ | ⟨_, data, _, _, henc⟩
      · refine ⟨w', msgs, _, hval, henc, ?_⟩
        intro x hx
        rw [List.mem_append, List.mem_map] at hx
        rcases hx with ⟨y, _, rfl⟩ | hx
        · simp [Spec.dataChunk, Spec.Reply.error]
        · simp only [List.mem_singleton] at hx; subst hx; simp [Spec.doneChunk, Spec.Reply.error]
      · exact ⟨w', msgs, _, hval, henc, by simp [Spec.Reply.error]⟩
    have hread : ∃ w' msgs rs, handleRead e cl w r = .val (w', msgs) ∧ Encodes msgs rs ∧
        ∀ x ∈ rs, x.error = 0 := by
      unfold handleRead
      split
      · obtain ⟨n, hn, hnext⟩ := hh.next
        have hsr : handleSpliceRead e cl w r = .val (w, none) ∨
            ∃ w' out, handleSpliceRead e cl w r = .val (w', some [⟨simpleHdr e 0 r.cookie, out⟩]) := by
          unfold handleSpliceRead
          split
          · left; rfl
          · unfold mkpipe
            by_cases hm : r.len > MAX_PIPE_SIZE
            · left; rw [if_pos hm]
            · right
              rw [if_neg hm, hnext]
              obtain ⟨w', out, hq⟩ := expspliceIn_backed cl.ex hp.good w.step hh hb r.start r.len []
                hrange
              simp only [hq]
              exact ⟨_, _, rfl⟩
        rcases hsr with hsr | ⟨w', out, hsr⟩
        · rw [hsr]; exact hnorm w hh hb
        · rw [hsr]
          refine ⟨_, _, [.simple 0 r.cookie out], rfl, ?_, by simp [Spec.Reply.error]⟩
          simp [Encodes, simple_bytes_zero]
      · exact hnorm w hh hb
    obtain ⟨w', msgs, rs, h1, h2, h3⟩ := hread
    rw [h1]
    exact ⟨_, _, _, rs, rfl, h2, h3⟩
  · rw [if_neg (by rw [h6]; decide), if_neg (by rw [h6]; decide), if_neg (by rw [h6]; decide),
      if_neg (by rw [h6]; decide), if_pos (by rw [h6]; decide), hbw, hr hrange]
    simp only [Bool.false_eq_true, if_false, handleWriteZeroes]
    obtain ⟨w', hq, _⟩ := expwriteZeroes_backed cl hp w hh hb r.start r.len (has r.type CMD_FLAG_FUA)
      hrange
    rw [hq]
    refine ⟨_, _, _, [.simple 0 r.cookie []], rfl, ?_, by simp [Spec.Reply.error]⟩
    exact simpleMsg_encodes e r none
  · rw [if_neg (by rw [h1]; decide), if_pos (by rw [h1]; decide), hbw, hr hrange]
    simp only [Bool.false_eq_true, if_false, handleWrite]
    cases p with
    | nothing => exact absurd h1 hpl
    | data bs =>
      have hl : bs.length = r.len := hpl
      obtain ⟨w', hq, _⟩ := rawexpwriteFully_backed cl.ex hp.good w hh hb r.start bs
        (has r.type CMD_FLAG_FUA) (by omega)
      simp only [expwrite, hpg, Bool.false_eq_true, if_false, hq]
      refine ⟨_, _, _, [.simple 0 r.cookie []], rfl, ?_, by simp [Spec.Reply.error]⟩
      exact simpleMsg_encodes e r none
    | pipe bs =>
      have hl : bs.length = r.len := hpl
      obtain ⟨w', hq⟩ := expspliceOut_backed cl.ex hp.good w hh hb r.start r.len bs
        (has r.type CMD_FLAG_FUA) hl hrange (notReadonly hbw)
      simp only [hq]
      refine ⟨_, _, _, [.simple 0 r.cookie []], rfl, ?_, by simp [Spec.Reply.error]⟩
      exact simpleMsg_encodes e r none

/-! ### No undefined behaviour -/

theorem handleRequest_noUb (e : Endian) (cl : Client) (hp : Plain cl) (w : World) (r : Req)
    (p : Payload) (hlen : r.len < 2 ^ 32) (hpl : p.fits r) : handleRequest e cl w r p ≠ .ub := by
  unfold handleRequest
  simp only []
  split
  · simp [errorReply]
  · rename_i hfl
    have hdf : has r.type CMD_FLAG_DF = false := has_df_of_flags (by omega)
    split
    · split
      · simp [errorReply]
      · rename_i hr
        have hrange := inRange hp.good hlen (by simpa using hr)
        have hnorm : ∀ w1, handleNormalRead e cl w1 r ≠ .ub := by
          intro w1 hc
          have hsp := rawexpreadFully_spec cl.ex hp.good w1 (initCtx cl r)
            (by simp only [initCtx]; omega)
            (by intro hc; simp [initCtx, ReadCtx.chunked] at hc ⊢; simp [hc])
          unfold handleNormalRead at hc
          simp only [hdf, Bool.and_false, Bool.false_and, Bool.false_eq_true, if_false, Bool.false_or] at hc
          change (match expread cl w1 (initCtx cl r) with | .ub => _ | .exit => _ | .val (w, c, ok) => _) = _ at hc
          have hex : expread cl w1 (initCtx cl r) = rawexpreadFully cl.ex w1 (initCtx cl r) := by
            unfold expread; rw [hp.paged]; rfl
          rw [hex] at hc
          split at hc
          · rename_i hq; exact hsp.1 hq
          · cases hc
          · rename_i w' c' ok hq
            obtain ⟨hsame, n, hdel, hok⟩ := hsp.2 w' c' ok hq
            have hd : c'.df = false := hdel.df
            have hs : c'.structured = cl.structured := hdel.structured
            unfold completeRead at hc
            rw [hs, hd] at hc
            cases hst : cl.structured with
            | true => cases ok <;> simp [hst] at hc
            | false =>
              cases ok with
              | false => simp [hst] at hc
              | true =>
                have hbf := hdel.buf (by simp [ReadCtx.chunked, initCtx, hst])
                simp only [initCtx, hst, Nat.add_zero, Bool.not_false, if_true] at hbf
                have hn := hok rfl
                simp only [initCtx] at hn
                subst hn
                rw [bufSet_all _ _ (by simp)] at hbf
                simp [hst, hbf, allInit_map] at hc
        have hread : handleRead e cl w r ≠ .ub := by
          intro hc
          unfold handleRead at hc
          split at hc
          · split at hc
            · rename_i hq
              unfold handleSpliceRead at hq
              split at hq
              · cases hq
              · split at hq
                · cases hq
                · rename_i w1 hm
                  have := (expspliceIn_spec cl.ex hp.good w1 r.start r.len [] hrange).1
                  split at hq
                  · rename_i hq1; exact this hq1
                  · cases hq
                  · cases hq
                  · cases hq
            · cases hc
            · cases hc
            · exact hnorm _ hc
          · exact hnorm _ hc
        split
        · rename_i hq; exact absurd hq hread
        · simp
        · simp
    · split
      · rename_i ht
        have ht : r.type % 65536 = 1 := ht
        split
        · simp [errorReply]
        · rename_i hbw
          have hbw : badWrite cl = false := by simpa using hbw
          split
          · simp [errorReply]
          · rename_i hr
            have hrange := inRange hp.good hlen (by simpa using hr)
            unfold handleWrite
            cases p with
            | nothing => exact absurd ht hpl
            | data bs =>
              have hl : bs.length = r.len := hpl
              have := (expwrite_plain cl hp w r.start bs (has r.type CMD_FLAG_FUA) (by omega)
                (notReadonly hbw)).1
              simp only []
              split
              · rename_i hq; exact absurd hq this
              · simp
              · simp
            | pipe bs =>
              have hl : bs.length = r.len := hpl
              have := (expspliceOut_spec cl.ex hp.good w r.start r.len bs (has r.type CMD_FLAG_FUA)
                hl hrange (notReadonly hbw)).1
              simp only []
              split
              · rename_i hq; exact absurd hq this
              · simp
              · simp
      · split
        · simp
        · split
          · split
            · simp [errorReply]
            · split
              · simp [errorReply]
              · rename_i hr
                have hrange := inRange hp.good hlen (by simpa using hr)
                have := (exptrim_trimmed cl hp.good w r.start r.len hrange).1
                unfold handleTrim
                cases hq : exptrim cl w r.start r.len with
                | ub => exact absurd hq this
                | exit => simp
                | val w' => simp
          · split
            · split
              · simp [errorReply]
              · rename_i hbw
                have hbw : badWrite cl = false := by simpa using hbw
                split
                · simp [errorReply]
                · rename_i hr
                  have hrange := inRange hp.good hlen (by simpa using hr)
                  have := (expwriteZeroes_plain cl hp w r.start r.len (has r.type CMD_FLAG_FUA)
                    hrange (notReadonly hbw)).1
                  unfold handleWriteZeroes
                  split
                  · rename_i hq; exact absurd hq this
                  · simp
                  · simp
            · simp [errorReply]

end Nbd
