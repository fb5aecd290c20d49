import Verif.HealthLemmas
import Verif.SchedTreeLive
/-!
# Trees on a store that works

On a tree export blocks that were never written have no file. When every system call succeeds and the block files that exist are complete, every permitted
request succeeds, and the block files stay complete.
-/

set_option autoImplicit false

namespace Nbd

/-- No system call fails, and the block files of the export that exist have the length of a block. -/
structure TreeReady (ex : Export) (w : World) : Prop where
  healthy : Healthy w
  blocks : ∀ a p f, a < ex.exportsize → treeFilename ex.name ex.exportsize a = some p → w.files (.path p) = some f → TREEPAGESIZE ≤ f.size

theorem TreeReady.same {ex : Export} {w w' : World} (h : TreeReady ex w) (hf : w'.files = w.files) (ho : w'.orc = w.orc) : TreeReady ex w' :=
  ⟨fun t => by rw [ho]; exact h.healthy t, fun a p f h1 h2 h3 => h.blocks a p f h1 h2 (by rw [← hf]; exact h3)⟩

theorem TreeReady.put {ex : Export} {w w' : World} (h : TreeReady ex w) (f : File) (hs : TREEPAGESIZE ≤ f.size)
    (hf : ∀ j g, w'.files j = some g → g.size = f.size ∨ w.files j = some g) (ho : w'.orc = w.orc) : TreeReady ex w' := by
  refine ⟨fun t => by rw [ho]; exact h.healthy t, fun a p g h1 h2 h3 => ?_⟩
  rcases hf _ _ h3 with h4 | h4
  · omega
  · exact h.blocks a p g h1 h2 h4

theorem TreeReady.remove {ex : Export} {w : World} (h : TreeReady ex w) (q : List Char) : TreeReady ex (w.step.remove q) := by
  refine ⟨h.healthy, fun a p g h1 h2 h3 => ?_⟩
  simp only [World.remove] at h3
  split at h3
  · cases h3
  · exact h.blocks a p g h1 h2 h3

theorem getFilepos_ready {ex : Export} (hg : GoodExport ex) (ht : has ex.flags F_TREEFILES = true) (hn : ex.name.length ≤ 4040) {w : World}
    (h : TreeReady ex w) (a : Nat) (ha : a < ex.exportsize) :
    ∃ w' hd mb, getFilepos ex w a = .val (w', some (hd, a % TREEPAGESIZE, mb)) ∧ TreeReady ex w' ∧
      (hd = .dummy ∨ ∃ id f, hd = .file id ∧ w'.files id = some f ∧ TREEPAGESIZE ≤ f.size) := by
  obtain ⟨p, hp⟩ := treeFilename_some hn hg.size a
  have hsz := hg.size
  unfold getFilepos
  rw [if_neg (by omega), if_pos ht]
  unfold openTreefile
  rw [hp]
  dsimp only
  obtain ⟨n, hn0, hnext⟩ := h.healthy.next
  cases hf : w.files (.path p) with
  | some f =>
    dsimp only
    rw [hnext]
    exact ⟨_, _, _, rfl, h.same rfl rfl, .inr ⟨_, f, rfl, hf, h.blocks a p f ha hp hf⟩⟩
  | none =>
    dsimp only
    rw [hnext]
    dsimp only
    obtain ⟨n1, hn1, hnext1⟩ := (h.same (w' := w.fail ENOENT) rfl rfl).healthy.next
    rw [hnext1]
    by_cases hro : (!has ex.flags F_READONLY) = true
    · rw [if_pos hro]
      dsimp only
      obtain ⟨n2, hn2, hnext2⟩ := Healthy.next (w := ((w.fail ENOENT).step).create p (File.clean (fun _ => 0) 0)) h.healthy
      rw [hnext2]
      obtain ⟨m, rfl⟩ : ∃ m, n2 = m + 1 := ⟨n2 - 1, by omega⟩
      dsimp only
      have hs : TREEPAGESIZE ≤ ((File.clean (fun _ => 0) 0).pwrite (TREEPAGESIZE - 1) [0]).size := by decide
      refine ⟨_, _, _, rfl, h.put _ hs ?_ rfl, .inr ⟨_, _, rfl, World.set_files_same _ _ _, hs⟩⟩
      intro j g hj
      by_cases hj' : j = .path p
      · subst hj'
        rw [World.set_files_same] at hj
        cases hj
        exact .inl rfl
      · rw [World.set_files_ne _ _ hj'] at hj
        refine .inr ?_
        simpa [World.create, hj'] using hj
    · rw [if_neg hro]
      exact ⟨_, _, _, rfl, h.same rfl rfl, .inl rfl⟩

theorem rawexpread_ready {ex : Export} (hg : GoodExport ex) (ht : has ex.flags F_TREEFILES = true) (hn : ex.name.length ≤ 4040) {w : World}
    (h : TreeReady ex w) (a len : Nat) (hl : 0 < len) (hr : a + len ≤ ex.exportsize) :
    ∃ w' b bs, rawexpread ex w a len = .val (w', some (b :: bs)) ∧ TreeReady ex w' := by
  obtain ⟨w1, hd, mb, hq, h1, hcase⟩ := getFilepos_ready hg ht hn h a (by omega)
  obtain ⟨n, hn, hnext⟩ := h1.healthy.next
  have hc := clip_pos (mb := mb) hl
  have hmod : a % TREEPAGESIZE < TREEPAGESIZE := Nat.mod_lt _ (by decide)
  unfold rawexpread
  rw [hq]
  dsimp only
  rcases hcase with rfl | ⟨id, f, rfl, hf, hs⟩
  · simp only [handlePread, hnext]
    have hlen : 0 < ((File.clean (fun _ => 0) TREEPAGESIZE).pread (a % TREEPAGESIZE) (clip mb len) (min n MAX_RW_COUNT)).length := by
      simp only [File.pread, Flat.read_length, File.clean, MAX_RW_COUNT]
      omega
    cases hbs : (File.clean (fun _ => 0) TREEPAGESIZE).pread (a % TREEPAGESIZE) (clip mb len) (min n MAX_RW_COUNT) with
    | nil => rw [hbs] at hlen; simp at hlen
    | cons b bs => exact ⟨_, b, bs, rfl, h1.same rfl rfl⟩
  · simp only [handlePread, sysPread, hf, hnext]
    have hlen : 0 < (f.pread (a % TREEPAGESIZE) (clip mb len) (min n MAX_RW_COUNT)).length := by
      simp only [File.pread, Flat.read_length, MAX_RW_COUNT]
      omega
    cases hbs : f.pread (a % TREEPAGESIZE) (clip mb len) (min n MAX_RW_COUNT) with
    | nil => rw [hbs] at hlen; simp at hlen
    | cons b bs => exact ⟨_, b, bs, rfl, h1.same rfl rfl⟩

theorem sysFsync_ready {ex : Export} {w : World} (h : TreeReady ex w) (id : FileId) : TreeReady ex (sysFsync w id).1 := by
  unfold sysFsync
  split
  · exact h.same rfl rfl
  · rename_i g hg
    split
    · exact h.same rfl rfl
    · refine ⟨h.healthy, fun a p f h1 h2 h3 => ?_⟩
      by_cases hid : FileId.path p = id
      · subst hid
        dsimp only at h3
        rw [World.set_files_same] at h3
        cases h3
        exact h.blocks a p g h1 h2 hg
      · dsimp only at h3
        rw [World.set_files_ne _ _ hid] at h3
        exact h.blocks a p f h1 h2 h3

theorem handleSync_ready {ex : Export} {w : World} (h : TreeReady ex w) (hd : Handle) : TreeReady ex (handleSyncIgnored w hd) := by
  unfold handleSyncIgnored
  split
  · exact sysFsync_ready h _
  · exact h.same rfl rfl
  · split
    · exact h.same rfl rfl
    · exact h.same rfl rfl

theorem rawexpwrite_ready {ex : Export} (hg : GoodExport ex) (ht : has ex.flags F_TREEFILES = true) (hn : ex.name.length ≤ 4040) {w : World}
    (h : TreeReady ex w) (a : Nat) (buf : List Byte) (fua : Bool) (hl : 0 < buf.length) (hr : a + buf.length ≤ ex.exportsize) :
    ∃ w' n, rawexpwrite ex w a buf fua = .val (w', some (n + 1)) ∧ TreeReady ex w' ∧ n + 1 ≤ buf.length := by
  obtain ⟨w1, hd, mb, hq, h1, hcase⟩ := getFilepos_ready hg ht hn h a (by omega)
  obtain ⟨n, hn, hnext⟩ := h1.healthy.next
  have hc := clip_pos (mb := mb) hl
  have hc2 := clip_le mb buf.length
  have hlen : (buf.take (clip mb buf.length)).length = clip mb buf.length := by rw [List.length_take]; omega
  unfold rawexpwrite
  rw [hq]
  dsimp only
  generalize buf.take (clip mb buf.length) = bs at *
  obtain ⟨m, hm⟩ : ∃ m, min n bs.length = m + 1 := ⟨min n bs.length - 1, by omega⟩
  rcases hcase with rfl | ⟨id, f, rfl, hf, hs⟩
  · simp only [handlePwrite, hnext, hm]
    refine ⟨_, m, rfl, ?_, by omega⟩
    split
    · exact handleSync_ready (w := w1.step) (h1.same rfl rfl) _
    · exact h1.same rfl rfl
  · simp only [handlePwrite, sysPwrite, hf, hnext, hm]
    have h2 : TreeReady ex (w1.step.set id (f.pwrite (a % TREEPAGESIZE) (bs.take n))) := by
      refine ⟨h1.healthy, fun b p g k1 k2 k3 => ?_⟩
      by_cases hid : FileId.path p = id
      · subst hid
        rw [World.set_files_same] at k3
        cases k3
        simp only [File.pwrite]
        split <;> omega
      · rw [World.set_files_ne _ _ hid] at k3
        exact h1.blocks b p g k1 k2 k3
    refine ⟨_, m, rfl, ?_, by omega⟩
    split
    · exact handleSync_ready h2 _
    · exact h2

theorem rawexpreadFully_ready {ex : Export} (hg : GoodExport ex) (ht : has ex.flags F_TREEFILES = true) (hn : ex.name.length ≤ 4040) (w : World)
    (h : TreeReady ex w) (c : ReadCtx) (hr : c.start + c.curOff + c.curLen ≤ ex.exportsize)
    (hbuf : c.chunked = false → c.curOff + c.curLen ≤ c.buf.length) :
    ∃ w' c', rawexpreadFully ex w c = .val (w', c', true) ∧ TreeReady ex w' := by
  fun_induction rawexpreadFully ex w c with
  | case1 w c h0 => exact ⟨_, _, rfl, h⟩
  | case2 w c h0 hq =>
    obtain ⟨_, _, _, h1, _⟩ := rawexpread_ready hg ht hn h _ _ (by omega) hr
    rw [hq] at h1; cases h1
  | case3 w c h0 hq =>
    obtain ⟨_, _, _, h1, _⟩ := rawexpread_ready hg ht hn h _ _ (by omega) hr
    rw [hq] at h1; cases h1
  | case4 w c h0 w1 hq =>
    obtain ⟨_, _, _, h1, _⟩ := rawexpread_ready hg ht hn h _ _ (by omega) hr
    rw [hq] at h1; cases h1
  | case5 w c h0 w1 hq =>
    obtain ⟨_, _, _, h1, _⟩ := rawexpread_ready hg ht hn h _ _ (by omega) hr
    rw [hq] at h1; cases h1
  | case6 w c h0 w1 b bs hq hd =>
    obtain ⟨_, hsp⟩ := rawexpread_spec ex hg w _ _ hr (by omega)
    obtain ⟨hle, _⟩ := (hsp _ _ hq).2 _ rfl
    obtain ⟨c', hd', _⟩ := deliver_spec c (b :: bs) hle hbuf
    rw [hd] at hd'; cases hd'
  | case7 w c h0 w1 b bs hq hd =>
    obtain ⟨_, hsp⟩ := rawexpread_spec ex hg w _ _ hr (by omega)
    obtain ⟨hle, _⟩ := (hsp _ _ hq).2 _ rfl
    obtain ⟨c', hd', _⟩ := deliver_spec c (b :: bs) hle hbuf
    rw [hd] at hd'; cases hd'
  | case8 w c h0 w1 b bs hq c' hd ih =>
    obtain ⟨_, hsp⟩ := rawexpread_spec ex hg w _ _ hr (by omega)
    obtain ⟨hle, _⟩ := (hsp _ _ hq).2 _ rfl
    obtain ⟨c2, hd', hst, hrl, hstr, hdf, hbf, hch⟩ := deliver_spec c (b :: bs) hle hbuf
    rw [hd] at hd'; cases hd'
    obtain ⟨_, _, _, h1, h2⟩ := rawexpread_ready hg ht hn h _ _ (by omega) hr
    rw [hq] at h1; cases h1
    apply ih
    · exact h2
    · simp only [hst]; omega
    · intro hc
      have hc' : c.chunked = false := by
        rw [← hc]; simp [ReadCtx.chunked, hstr, hdf]
      simp only [(hbf hc').1]
      rw [bufSet_length _ _ _ (by have := hbuf hc'; omega)]
      have := hbuf hc'
      omega

theorem rawexpwriteFully_ready {ex : Export} (hg : GoodExport ex) (ht : has ex.flags F_TREEFILES = true) (hn : ex.name.length ≤ 4040) (w : World)
    (h : TreeReady ex w) (a : Nat) (buf : List Byte) (fua : Bool) (hr : a + buf.length ≤ ex.exportsize) :
    ∃ w', rawexpwriteFully ex w a buf fua = .val (w', true) ∧ TreeReady ex w' := by
  have key : ∀ w a (buf : List Byte), TreeReady ex w → 0 < buf.length →
      a + buf.length ≤ ex.exportsize → ∀ o, rawexpwrite ex w a buf fua = o →
      ∃ w' n, o = .val (w', some (n + 1)) ∧ TreeReady ex w' ∧ n + 1 ≤ buf.length := by
    intro w a buf hh hl hr o ho
    rw [← ho]; exact rawexpwrite_ready hg ht hn hh a buf fua hl hr
  fun_induction rawexpwriteFully ex w a buf fua with
  | case1 w a buf h0 => exact ⟨w, rfl, h⟩
  | case2 w a buf h0 hq =>
    obtain ⟨_, _, h1, _⟩ := key w a buf h (by omega) hr _ hq; cases h1
  | case3 w a buf h0 hq =>
    obtain ⟨_, _, h1, _⟩ := key w a buf h (by omega) hr _ hq; cases h1
  | case4 w a buf h0 w1 hq =>
    obtain ⟨_, _, h1, _⟩ := key w a buf h (by omega) hr _ hq; cases h1
  | case5 w a buf h0 w1 hq =>
    obtain ⟨_, _, h1, _⟩ := key w a buf h (by omega) hr _ hq; cases h1
  | case6 w a buf h0 w1 n hq ih =>
    obtain ⟨w', n', h1, h2, h3⟩ := key w a buf h (by omega) hr _ hq
    cases h1
    exact ih h2 (by rw [List.length_drop]; omega)

theorem expwriteZeroes_ready {cl : Client} (hp : Plain cl) (ht : has cl.ex.flags F_TREEFILES = true) (hn : cl.ex.name.length ≤ 4040) (w : World)
    (h : TreeReady cl.ex w) (a len : Nat) (fua : Bool) (hr : a + len ≤ cl.ex.exportsize) :
    ∃ w', expwriteZeroes cl w a len fua = .val (cl, w', true) ∧ TreeReady cl.ex w' := by
  induction len using Nat.strongRecOn generalizing w with
  | _ len ih =>
  unfold expwriteZeroes
  split
  · exact ⟨w, rfl, h⟩
  · rename_i h0
    have hz : 0 < ZEROCHUNK := by decide
    obtain ⟨w1, h1, h2⟩ := rawexpwriteFully_ready hp.good ht hn w h a
      (Flat.zeros (min len ZEROCHUNK)) fua (by rw [Flat.zeros_length]; omega)
    simp only [expwrite, hp.paged, Bool.false_eq_true, if_false, h1]
    exact ih _ (by omega) w1 h2 (by omega)

theorem trimTree_ready {ex : Export} (hn : ex.name.length ≤ 4040) (hs : ex.exportsize ≤ 2 ^ 63) (n : Nat) :
    ∀ (w : World) (pos : Nat), TreeReady ex w → ∃ w', trimTree ex n w pos = .val w' ∧ TreeReady ex w' := by
  induction n with
  | zero => intro w pos h; exact ⟨w, rfl, h⟩
  | succ n ih =>
    intro w pos h
    obtain ⟨p, hp⟩ := treeFilename_some hn hs pos
    unfold trimTree deleteTreefile
    rw [hp]
    dsimp only
    cases w.next with
    | err en => exact ih _ _ (h.same rfl rfl)
    | done m => exact ih _ _ (h.remove p)

/-- On a tree whose store works every permitted in-range request (and every flush) succeeds, and the store stays as it should be. -/
theorem handleRequest_ready (e : Endian) (cl : Client) (hcl : Treefile cl) (hn : cl.ex.name.length ≤ 4040) (w : World) (r : Req)
    (p : Payload) (hpl : p.fits r) (hnp : ∀ bs, p = .pipe bs → r.len = 0)
    (h : TreeReady cl.ex w) (hf : r.type < 262144)
    (hcode : r.type % 65536 = 3 ∨
      (r.start + r.len ≤ cl.ex.exportsize ∧
        (r.type % 65536 = 0 ∨
         (badWrite cl = false ∧ (r.type % 65536 = 6 ∨ r.type % 65536 = 1 ∨ r.type % 65536 = 4))))) :
    ∃ w' msgs rs, handleRequest e cl w r p = .val (cl, w', msgs) ∧ Encodes msgs rs ∧
      (∀ x ∈ rs, x.error = 0) ∧ TreeReady cl.ex w' := by
  have hp := hcl.plain
  have ht := hcl.tree
  have hsz := hp.good.size
  have hr : r.start + r.len ≤ cl.ex.exportsize → badRange cl r = false := by
    intro h
    unfold badRange
    simp only [gt_iff_lt, Bool.or_eq_false_iff, decide_eq_false_iff_not, Nat.not_lt]
    omega
  have hfl4 : ¬ (r.type - r.type % 65536) / 65536 / 4 ≠ 0 := by omega
  have hpg := hp.paged
  have hncow : has cl.ex.flags F_COPYONWRITE = false := by
    unfold Client.paged at hpg
    rw [Bool.or_eq_false_iff] at hpg
    exact hpg.1
  have hdf : has r.type CMD_FLAG_DF = false := has_df_of_flags (by omega)
  unfold handleRequest
  rw [if_neg hfl4]
  rcases hcode with h3 | ⟨hrange, h0 | ⟨hbw, h6 | h1 | h4⟩⟩
  · rw [if_neg (by rw [h3]; decide), if_neg (by rw [h3]; decide), if_pos (by rw [h3]; decide)]
    have hok : (expflush cl w).2 = true ∧ TreeReady cl.ex (expflush cl w).1 := by
      unfold expflush
      rw [hncow, hcl.wait, ht]
      simp only [Bool.false_eq_true, if_false, if_true]
      split
      · exact ⟨rfl, h⟩
      · refine ⟨rfl, h.healthy, fun a q f k1 k2 k3 => ?_⟩
        simp only [Option.map_eq_some_iff] at k3
        obtain ⟨g, k4, rfl⟩ := k3
        exact h.blocks a q g k1 k2 k4
    simp only [handleFlush]
    refine ⟨(expflush cl w).1, _, [.simple 0 r.cookie []], rfl, ?_, ?_, hok.2⟩
    · rw [resultOf_eq, hok.1]; exact simpleMsg_encodes e r none
    · simp [Spec.Reply.error]
  · rw [if_pos (by rw [h0]; rfl), hr hrange]
    simp only [Bool.false_eq_true, if_false]
    have hread : ∃ w' msgs rs,
        handleNormalRead e cl w r = .val (w', msgs) ∧ Encodes msgs rs ∧ (∀ x ∈ rs, x.error = 0) ∧ TreeReady cl.ex w' := by
      obtain ⟨w', c', hq, hw'⟩ := rawexpreadFully_ready hp.good ht hn w h (initCtx cl r)
        (by simp only [initCtx]; omega)
        (by intro hc; simp [initCtx, ReadCtx.chunked] at hc ⊢; simp [hc])
      have hex : expread cl w (initCtx cl r) = .val (w', c', true) := by
        unfold expread; rw [hpg]; simpa using hq
      have hval : ∃ msgs, handleNormalRead e cl w r = .val (w', msgs) := by
        obtain ⟨hsame, n, hdel, hok⟩ := (rawexpreadFully_spec cl.ex hp.good w (initCtx cl r)
          (by simp only [initCtx]; omega)
          (by intro hc; simp [initCtx, ReadCtx.chunked] at hc ⊢; simp [hc])).2 w' c' true hq
        unfold handleNormalRead
        simp only [hdf, Bool.and_false, Bool.false_and, Bool.false_eq_true, if_false, Bool.false_or]
        have hex' := hex
        unfold initCtx at hex'
        rw [hex']
        simp only [if_true]
        unfold completeRead
        cases hst : cl.structured with
        | true =>
          have : c'.structured = true := by rw [hdel.structured]; exact hst
          have hd : c'.df = false := hdel.df
          simp [this, hd]
        | false =>
          have hs : c'.structured = false := by rw [hdel.structured]; exact hst
          have hbf := hdel.buf (by simp [ReadCtx.chunked, initCtx, hst])
          simp only [initCtx, hst, Nat.add_zero, Bool.not_false, if_true] at hbf
          have hn := hok rfl
          simp only [initCtx] at hn
          subst hn
          rw [bufSet_all _ _ (by simp)] at hbf
          simp [hs, hbf, allInit_map]
      obtain ⟨msgs, hval⟩ := hval
      obtain ⟨c2, ok, hq2, hx⟩ := handleNormalRead_replies e cl w w' r msgs hdf hval
      rw [hex] at hq2
      cases hq2
      rw [if_pos rfl] at hx
      rcases hx with ⟨_, henc⟩ | ⟨_, data, _, _, henc⟩
      · refine ⟨w', msgs, _, hval, henc, ?_, hw'⟩
        intro x hx
        rw [List.mem_append, List.mem_map] at hx
        rcases hx with ⟨y, _, rfl⟩ | hx
        · simp [Spec.dataChunk, Spec.Reply.error]
        · simp only [List.mem_singleton] at hx; subst hx; simp [Spec.doneChunk, Spec.Reply.error]
      · exact ⟨w', msgs, _, hval, henc, by simp [Spec.Reply.error], hw'⟩
    obtain ⟨w', msgs, rs, h1, h2, h3, h4⟩ := hread
    have : handleRead e cl w r = .val (w', msgs) := by
      unfold handleRead
      rw [hcl.splice]
      simpa using h1
    rw [this]
    exact ⟨_, _, rs, rfl, h2, h3, h4⟩
  · rw [if_neg (by rw [h6]; decide), if_neg (by rw [h6]; decide), if_neg (by rw [h6]; decide),
      if_neg (by rw [h6]; decide), if_pos (by rw [h6]; decide), hbw, hr hrange]
    simp only [Bool.false_eq_true, if_false, handleWriteZeroes]
    obtain ⟨w', hq, hw'⟩ := expwriteZeroes_ready hp ht hn w h r.start r.len (has r.type CMD_FLAG_FUA) hrange
    rw [hq]
    refine ⟨_, _, [.simple 0 r.cookie []], rfl, ?_, by simp [Spec.Reply.error], hw'⟩
    exact simpleMsg_encodes e r none
  · rw [if_neg (by rw [h1]; decide), if_pos (by rw [h1]; decide), hbw, hr hrange]
    simp only [Bool.false_eq_true, if_false, handleWrite]
    cases p with
    | nothing => exact absurd h1 hpl
    | data bs =>
      have hl : bs.length = r.len := hpl
      obtain ⟨w', hq, hw'⟩ := rawexpwriteFully_ready hp.good ht hn w h r.start bs
        (has r.type CMD_FLAG_FUA) (by omega)
      simp only [expwrite, hpg, Bool.false_eq_true, if_false, hq]
      refine ⟨_, _, [.simple 0 r.cookie []], rfl, ?_, by simp [Spec.Reply.error], hw'⟩
      exact simpleMsg_encodes e r none
    | pipe bs =>
      have hl := hnp bs rfl
      have hq : expspliceOut cl.ex w r.start r.len bs (has r.type CMD_FLAG_FUA) = .val (w, true) := by
        unfold expspliceOut; rw [if_pos hl]
      simp only [hq]
      refine ⟨_, _, [.simple 0 r.cookie []], rfl, ?_, by simp [Spec.Reply.error], h⟩
      exact simpleMsg_encodes e r none
  · rw [if_neg (by rw [h4]; decide), if_neg (by rw [h4]; decide), if_neg (by rw [h4]; decide), if_pos (by rw [h4]; decide), hbw, hr hrange]
    simp only [Bool.false_eq_true, if_false, handleTrim]
    have hq : ∃ w', exptrim cl w r.start r.len = .val w' ∧ TreeReady cl.ex w' := by
      unfold exptrim
      rw [notReadonly hbw, hncow, ht, Nat.mod_eq_of_lt (by omega), if_neg (by simp), if_neg (by omega)]
      simp only [Bool.false_eq_true, if_false, if_true]
      exact trimTree_ready hn hsz _ _ _ h
    obtain ⟨w', hq, hw'⟩ := hq
    rw [hq]
    refine ⟨_, _, [.simple 0 r.cookie []], rfl, ?_, by simp [Spec.Reply.error], hw'⟩
    exact simpleMsg_encodes e r none

end Nbd
