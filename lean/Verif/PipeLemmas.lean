import Verif.Pipe
import Verif.HealthLemmas
/-!
# Lemmas about the pipes of splice exports
-/
set_option autoImplicit false

namespace Nbd

theorem fitBufs_used (free off n : Nat) (h : n = fitBufs free off) (hf : 0 < free) (hn : 0 < n) : bufsOf off n = free := by
  unfold fitBufs at h
  unfold bufsOf
  rw [if_neg (by omega)]
  have h1 := Nat.mod_add_div off 4096
  have h2 := Nat.mod_lt off (show 4096 > 0 by decide)
  omega

theorem fitBufs_pos (free off : Nat) (hf : 0 < free) : 0 < fitBufs free off := by
  unfold fitBufs
  have h2 := Nat.mod_lt off (show 4096 > 0 by decide)
  omega

theorem pread_short (f : File) (off l m cap : Nat) (hne : (f.pread off (min l m) cap).length ≠ m ∨ l ≤ m) :
    f.pread off (min l m) cap = f.pread off l cap := by
  unfold File.pread at *
  rw [Flat.read_length] at hne
  congr 1
  omega

theorem pread_length_le (f : File) (off l cap : Nat) : (f.pread off l cap).length ≤ l := by
  unfold File.pread
  rw [Flat.read_length]; omega

/-- A pipe with room changes nothing; otherwise it is full after the call. -/
theorem handlePread_room (w : World) (h : Handle) (off l m : Nat) :
    handlePread w h off (min l m) = handlePread w h off l ∨
      ∃ w' bs, handlePread w h off (min l m) = (w', some bs) ∧ bs.length = m ∧ m < l := by
  cases h with
  | bad => exact .inl rfl
  | file id =>
    simp only [handlePread, sysPread]
    cases w.files id with
    | none => exact .inl rfl
    | some f =>
      simp only
      cases w.next with
      | err e => exact .inl rfl
      | done n =>
        simp only
        by_cases hl : l ≤ m
        · left; rw [pread_short _ _ _ _ _ (.inr hl)]
        · by_cases hm : (f.pread off (min l m) (min n MAX_RW_COUNT)).length = m
          · exact .inr ⟨_, _, rfl, hm, by omega⟩
          · left; rw [pread_short _ _ _ _ _ (.inl hm)]
  | dummy =>
    simp only [handlePread]
    cases w.next with
    | err e => exact .inl rfl
    | done n =>
      simp only
      by_cases hl : l ≤ m
      · left; rw [pread_short _ _ _ _ _ (.inr hl)]
      · by_cases hm : ((File.clean (fun _ => 0) TREEPAGESIZE).pread off (min l m) (min n MAX_RW_COUNT)).length = m
        · exact .inr ⟨_, _, rfl, hm, by omega⟩
        · left; rw [pread_short _ _ _ _ _ (.inl hm)]

/-- A full pipe: the thread is stuck, or the position is outside the export or has no file. -/
theorem expspliceInP_full (ex : Export) (w : World) (a len : Nat) (pipe : List Byte) (hl : len ≠ 0) :
    expspliceInP ex w a len pipe 0 = .stuck ∨
      expspliceInP ex w a len pipe 0 = .of (expspliceIn ex w a len pipe) := by
  rw [expspliceInP, expspliceIn, if_neg hl, if_neg hl, rawexpspliceP, rawexpread]
  cases hg : getFilepos ex w a with
  | ub => exact .inr rfl
  | exit => exact .inr rfl
  | val x =>
    obtain ⟨w1, x⟩ := x
    cases x with
    | none => exact .inr rfl
    | some y =>
      obtain ⟨h, foff, mb⟩ := y
      simp only
      by_cases hb : h = .bad
      · subst hb
        right
        rw [if_neg (by simp)]
        rfl
      · left
        rw [if_pos ⟨trivial, hb⟩]

theorem handlePread_le (w w' : World) (h : Handle) (off l : Nat) (bs : List Byte)
    (hp : handlePread w h off l = (w', some bs)) : bs.length ≤ l := by
  cases h with
  | bad => simp [handlePread] at hp
  | file id =>
    simp only [handlePread, sysPread] at hp
    cases hf : w.files id with
    | none => rw [hf] at hp; simp at hp
    | some f =>
      rw [hf] at hp
      simp only at hp
      cases hn : w.next with
      | err e => rw [hn] at hp; simp at hp
      | done n =>
        rw [hn] at hp
        simp only [Prod.mk.injEq, Option.some.injEq] at hp
        rw [← hp.2]; exact pread_length_le _ _ _ _
  | dummy =>
    simp only [handlePread] at hp
    cases hn : w.next with
    | err e => rw [hn] at hp; simp at hp
    | done n =>
      rw [hn] at hp
      simp only [Prod.mk.injEq, Option.some.injEq] at hp
      rw [← hp.2]; exact pread_length_le _ _ _ _

/-- A full pipe and a position in the export (no tree): the thread is stuck. -/
theorem expspliceInP_files_full (ex : Export) (hg : GoodExport ex) (ht : has ex.flags F_TREEFILES = false) (w : World)
    (a len : Nat) (pipe : List Byte) (hl : len ≠ 0) (ha : a < ex.exportsize) :
    expspliceInP ex w a len pipe 0 = .stuck := by
  have hsz := hg.size
  obtain ⟨fi, nx, -, hq⟩ := getFilepos_files ex w a (by omega) ht (hg.files ht)
  rw [expspliceInP, if_neg hl, rawexpspliceP, hq]
  simp

/-- A block of a tree export fits in one buffer. -/
theorem getFilepos_tree_fits (ex : Export) (ht : has ex.flags F_TREEFILES = true) (w w1 : World) (a len : Nat) (h : Handle)
    (foff mb free : Nat) (hf : free ≠ 0) (hq : getFilepos ex w a = .val (w1, some (h, foff, mb))) :
    clip mb len ≤ fitBufs free foff := by
  unfold getFilepos at hq
  split at hq
  · cases hq
  · split at hq
    · cases hq
      unfold clip fitBufs
      rw [show TREEPAGESIZE = 4096 from rfl]
      have h1 := Nat.mod_add_div a 4096
      have h2 := Nat.mod_lt a (show 4096 > 0 by decide)
      split <;> omega
    · cases hq
    · cases hq

theorem expspliceInP_same (ex : Export) (hg : GoodExport ex) (w : World) (a len : Nat) (pipe : List Byte) (free : Nat)
    (hr : a + len ≤ ex.exportsize) :
    expspliceInP ex w a len pipe free ≠ .stuck →
    expspliceInP ex w a len pipe free = .of (expspliceIn ex w a len pipe) := by
  induction len using Nat.strongRecOn generalizing w a pipe free with
  | _ len ih =>
  intro hns
  by_cases hl : len = 0
  · rw [expspliceInP, expspliceIn, if_pos hl, if_pos hl]; rfl
  by_cases hf : free = 0
  · subst hf
    rcases expspliceInP_full ex w a len pipe hl with h | h
    · exact absurd h hns
    · exact h
  rw [expspliceInP, if_neg hl, rawexpspliceP] at hns ⊢
  rw [expspliceIn, if_neg hl, rawexpread]
  cases hg' : getFilepos ex w a with
  | ub => rfl
  | exit => rfl
  | val x =>
    obtain ⟨w1, x⟩ := x
    cases x with
    | none => rfl
    | some y =>
      obtain ⟨h, foff, mb⟩ := y
      rw [hg'] at hns
      simp only at hns ⊢
      rw [if_neg (fun hx => hf hx.1)] at hns ⊢
      have hc : clip mb len ≤ len := by unfold clip; split <;> omega
      rcases handlePread_room w1 h foff (clip mb len) (fitBufs free foff) with hq | ⟨w2, bs, hq, hbs, hlt⟩
      · rw [hq] at hns ⊢
        rcases hp : handlePread w1 h foff (clip mb len) with ⟨w2, _ | bs⟩
        · rfl
        · rw [hp] at hns
          cases bs with
          | nil => rfl
          | cons b bs =>
            have hle : (b :: bs).length ≤ clip mb len := handlePread_le _ _ _ _ _ _ hp
            simp only at hns ⊢
            exact ih _ (by simp only [List.length_cons]; omega) _ _ _ _ (by omega) hns
      · have ht : has ex.flags F_TREEFILES = false := by
          cases ht : has ex.flags F_TREEFILES with
          | false => rfl
          | true => have := getFilepos_tree_fits ex ht w w1 a len h foff mb free hf hg'; omega
        rw [hq] at hns ⊢
        have hpos := fitBufs_pos free foff (by omega)
        cases bs with
        | nil => simp at hbs; omega
        | cons b bs =>
          simp only at hns ⊢
          have hu := fitBufs_used free foff _ hbs (by omega) (by simp)
          rw [hu, Nat.sub_self] at hns
          exact absurd (expspliceInP_files_full ex hg ht w2 (a + (b :: bs).length) (len - (b :: bs).length)
            (pipe ++ b :: bs) (by omega) (by omega)) hns

/-! ### When a read gets stuck -/

/-- A kernel that never fails and moves everything it is asked to move, up to 1 MiB. -/
def Willing (w : World) : Prop := ∀ t, ∃ n, MAX_PIPE_SIZE ≤ n ∧ w.orc t = .done n

/-- Every file starts at a multiple of the page size. -/
def Aligned (ex : Export) : Prop := ∀ f ∈ ex.files, f.startoff % 4096 = 0

/-- One call of `splice` moves what there is, as far as it fits. -/
theorem rawexpspliceP_moves (ex : Export) (hg : GoodExport ex) (ht : has ex.flags F_TREEFILES = false) (hal : Aligned ex)
    (w : World) (hw : Willing w) (hb : Backed ex w) (a len free : Nat) (hl : len ≠ 0) (hm : len ≤ MAX_PIPE_SIZE)
    (hr : a + len ≤ ex.exportsize) (hf : free ≠ 0) :
    ∃ foff mb bs, foff % 4096 = a % 4096 ∧ bs.length = min (clip mb len) (fitBufs free foff) ∧
      (mb = 0 ∨ (a + mb) % 4096 = 0) ∧
      rawexpspliceP ex w a len free = .val (w.step, some bs, bufsOf foff bs.length) := by
  have hsz := hg.size
  obtain ⟨fi, nx, hloc, hq⟩ := getFilepos_files ex w a (by omega) ht (hg.files ht)
  obtain ⟨i, hi, hle, hnx, hlt⟩ := locate_index _ _ _ _ hloc
  obtain ⟨n, hn, horc⟩ := hw w.tick
  have hfi : fi.startoff % 4096 = 0 := hal fi (List.mem_of_getElem? hi)
  obtain ⟨mb, hmb0, hmb, hq⟩ : ∃ mb, (nx = none → mb = 0) ∧ (∀ n, nx = some n → mb = n - a) ∧
      getFilepos ex w a = .val (w, some (.file (.fd fi.fhandle), a - fi.startoff, mb)) := by
    cases nx with
    | none => exact ⟨0, fun _ => rfl, by simp, hq⟩
    | some n => exact ⟨n - a, by simp, by simp, hq⟩
  have hmb2 : mb = 0 ∨ (a + mb) % 4096 = 0 := by
    cases hx : nx with
    | none => left; exact hmb0 hx
    | some n =>
      right
      have h1 := hlt n hx
      rw [hmb n hx]
      rw [hx] at hnx
      obtain ⟨g, hg2, hg3⟩ := Option.map_eq_some_iff.mp hnx.symm
      have := hal g (List.mem_of_getElem? hg2)
      omega
  have hcpos : 0 < clip mb len := by unfold clip; split <;> omega
  have hcle : clip mb len ≤ len := by unfold clip; split <;> omega
  -- the last byte of the piece is in the same file
  have hlast : locate ex.files (a + (clip mb len - 1)) = some (fi, nx) := by
    rw [hnx]
    refine locate_of_index _ _ (hg.files ht).sorted i fi hi (by omega) ?_
    intro g hg2
    have hx : nx = some g.startoff := by rw [hnx, hg2]; rfl
    have h1 := hlt _ hx
    have hmb := hmb _ hx
    have : clip mb len ≤ mb := by unfold clip; split <;> omega
    omega
  obtain ⟨id, o, f, h1, h2, h3⟩ := hb (a + (clip mb len - 1)) (by omega)
  simp only [home, ht, hlast, Bool.false_eq_true, if_false, Option.map_some, Option.some.injEq, Prod.mk.injEq] at h1
  obtain ⟨rfl, rfl⟩ := h1
  refine ⟨a - fi.startoff, mb, f.pread (a - fi.startoff) (min (clip mb len) (fitBufs free (a - fi.startoff)))
    (min n MAX_RW_COUNT), by omega, ?_, hmb2, ?_⟩
  · have hmp : MAX_PIPE_SIZE = 1048576 := rfl
    rw [hmp] at hn hm
    unfold File.pread MAX_RW_COUNT
    rw [Flat.read_length]
    omega
  · have hnext : w.next = .done n := horc
    rw [rawexpspliceP, hq]
    simp only [handlePread, sysPread, h2, hnext]
    rw [if_neg (fun hx => hf hx.1)]

theorem bufsOf_split (a n m : Nat) (h : (a + n) % 4096 = 0) (hn : 0 < n) (hm : 0 < m) :
    bufsOf a (n + m) = bufsOf a n + bufsOf (a + n) m := by
  unfold bufsOf
  rw [if_neg (by omega), if_neg (by omega), if_neg (by omega)]
  omega

theorem bufsOf_congr (a b n : Nat) (h : a % 4096 = b % 4096) : bufsOf a n = bufsOf b n := by
  unfold bufsOf
  split
  · rfl
  · omega

theorem bufsOf_gt (free a len : Nat) (h : fitBufs free a < len) : free < bufsOf a len := by
  unfold fitBufs at h
  unfold bufsOf
  rw [if_neg (by omega)]
  omega

theorem bufsOf_le (free a len : Nat) (h : len ≤ fitBufs free a) : bufsOf a len ≤ free := by
  unfold fitBufs at h
  unfold bufsOf
  split <;> omega

theorem bufsOf_pos (a len : Nat) (h : 0 < len) : 0 < bufsOf a len := by
  unfold bufsOf
  rw [if_neg (by omega)]
  omega

theorem fitBufs_congr (free a b : Nat) (h : a % 4096 = b % 4096) : fitBufs free a = fitBufs free b := by
  unfold fitBufs; rw [h]

theorem expspliceInP_stuck (ex : Export) (hg : GoodExport ex) (ht : has ex.flags F_TREEFILES = false) (hal : Aligned ex)
    (w : World) (hw : Willing w) (hb : Backed ex w) (a len : Nat) (pipe : List Byte) (free : Nat)
    (hm : len ≤ MAX_PIPE_SIZE) (hr : a + len ≤ ex.exportsize) :
    expspliceInP ex w a len pipe free = .stuck ↔ free < bufsOf a len := by
  induction len using Nat.strongRecOn generalizing w a pipe free with
  | _ len ih =>
  by_cases hl : len = 0
  · rw [expspliceInP, if_pos hl, hl]
    simp [bufsOf]
  by_cases hf : free = 0
  · subst hf
    rw [expspliceInP_files_full ex hg ht w a len pipe hl (by omega)]
    simp only [true_iff]
    exact bufsOf_pos a len (by omega)
  obtain ⟨foff, mb, bs, h1, h2, h3, h4⟩ := rawexpspliceP_moves ex hg ht hal w hw hb a len free hl hm hr hf
  have hpos := fitBufs_pos free foff (by omega)
  have hcpos : 0 < clip mb len := by unfold clip; split <;> omega
  have hcle : clip mb len ≤ len := by unfold clip; split <;> omega
  rw [expspliceInP, if_neg hl, h4]
  cases bs with
  | nil => simp at h2; omega
  | cons b bs =>
    simp only
    rw [ih _ (by simp only [List.length_cons]; omega) w.step hw hb _ _ _ (by omega) (by omega)]
    generalize (b :: bs).length = k at *
    rw [bufsOf_congr foff a k h1]
    rw [fitBufs_congr free foff a h1] at h2 hpos
    by_cases hfit : k = fitBufs free a
    · rw [fitBufs_used free a k hfit (by omega) (by omega), Nat.sub_self]
      by_cases hrest : len - k = 0
      · have : len = k := by omega
        subst this
        rw [fitBufs_used free a _ hfit (by omega) (by omega), Nat.sub_self]
        simp [bufsOf]
      · have h5 := bufsOf_pos (a + k) (len - k) (by omega)
        have h6 := bufsOf_gt free a len (by omega)
        omega
    · have hk : k = clip mb len := by omega
      have hle := bufsOf_le free a k (by omega)
      by_cases hrest : len - k = 0
      · have : len = k := by omega
        subst this
        rw [Nat.sub_self]
        simp only [bufsOf, if_true, Nat.not_lt_zero, false_iff, Nat.not_lt]
        exact hle
      · have hmbk : k = mb ∧ mb ≠ 0 := by
          unfold clip at hk; split at hk <;> omega
        have hsplit := bufsOf_split a k (len - k) (by omega) (by omega) (by omega)
        rw [show k + (len - k) = len by omega] at hsplit
        omega

/-- All the buffers of the payload, or the thread is stuck. -/
theorem spliceNet_eq (arrived : Nat → Nat) (i : Nat) (bufs pipe : List (List Byte)) (free : Nat) :
    spliceNet arrived i bufs pipe free = if bufs.length ≤ free then some (pipe ++ bufs) else none := by
  fun_induction spliceNet arrived i bufs pipe free with
  | case1 i pipe free => simp
  | case2 i pipe b bs => simp
  | case3 i pipe free b bs hf ih =>
    rw [ih]
    obtain ⟨k, hk⟩ : ∃ k, k = min (arrived i) (free - 1) := ⟨_, rfl⟩
    rw [← hk]
    simp only [List.length_drop, List.length_cons, List.length_take, List.append_assoc, List.cons_append,
      List.take_append_drop]
    by_cases h : bs.length + 1 ≤ free
    · rw [if_pos h, if_pos (by omega)]
    · rw [if_neg h, if_neg (by omega)]

end Nbd
