import Verif.Tree
/-! # Lemmas about tree paths -/

namespace Nbd

theorem hexDigit_inj : ∀ a < 16, ∀ b < 16, hexDigit a = hexDigit b → a = b := by decide +kernel

theorem hexDigit_mod (v : Nat) : hexDigit v = hexDigit (v % 16) := by
  simp [hexDigit]

theorem hexDigit_eq (a b : Nat) (h : hexDigit a = hexDigit b) : a % 16 = b % 16 := by
  rw [hexDigit_mod a, hexDigit_mod b] at h
  exact hexDigit_inj _ (Nat.mod_lt _ (by omega)) _ (Nat.mod_lt _ (by omega)) h

theorem hex4_inj (a b : Nat) (ha : a < 65536) (hb : b < 65536) (h : hex4 a = hex4 b) : a = b := by
  simp only [hex4, List.cons.injEq, and_true] at h
  obtain ⟨h1, h2, h3, h4⟩ := h
  have := hexDigit_eq _ _ h1
  have := hexDigit_eq _ _ h2
  have := hexDigit_eq _ _ h3
  have := hexDigit_eq _ _ h4
  omega

@[simp] theorem hex4_length (v : Nat) : (hex4 v).length = 4 := rfl

/-- Number of directory levels above the block file. -/
def treeLevels (size : Nat) : Nat :=
  if size < TREEDIRSIZE * TREEPAGESIZE then 0 else treeLevels (size / TREEDIRSIZE) + 1
termination_by size
decreasing_by
  simp only [TREEDIRSIZE, TREEPAGESIZE] at *
  omega

theorem treeLevels_small {size : Nat} (h : size < TREEDIRSIZE * TREEPAGESIZE) :
    treeLevels size = 0 := by
  unfold treeLevels; rw [if_pos h]

theorem treeLevels_big {size : Nat} (h : ¬ size < TREEDIRSIZE * TREEPAGESIZE) :
    treeLevels size = treeLevels (size / TREEDIRSIZE) + 1 := by
  conv => lhs; unfold treeLevels
  rw [if_neg h]

theorem size_lt_treeLevels (size : Nat) : size < 4096 * 1024 * 1024 ^ treeLevels size := by
  fun_induction treeLevels size with
  | case1 s h =>
    simp only [TREEDIRSIZE, TREEPAGESIZE] at h
    omega
  | case2 s h ih =>
    simp only [TREEDIRSIZE] at ih ⊢
    rw [Nat.pow_succ, ← Nat.mul_assoc]
    omega

/-- `construct_path` succeeds exactly when the buffer has room; the path it builds has
9 characters per level plus 9, and with its NUL fits in the room given. -/
theorem constructPath_fits (lenmax : Int) (size pos : Nat) (p : List Char) (pp : Nat)
    (h : constructPath lenmax size pos = some (p, pp)) :
    (p.length : Int) + 1 ≤ lenmax ∧ p.length = 9 * (treeLevels size + 1) := by
  fun_induction constructPath lenmax size pos generalizing p pp with
  | case1 => cases h
  | case2 lm s hl hs =>
    simp only [Option.some.injEq, Prod.mk.injEq] at h
    obtain ⟨rfl, _⟩ := h
    simp [treeLevels_small hs]
    omega
  | case3 => cases h
  | case4 lm s hl hs rest pp0 heq ih =>
    simp only [Option.some.injEq, Prod.mk.injEq] at h
    obtain ⟨rfl, _⟩ := h
    have := ih rest pp0 heq
    rw [treeLevels_big hs]
    simp at this ⊢
    omega

theorem constructPath_ppos (lenmax : Int) (size pos : Nat) (p : List Char) (pp : Nat)
    (h : constructPath lenmax size pos = some (p, pp)) :
    pp = pos / (4096 * 1024 * 1024 ^ treeLevels size) := by
  fun_induction constructPath lenmax size pos generalizing p pp with
  | case1 => cases h
  | case2 lm s hl hs =>
    simp only [Option.some.injEq, Prod.mk.injEq] at h
    obtain ⟨_, rfl⟩ := h
    simp [treeLevels_small hs, TREEPAGESIZE, TREEDIRSIZE]
  | case3 => cases h
  | case4 lm s hl hs rest pp0 heq ih =>
    simp only [Option.some.injEq, Prod.mk.injEq] at h
    obtain ⟨_, rfl⟩ := h
    rw [ih rest pp0 heq]
    rw [treeLevels_big hs]
    have hd : pos / (4096 * 1024 * 1024 ^ treeLevels (s / TREEDIRSIZE)) / TREEDIRSIZE
      = pos / (4096 * 1024 * 1024 ^ treeLevels (s / TREEDIRSIZE)) / 1024 := rfl
    rw [hd]
    rw [Nat.div_div_eq_div_mul, Nat.pow_succ, Nat.mul_assoc _ _ 1024]

/-- Equal paths come from equal block numbers modulo the capacity of the tree. -/
theorem constructPath_inj (lenmax : Int) (size pos pos' : Nat) (p : List Char) (pp pp' : Nat)
    (h : constructPath lenmax size pos = some (p, pp))
    (h' : constructPath lenmax size pos' = some (p, pp')) :
    pos / 4096 % (1024 * 1024 ^ treeLevels size) =
      pos' / 4096 % (1024 * 1024 ^ treeLevels size) := by
  fun_induction constructPath lenmax size pos generalizing p pp pp' with
  | case1 => cases h
  | case2 lm s hl hs =>
    unfold constructPath at h'
    simp only [hl, hs, if_true, if_false, Option.some.injEq, Prod.mk.injEq] at h h'
    obtain ⟨rfl, _⟩ := h
    obtain ⟨h1, _⟩ := h'
    have h2 := List.append_cancel_left h1
    have := hex4_inj _ _ (by simp only [TREEDIRSIZE]; omega) (by simp only [TREEDIRSIZE]; omega) h2
    simp only [treeLevels_small hs, Nat.pow_zero, Nat.mul_one]
    simp only [TREEDIRSIZE, TREEPAGESIZE] at this
    omega
  | case3 => cases h
  | case4 lm s hl hs rest pp0 heq ih =>
    simp only [Option.some.injEq, Prod.mk.injEq] at h
    obtain ⟨rfl, _⟩ := h
    unfold constructPath at h'
    simp only [hl, hs, if_false] at h'
    split at h'
    · cases h'
    · rename_i rest' pp0' heq'
      simp only [Option.some.injEq, Prod.mk.injEq] at h'
      obtain ⟨h1, _⟩ := h'
      have h2 : hex4 (pp0' % TREEDIRSIZE) ++ rest' = hex4 (pp0 % TREEDIRSIZE) ++ rest := by
        simpa [List.append_assoc] using h1
      obtain ⟨h3, h4⟩ := List.append_inj h2 (by simp)
      subst h4
      have e1 := ih rest' pp0 pp0' heq heq'
      have e2 := hex4_inj _ _ (by simp only [TREEDIRSIZE]; omega)
        (by simp only [TREEDIRSIZE]; omega) h3
      rw [constructPath_ppos _ _ _ _ _ heq, constructPath_ppos _ _ _ _ _ heq'] at e2
      rw [treeLevels_big hs]
      have hd : s / TREEDIRSIZE = s / 1024 := rfl
      rw [hd] at e1 e2 ⊢
      simp only [TREEDIRSIZE] at e2
      rw [Nat.mul_assoc 4096] at e2
      rw [Nat.pow_succ, ← Nat.mul_assoc]
      generalize 1024 * 1024 ^ treeLevels (s / 1024) = M at *
      rw [← Nat.div_div_eq_div_mul, ← Nat.div_div_eq_div_mul] at e2
      rw [Nat.mod_mul, Nat.mod_mul, e1]
      congr 1
      congr 1
      exact e2.symm

theorem constructPath_congr (lenmax : Int) (size pos pos' : Nat) (h : pos / 4096 = pos' / 4096) :
    constructPath lenmax size pos = constructPath lenmax size pos' := by
  fun_induction constructPath lenmax size pos with
  | case1 lm s hl => unfold constructPath; simp [hl]
  | case2 lm s hl hs =>
    conv => rhs; unfold constructPath
    simp only [hl, hs, if_true, if_false]
    have e1 : pos / TREEPAGESIZE = pos' / TREEPAGESIZE := h
    rw [e1, ← Nat.div_div_eq_div_mul, ← Nat.div_div_eq_div_mul, e1]
  | case3 lm s hl hs heq ih =>
    conv => rhs; unfold constructPath
    rw [heq] at ih
    simp [hl, hs, ← ih]
  | case4 lm s hl hs rest pp0 heq ih =>
    conv => rhs; unfold constructPath
    rw [heq] at ih
    simp [hl, hs, ← ih]

theorem constructPath_isSome (lenmax : Int) (size pos : Nat) :
    (constructPath lenmax size pos).isSome ↔ 9 * ((treeLevels size : Int) + 1) + 1 ≤ lenmax := by
  fun_induction constructPath lenmax size pos with
  | case1 lm s hl => simp; omega
  | case2 lm s hl hs => simp [treeLevels_small hs]; omega
  | case3 lm s hl hs heq ih =>
    rw [heq] at ih
    rw [treeLevels_big hs]
    simp at ih ⊢
    omega
  | case4 lm s hl hs rest pp0 heq ih =>
    rw [heq] at ih
    rw [treeLevels_big hs]
    simp at ih ⊢
    omega

/-- Two in-range offsets have the same file name exactly when they are in the same block. -/
theorem treeFilename_eq_iff (name : List Char) (size pos pos' : Nat)
    (hp : pos < size) (hp' : pos' < size) (f : List Char)
    (hf : treeFilename name size pos = some f) :
    treeFilename name size pos' = some f ↔ pos / 4096 = pos' / 4096 := by
  constructor
  · intro hf'
    unfold treeFilename at hf hf'
    split at hf
    · cases hf
    · rename_i p pp h1
      split at hf'
      · cases hf'
      · rename_i p' pp' h2
        simp only [Option.some.injEq] at hf hf'
        have : p = p' := List.append_cancel_left (hf.trans hf'.symm)
        subst this
        have := constructPath_inj _ _ _ _ _ _ _ h1 h2
        have hs := size_lt_treeLevels size
        have b1 : pos / 4096 < 1024 * 1024 ^ treeLevels size := by
          rw [Nat.div_lt_iff_lt_mul (by omega), Nat.mul_comm, ← Nat.mul_assoc]; omega
        have b2 : pos' / 4096 < 1024 * 1024 ^ treeLevels size := by
          rw [Nat.div_lt_iff_lt_mul (by omega), Nat.mul_comm, ← Nat.mul_assoc]; omega
        rwa [Nat.mod_eq_of_lt b1, Nat.mod_eq_of_lt b2] at this
  · intro h
    unfold treeFilename at hf ⊢
    rw [← constructPath_congr _ _ _ _ h]
    exact hf

end Nbd
