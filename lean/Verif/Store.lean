import Verif.Bytes
/-!
# Flat byte arrays: the specification of a block device

A block device is a function from offsets to bytes.  `read` and `write` are the
only two operations the specification of the block device semantics needs.
-/

namespace Nbd

/-- Specification of the contents of a block device. (Models no code.) -/
abbrev Flat := Nat → Byte

namespace Flat

/-- The `n` bytes starting at offset `a`. (Specification; models no code.) -/
def read (f : Flat) (a n : Nat) : List Byte := (List.range n).map fun i => f (a + i)

/-- Overwrite the bytes starting at offset `a` by `bs`, leaving all others alone. (Specification; models no code.) -/
def write (f : Flat) (a : Nat) (bs : List Byte) : Flat :=
  fun i => if a ≤ i then (bs[i - a]?).getD (f i) else f i

/-- `n` zero bytes. (Specification; models no code.) -/
def zeros (n : Nat) : List Byte := List.replicate n 0

@[simp] theorem read_length (f : Flat) (a n : Nat) : (read f a n).length = n := by
  simp [read]

@[simp] theorem zeros_length (n : Nat) : (zeros n).length = n := by simp [zeros]

@[simp] theorem read_zero (f : Flat) (a : Nat) : read f a 0 = [] := rfl

@[simp] theorem write_nil (f : Flat) (a : Nat) : write f a [] = f := by
  funext i; simp [write]

theorem read_getElem? (f : Flat) (a n i : Nat) :
    (read f a n)[i]? = if i < n then some (f (a + i)) else none := by
  simp [read, List.getElem?_map]
  split <;> simp_all

theorem read_add (f : Flat) (a m n : Nat) :
    read f a (m + n) = read f a m ++ read f (a + m) n := by
  simp [read, List.range_add, Function.comp_def, Nat.add_assoc]

theorem read_take (f : Flat) (a n k : Nat) : (read f a n).take k = read f a (min k n) := by
  apply List.ext_getElem?
  intro i
  rw [List.getElem?_take, read_getElem?, read_getElem?]
  by_cases h1 : i < k <;> by_cases h2 : i < n <;> simp [h1, h2, Nat.lt_min]

theorem read_drop (f : Flat) (a n k : Nat) : (read f a n).drop k = read f (a + k) (n - k) := by
  apply List.ext_getElem?
  intro i
  rw [List.getElem?_drop, read_getElem?, read_getElem?]
  by_cases h : k + i < n
  · rw [if_pos h, if_pos (by omega), Nat.add_assoc]
  · rw [if_neg h, if_neg (by omega)]

theorem read_congr {f g : Flat} {a n : Nat} (h : ∀ i, a ≤ i → i < a + n → f i = g i) :
    read f a n = read g a n := by
  apply List.ext_getElem?
  intro i
  rw [read_getElem?, read_getElem?]
  split
  · rw [h (a + i) (by omega) (by omega)]
  · rfl

theorem write_apply (f : Flat) (a : Nat) (bs : List Byte) (i : Nat) :
    write f a bs i = if h : a ≤ i ∧ i - a < bs.length then bs[i - a]'h.2 else f i := by
  unfold write
  by_cases h1 : a ≤ i
  · by_cases h2 : i - a < bs.length
    · simp [h1, h2]
    · simp [h1, h2]
  · simp [h1]

/-- Bytes outside the written range keep their value. -/
theorem write_outside (f : Flat) (a : Nat) (bs : List Byte) (i : Nat)
    (h : i < a ∨ a + bs.length ≤ i) : write f a bs i = f i := by
  rw [write_apply, dif_neg]
  omega

theorem write_inside (f : Flat) (a : Nat) (bs : List Byte) (i : Nat) (h : i < bs.length) :
    write f a bs (a + i) = bs[i] := by
  have h' : a ≤ a + i ∧ a + i - a < bs.length := by omega
  rw [write_apply, dif_pos h']
  congr 1
  omega

theorem write_append (f : Flat) (a : Nat) (xs ys : List Byte) :
    write f a (xs ++ ys) = write (write f a xs) (a + xs.length) ys := by
  funext i
  by_cases h0 : i < a
  · rw [write_outside _ _ _ _ (Or.inl h0), write_outside _ _ _ _ (Or.inl (by omega)),
      write_outside _ _ _ _ (Or.inl h0)]
  · obtain ⟨j, rfl⟩ : ∃ j, i = a + j := ⟨i - a, by omega⟩
    by_cases h1 : j < xs.length
    · rw [write_outside (write f a xs) _ _ _ (Or.inl (by omega)), write_inside _ _ _ _ h1,
        write_inside _ _ _ _ (by simp; omega), List.getElem_append_left h1]
    · obtain ⟨k, rfl⟩ : ∃ k, j = xs.length + k := ⟨j - xs.length, by omega⟩
      by_cases h2 : k < ys.length
      · rw [← Nat.add_assoc, write_inside _ _ _ _ h2, Nat.add_assoc,
          write_inside _ _ _ _ (by simp; omega), List.getElem_append_right (by omega)]
        congr 1
        omega
      · rw [write_outside _ _ _ _ (Or.inr (by simp; omega)),
          write_outside _ _ _ _ (Or.inr (by omega)), write_outside _ _ _ _ (Or.inr (by omega))]

/-- Reading back what was just written. -/
theorem read_write_same (f : Flat) (a : Nat) (bs : List Byte) :
    read (write f a bs) a bs.length = bs := by
  apply List.ext_getElem?
  intro i
  rw [read_getElem?]
  by_cases h : i < bs.length
  · rw [if_pos h, write_inside _ _ _ _ h, List.getElem?_eq_getElem h]
  · rw [if_neg h, List.getElem?_eq_none (by omega)]

/-- Reading elsewhere is not affected by a write. -/
theorem read_write_disjoint (f : Flat) (a b n : Nat) (bs : List Byte)
    (h : b + n ≤ a ∨ a + bs.length ≤ b) : read (write f a bs) b n = read f b n := by
  apply read_congr
  intro i h1 h2
  apply write_outside
  omega

/-- Rewriting the bytes that are already there changes nothing. -/
theorem write_read_self (f : Flat) (a n : Nat) : write f a (read f a n) = f := by
  funext i
  by_cases h : a ≤ i ∧ i - a < n
  · obtain ⟨j, rfl⟩ : ∃ j, i = a + j := ⟨i - a, by omega⟩
    rw [write_inside _ _ _ _ (by simp; omega)]
    simp [read]
  · rw [write_outside _ _ _ _ (by simp; omega)]

end Flat
end Nbd
