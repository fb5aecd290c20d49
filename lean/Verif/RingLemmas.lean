import Verif.Ring
/-!
# The ring buffer is a queue
-/

set_option autoImplicit false

namespace Nbd

/-- The bytes in the buffer, oldest first. -/
def Ring.queue (b : Ring) : List Byte :=
  if b.empty then []
  else if b.ridx < b.widx then b.buf.read b.ridx (b.widx - b.ridx)
  else b.buf.read b.ridx (b.size - b.ridx) ++ b.buf.read 0 b.widx

/-- Reachable buffers. -/
structure Ring.Ok (b : Ring) : Prop where
  pos : 0 < b.size
  ridx : b.ridx < b.size
  widx : b.widx < b.size
  empty : b.empty = true → b.ridx = b.widx

theorem Ring.new_ok (size hwm : Nat) (h : 0 < size) : (Ring.new size hwm).Ok :=
  ⟨h, h, h, fun _ => rfl⟩

theorem Ring.queue_length (b : Ring) (h : b.Ok) : b.queue.length = b.count := by
  have := h.ridx
  unfold queue count
  split
  · rfl
  · split
    · simp
    · simp; omega

theorem Ring.count_le (b : Ring) (h : b.Ok) : b.count ≤ b.size := by
  have := h.ridx; have := h.widx
  unfold count
  split
  · omega
  · split <;> omega

theorem Ring.readSpan_le (b : Ring) (h : b.Ok) : b.readSpan.2 ≤ b.count ∧
    b.readSpan.1 + b.readSpan.2 ≤ b.size ∧ (b.readSpan.2 = 0 → b.queue = []) := by
  have h1 := h.ridx; have h2 := h.widx
  unfold readSpan count queue readLen
  split
  · simp
  · refine ⟨?_, ?_, ?_⟩
    · simp only []; split <;> omega
    · simp only []; split <;> omega
    · simp only []; intro h3; exfalso; split at h3 <;> omega

/-- The span offered for reading is the front of the queue. -/
theorem Ring.readSpan_data (b : Ring) (n : Nat) (hn : n ≤ b.readSpan.2) :
    b.buf.read b.readSpan.1 n = b.queue.take n := by
  unfold readSpan at hn ⊢
  split at hn
  · rename_i he
    have : n = 0 := by simpa using hn
    subst this
    simp [he]
  · rename_i he
    simp only [he] at hn ⊢
    unfold queue readLen at *
    simp only [he]
    simp only [Bool.false_eq_true, if_false] at hn ⊢
    split at hn
    · rename_i h1
      rw [if_pos h1, Flat.read_take]
      congr 1; omega
    · rename_i h1
      rw [if_neg h1, List.take_append_of_le_length (by simp; exact hn), Flat.read_take]
      congr 1; omega

theorem Ring.queue_empty {b : Ring} (he : b.empty = true) : b.queue = [] := by simp [queue, he]

theorem Ring.queue_straight {b : Ring} (he : b.empty = false) (h : b.ridx < b.widx) :
    b.queue = b.buf.read b.ridx (b.widx - b.ridx) := by simp [queue, he, h]

theorem Ring.queue_wrapped {b : Ring} (he : b.empty = false) (h : ¬ b.ridx < b.widx) :
    b.queue = b.buf.read b.ridx (b.size - b.ridx) ++ b.buf.read 0 b.widx := by simp [queue, he, h]

theorem Flat.read_split (f : Flat) (a m n : Nat) (h : m ≤ n) :
    f.read a n = f.read a m ++ f.read (a + m) (n - m) := by
  rw [← Flat.read_add]; congr 1; omega

/-- Marking `n` bytes as read drops them from the queue. -/
theorem Ring.doneRead_spec (b : Ring) (h : b.Ok) (n : Nat) :
    ∃ b', b.doneRead n = some b' ∧ b'.Ok ∧ b'.queue = b.queue.drop n ∧ b'.size = b.size ∧
      b'.buf = b.buf ∧ b'.hwm = b.hwm := by
  fun_induction Ring.doneRead b n with
  | case1 b n hc =>
    refine ⟨b, rfl, h, ?_, rfl, rfl, rfl⟩
    rcases hc with hc | hc
    · simp [queue, hc]
    · simp [hc]
  | case2 b n hc len hl =>
    exfalso
    have h1 := h.ridx
    simp only [not_or] at hc
    have : b.readLen = 0 := by omega
    unfold readLen at this
    split at this <;> omega
  | case3 b n hc len hl ih =>
    have h1 := h.ridx; have h2 := h.widx
    simp only [not_or, Bool.not_eq_true] at hc
    obtain ⟨he, hn⟩ := hc
    have hlen : len ≤ n := Nat.min_le_right _ _
    generalize hbd : b.stepRead len = b' at ih
    have hb' : b'.Ok ∧ b'.queue = b.queue.drop len ∧ b'.size = b.size ∧ b'.buf = b.buf ∧
        b'.hwm = b.hwm := by
      have hll : len ≤ b.readLen := Nat.min_le_left _ _
      clear ih
      subst hbd
      unfold stepRead
      simp only []
      unfold readLen at hll
      split at hll
      · rename_i hw
        have e1 : ¬ (b.ridx + len ≥ b.size) := by omega
        rw [if_neg e1]
        split
        · rename_i heq
          refine ⟨⟨h.pos, h.pos, h.pos, fun _ => rfl⟩, ?_, rfl, rfl, rfl⟩
          rw [queue_empty rfl, queue_straight he hw, Flat.read_drop]
          have : b.widx - b.ridx - len = 0 := by omega
          rw [this]; simp
        · rename_i hne
          refine ⟨⟨h.pos, by simp only []; omega, h2, by simp [he]⟩, ?_, rfl, rfl, rfl⟩
          have hlt : b.ridx + len < b.widx := by omega
          rw [queue_straight (b := { b with ridx := b.ridx + len }) he hlt, queue_straight he hw, Flat.read_drop]
          show b.buf.read (b.ridx + len) (b.widx - (b.ridx + len)) = _
          congr 1; omega
      · rename_i hw
        by_cases e1 : b.ridx + len ≥ b.size
        · have e2 : len = b.size - b.ridx := by omega
          rw [if_pos e1]
          split
          · rename_i heq
            refine ⟨⟨h.pos, h.pos, h.pos, fun _ => rfl⟩, ?_, rfl, rfl, rfl⟩
            rw [queue_empty rfl, queue_wrapped he (by omega), ← heq, e2]
            simp
          · rename_i hne
            refine ⟨⟨h.pos, h.pos, h2, by simp [he]⟩, ?_, rfl, rfl, rfl⟩
            have hlt : 0 < b.widx := by omega
            rw [queue_straight (b := { b with ridx := 0 }) he hlt, queue_wrapped he (by omega), e2, List.drop_left' (by simp)]
            rfl
        · rw [if_neg e1, if_neg (by omega)]
          refine ⟨⟨h.pos, by simp only []; omega, h2, by simp [he]⟩, ?_, rfl, rfl, rfl⟩
          have hlt : ¬ b.ridx + len < b.widx := by omega
          rw [queue_wrapped (b := { b with ridx := b.ridx + len }) he hlt, queue_wrapped he (by omega),
            List.drop_append_of_le_length (by simp; omega), Flat.read_drop]
          show b.buf.read (b.ridx + len) (b.size - (b.ridx + len)) ++ b.buf.read 0 b.widx = _
          congr 2; omega
    obtain ⟨h3, h4, h5, h6, h7⟩ := hb'
    obtain ⟨b'', h8, h9, h10, h11, h12, h13⟩ := ih h3
    refine ⟨b'', h8, h9, ?_, by rw [h11, h5], by rw [h12, h6], by rw [h13, h7]⟩
    rw [h10, h4, List.drop_drop]
    congr 1; omega

/-- The span offered for writing lies in the buffer and in its free part; it is empty only if the
buffer is full. -/
theorem Ring.writeSpan_le (b : Ring) (h : b.Ok) : b.writeSpan.2.1 + b.writeSpan.2.2 ≤ b.size ∧
    b.writeSpan.2.2 ≤ b.free ∧ (b.writeSpan.2.2 = 0 → b.free = 0) ∧
    b.writeSpan.1.queue = b.queue ∧ b.writeSpan.1.Ok := by
  have h1 := h.ridx; have h2 := h.widx; have h3 := h.pos
  unfold writeSpan
  split
  · rename_i he
    refine ⟨by simp, by simp [free, count, he], by simp; omega, by simp [queue, he],
      ⟨h3, h3, h3, fun _ => rfl⟩⟩
  · rename_i he
    split
    · rename_i hf
      refine ⟨by simp, by simp, ?_, rfl, h⟩
      intro _
      simp only [free, count, he]
      rw [if_neg (by decide), if_neg (by omega)]; omega
    · rename_i hf
      refine ⟨?_, ?_, ?_, rfl, h⟩
      · simp only [writeLen]; split <;> omega
      · simp only [writeLen, free, count, he]
        simp only [Bool.false_eq_true, if_false]
        split <;> split <;> omega
      · simp only [writeLen]
        intro h4; exfalso; split at h4 <;> omega

/-- Filling `bs` into the offered span appends it to the queue. -/
theorem Ring.put_spec (b : Ring) (h : b.Ok) (bs : List Byte) (hbs : bs.length ≤ b.writeSpan.2.2) :
    ∃ b', b.put bs = some b' ∧ b'.Ok ∧ b'.queue = b.queue ++ bs ∧ b'.size = b.size ∧ b'.hwm = b.hwm := by
  have h1 := h.ridx; have h2 := h.widx; have h3 := h.pos
  have hstop : ∀ b : Ring, b.doneWrite 0 = some b := by
    intro b; unfold doneWrite; simp
  by_cases hz : bs = []
  · subst hz
    obtain ⟨-, -, -, h4, h5⟩ := b.writeSpan_le h
    refine ⟨b.writeSpan.1, ?_, h5, by simpa using h4, ?_, ?_⟩
    · unfold put
      simp only [List.length_nil, hstop, Flat.write_nil]
    · unfold writeSpan; split
      · rfl
      · split <;> rfl
    · unfold writeSpan; split
      · rfl
      · split <;> rfl
  · have hpos : 0 < bs.length := List.length_pos_iff.mpr hz
    unfold put
    unfold writeSpan at hbs ⊢
    split at hbs
    · rename_i he
      rw [if_pos he]
      simp only [] at hbs ⊢
      unfold doneWrite
      simp only [he, writeLen]
      rw [if_neg (by simp; omega)]
      simp only [Nat.lt_irrefl, gt_iff_lt, if_false, Nat.sub_zero, Nat.zero_add]
      rw [Nat.min_eq_right hbs, if_neg (by omega), Nat.sub_self, hstop]
      refine ⟨_, rfl, ?_, ?_, rfl, rfl⟩
      · refine ⟨h3, h3, ?_, by simp⟩
        simp only []; split <;> omega
      · simp only [queue, he, if_true, Bool.false_eq_true, if_false]
        by_cases hfull : bs.length ≥ b.size
        · have e1 : b.size = bs.length := by omega
          rw [if_pos hfull, if_neg (by omega), Nat.sub_zero, e1, Flat.read_write_same]
          simp
        · rw [if_neg hfull, if_pos hpos, Nat.sub_zero, Flat.read_write_same]
          simp
    · rename_i he
      rw [if_neg he]
      split at hbs
      · simp only [Nat.le_zero_eq] at hbs; omega
      · rename_i hne
        rw [if_neg hne]
        simp only [] at hbs ⊢
        have he' : b.empty = false := by simpa using he
        have key : ∀ (w' : Nat), w' = (if b.widx + bs.length ≥ b.size then 0 else b.widx + bs.length) →
            ({ b with buf := b.buf.write b.widx bs } : Ring).doneWrite bs.length =
              some { b with buf := b.buf.write b.widx bs, widx := w', empty := false } := by
          intro w' hw'
          unfold doneWrite
          have e1 : ({ b with buf := b.buf.write b.widx bs } : Ring).writeLen = b.writeLen := rfl
          rw [if_neg (by simp [he']; exact ⟨hne, hz⟩)]
          simp only [e1]
          rw [Nat.min_eq_right hbs, if_neg (by omega), Nat.sub_self, hstop, hw']
        rw [key _ rfl]
        refine ⟨_, rfl, ⟨h3, h1, ?_, by simp⟩, ?_, rfl, rfl⟩
        · simp only []; split <;> omega
        · simp only [queue, he', Bool.false_eq_true, if_false]
          unfold writeLen at hbs
          split at hbs
          · -- free space in the middle: the buffer is wrapped
            rename_i hlt
            rw [if_neg (by omega : ¬ b.widx + bs.length ≥ b.size), if_neg (by omega), if_neg (by omega),
              Flat.read_write_disjoint _ _ _ _ _ (by omega),
              Flat.read_split _ 0 b.widx _ (by omega),
              Flat.read_write_disjoint _ _ _ _ _ (by omega), Nat.zero_add]
            have e2 : b.widx + bs.length - b.widx = bs.length := by omega
            rw [e2, Flat.read_write_same, List.append_assoc]
          · -- free space at the end
            rename_i hlt
            rw [if_pos (by omega : b.ridx < b.widx)]
            split
            · rename_i hend
              have e2 : b.size = b.widx + bs.length := by omega
              rw [if_neg (by omega), Flat.read_zero, List.append_nil,
                Flat.read_split _ b.ridx (b.widx - b.ridx) _ (by omega),
                Flat.read_write_disjoint _ _ _ _ _ (by omega)]
              have e3 : b.ridx + (b.widx - b.ridx) = b.widx := by omega
              have e4 : b.size - b.ridx - (b.widx - b.ridx) = bs.length := by omega
              rw [e3, e4, Flat.read_write_same]
            · rw [if_pos (by omega),
                Flat.read_split _ b.ridx (b.widx - b.ridx) _ (by omega),
                Flat.read_write_disjoint _ _ _ _ _ (by omega)]
              have e3 : b.ridx + (b.widx - b.ridx) = b.widx := by omega
              have e4 : b.widx + bs.length - b.ridx - (b.widx - b.ridx) = bs.length := by omega
              rw [e3, e4, Flat.read_write_same]

/-- Taking `n` bytes from the offered span yields the front of the queue. -/
theorem Ring.take_spec (b : Ring) (h : b.Ok) (n : Nat) (hn : n ≤ b.readSpan.2) :
    ∃ b', b.take n = some (b.queue.take n, b') ∧ b'.Ok ∧ b'.queue = b.queue.drop n ∧ b'.size = b.size ∧
      b'.hwm = b.hwm := by
  obtain ⟨b', h1, h2, h3, h4, -, h6⟩ := b.doneRead_spec h n
  refine ⟨b', ?_, h2, h3, h4, h6⟩
  unfold take
  rw [h1, b.readSpan_data n hn]
  rfl

end Nbd
