import Verif.SockIO
import Verif.Proxy
/-!
# Properties of byte streams: receive and send loops, ring buffer, TLS proxy (C16-C19)
-/

set_option autoImplicit false

namespace Nbd.Props

/-! ### C16 -/

/-- **C16.** Whatever the kernel answers: if a receive of `n` bytes succeeds, it yields exactly the
next `n` bytes of the peer's stream and leaves the rest unread. -/
theorem C16_receive (rs : List RecvRes) (stream : List Byte) (n : Nat) (bytes rest : List Byte)
    (h : readit rs stream n [] = .done bytes rest) :
    bytes.length = n ∧ bytes ++ rest = stream := by
  have key : ∀ (rs : List RecvRes) (stream : List Byte) (n : Nat) (acc : List Byte),
      readit rs stream n acc = .done bytes rest →
      bytes.length = acc.length + n ∧ bytes ++ rest = acc ++ stream := by
    intro rs stream n acc h
    fun_induction readit rs stream n acc with
    | case1 => cases h; simp
    | case2 => cases h
    | case3 k rs stream len acc m ih =>
      obtain ⟨h1, h2⟩ := ih h
      simp only [List.append_assoc, List.take_append_drop] at h2
      refine ⟨?_, h2⟩
      rw [h1]
      simp only [List.length_append, List.length_take]
      omega
    | case4 rs stream len acc ih => exact ih h
    | case5 => cases h
    | case6 => cases h
  simpa using key rs stream n [] h

/-- **C16, progress.** As long as the peer's bytes are there, would-block results only delay a
receive: `n` successful reads are enough for it to succeed. End of stream and errors are failures. -/
theorem C16_receive_progress (rs : List RecvRes) (stream : List Byte) (n : Nat)
    (hrs : ∀ r ∈ rs, r = .again ∨ ∃ k, r = .got k)
    (hcount : n ≤ (rs.filter (· ≠ .again)).length) (hlen : n ≤ stream.length) :
    readit rs stream n [] = .done (stream.take n) (stream.drop n) := by
  have key : ∀ (rs : List RecvRes) (stream : List Byte) (n : Nat) (acc : List Byte),
      (∀ r ∈ rs, r = .again ∨ ∃ k, r = .got k) → n ≤ (rs.filter (· ≠ .again)).length →
      n ≤ stream.length → ∃ b r, readit rs stream n acc = .done b r := by
    intro rs stream n acc
    fun_induction readit rs stream n acc with
    | case1 => intros; exact ⟨_, _, rfl⟩
    | case2 => intro _ h _; simp at h
    | case3 k rs stream len acc m ih =>
      intro h1 h2 h3
      apply ih (fun r hr => h1 r (by simp [hr]))
      · simp at h2 ⊢; omega
      · simp only [List.length_drop]; omega
    | case4 rs stream len acc ih =>
      intro h1 h2 h3
      exact ih (fun r hr => h1 r (by simp [hr])) (by simpa using h2) h3
    | case5 rs =>
      intro h1 _ _
      have := h1 .eof (by simp)
      simp at this
    | case6 rs =>
      intro h1 _ _
      have := h1 .fail (by simp)
      simp at this
  obtain ⟨b, r, h⟩ := key rs stream n [] hrs hcount hlen
  obtain ⟨h1, h2⟩ := C16_receive rs stream n b r h
  rw [h, ← h2, List.take_left' h1, List.drop_left' h1]

/-- **C16, failure.** If the peer's stream is shorter than what is asked for, a receive never
succeeds: it fails (end of stream, error) or keeps waiting. -/
theorem C16_receive_short (rs : List RecvRes) (stream : List Byte) (n : Nat)
    (h : stream.length < n) : readit rs stream n [] = .failed ∨ readit rs stream n [] = .blocked := by
  cases hq : readit rs stream n [] with
  | done b r =>
    obtain ⟨h1, h2⟩ := C16_receive _ _ _ _ _ hq
    rw [← h2] at h
    simp at h
    omega
  | failed => exact .inl rfl
  | blocked => exact .inr rfl
  | exited =>
    exfalso
    have key : ∀ (rs : List RecvRes) (stream : List Byte) (n : Nat) (acc : List Byte),
        readit rs stream n acc ≠ .exited := by
      intro rs stream n acc
      fun_induction readit rs stream n acc <;> simp_all
    exact key _ _ _ _ hq

/-- **C16, after TLS was started**: the same for the TLS receive loop (which exits the process at
the end of the stream instead of returning). -/
theorem C16_receive_tls (rs : List RecvRes) (stream : List Byte) (n : Nat) :
    readitTls rs stream n [] = readit rs stream n [] ∨
    (readitTls rs stream n [] = .exited ∧ readit rs stream n [] = .failed) := by
  have key : ∀ (rs : List RecvRes) (stream : List Byte) (n : Nat) (acc : List Byte),
      readitTls rs stream n acc = readit rs stream n acc ∨
      (readitTls rs stream n acc = .exited ∧ readit rs stream n acc = .failed) := by
    intro rs stream n acc
    fun_induction readit rs stream n acc with
    | case1 rs => left; cases rs <;> simp [readitTls]
    | case2 => left; rfl
    | case3 k rs stream len acc m ih => exact ih
    | case4 rs stream len acc ih => exact ih
    | case5 => right; exact ⟨rfl, rfl⟩
    | case6 => left; rfl
  exact key rs stream n []

/-- **C16, skipping.** Dropping an unwanted payload of `n` bytes through a buffer of any positive
size removes exactly `n` bytes from the stream. -/
theorem C16_consume (bufsiz : Nat) (rs : List (List RecvRes)) (stream : List Byte)
    (n : Nat) (b rest : List Byte) (h : consume bufsiz rs stream n = .done b rest) :
    rest = stream.drop n ∧ n ≤ stream.length := by
  fun_induction consume bufsiz rs stream n with
  | case1 => cases h; simp
  | case2 => cases h
  | case3 rs rest' stream len cur b1 s1 hq ih =>
    obtain ⟨h1, h2⟩ := C16_receive _ _ _ _ _ hq
    obtain ⟨h3, h4⟩ := ih h
    have h5 : s1 = stream.drop cur := by rw [← h2, List.drop_left' h1]
    rw [h5] at h3 h4
    simp only [List.drop_drop, List.length_drop] at h3 h4
    have h6 : cur ≤ len + 1 := Nat.min_le_right _ _
    have h7 : cur ≤ stream.length := by rw [← h2]; simp; omega
    refine ⟨?_, by omega⟩
    rw [h3]; congr 1; omega
  | case4 rs rest' stream len cur hne => exact absurd h (hne _ _)

/-- Five bytes out of eight, in three pieces with a would-block in between. -/
example : readit [.got 1, .again, .got 0, .got 7] [1, 2, 3, 4, 5, 6, 7, 8] 5 [] =
    .done [1, 2, 3, 4, 5] [6, 7, 8] ∧
    readit [.got 1, .eof] [1, 2, 3] 5 [] = .failed ∧
    consume 2 [[.got 0, .got 0], [.got 5], [.again, .got 0]] [1, 2, 3, 4, 5, 6] 5 = .done [] [6] := by
  decide

/-! ### C17 -/

/-- **C17** (partial: as long as no write would block, as on the blocking sockets the server uses).
A successful send of a buffer puts exactly its bytes on the connection; after a failure a prefix of
them went out; nothing outside the buffer is ever read. -/
theorem C17_send_partial (buf : List Byte) (rs : List SendRes) (hna : .again ∉ rs) :
    match writeit buf rs 0 buf.length [] with
    | .done out => out = buf
    | .failed out => out <+: buf
    | .blocked out => out <+: buf
    | .oob => False := by
  have key : ∀ (rs : List SendRes) (pos : Int) (len : Nat) (out : List Byte), .again ∉ rs →
      0 ≤ pos → pos.toNat + len = buf.length → out = buf.take pos.toNat →
      match writeit buf rs pos len out with
      | .done out => out = buf
      | .failed out => out <+: buf
      | .blocked out => out <+: buf
      | .oob => False := by
    intro rs pos len out
    fun_induction writeit buf rs pos len out with
    | case1 => intro _ _ h1 h2; simp only []; rw [h2]; exact List.take_of_length_le (by omega)
    | case2 => intro _ _ h1 h2; simp only []; rw [h2]; exact List.take_prefix _ _
    | case3 k rs pos len out n hc => intro _ h0 h1 h2; exfalso; omega
    | case4 k rs pos len out n hc ih =>
      intro hna h0 h1 h2
      apply ih (fun h => hna (by simp [h])) (by omega) (by omega)
      have : (pos + n).toNat = pos.toNat + n := by omega
      rw [this, h2, List.take_add]
    | case5 rs pos len out ih => intro hna; exact ih (fun h => hna (by simp [h]))
    | case6 => intro _ _ h1 h2; simp only []; rw [h2]; exact List.take_prefix _ _
    | case7 => intro hna; exact absurd (by simp) hna
    | case8 => intro _ _ h1 h2; simp only []; rw [h2]; exact List.take_prefix _ _
  exact key rs 0 buf.length [] hna (by omega) (by simp) (by simp)

/-- **C17 is false if a write would block**: the send reports success after putting a byte twice on
the connection. -/
theorem C17_false_duplicate : ∃ (buf : List Byte) (rs : List SendRes) (out : List Byte),
    writeit buf rs 0 buf.length [] = .done out ∧ out ≠ buf ∧ out.length = buf.length + 1 :=
  ⟨[1, 2, 3], [.put 1, .again, .put 5], [1, 2, 2, 3], by decide, by decide, by decide⟩

/-- **C17 is false if the first write would block**: the send starts reading before the buffer. -/
theorem C17_false_outside (buf : List Byte) (hne : buf ≠ []) (k : Nat) (rs : List SendRes) :
    writeit buf (.again :: .put k :: rs) 0 buf.length [] = .oob := by
  obtain ⟨b, bs, rfl⟩ := List.exists_cons_of_ne_nil hne
  simp [writeit]

/-- **C17, after TLS was started**: complete, would-block results included. -/
theorem C17_send_tls (buf : List Byte) (rs : List SendRes) :
    match writeitTls buf rs 0 buf.length [] with
    | .done out => out = buf
    | .failed out => out <+: buf
    | .blocked out => out <+: buf
    | .oob => False := by
  have key : ∀ (rs : List SendRes) (pos len : Nat) (out : List Byte),
      pos + len = buf.length → out = buf.take pos →
      match writeitTls buf rs pos len out with
      | .done out => out = buf
      | .failed out => out <+: buf
      | .blocked out => out <+: buf
      | .oob => False := by
    intro rs pos len out
    fun_induction writeitTls buf rs pos len out with
    | case1 => intro h1 h2; simp only []; rw [h2]; exact List.take_of_length_le (by omega)
    | case2 => intro h1 h2; simp only []; rw [h2]; exact List.take_prefix _ _
    | case3 k rs pos len out n hc => intro h1 h2; exfalso; omega
    | case4 k rs pos len out n hc ih =>
      intro h1 h2
      apply ih (by omega)
      rw [h2, List.take_add]
    | case5 x rs pos len out ih => exact ih
    | case6 rs pos len out ih => exact ih
    | case7 => intro h1 h2; simp only []; rw [h2]; exact List.take_prefix _ _
  exact key rs 0 buf.length [] (by simp) (by simp)

example : writeit [1, 2, 3, 4] [.put 1, .zero true, .put 0, .put 9] 0 4 [] = .done [1, 2, 3, 4] ∧
    writeitTls [1, 2, 3, 4] [.put 1, .again, .put 0, .again, .put 9] 0 4 [] = .done [1, 2, 3, 4] := by
  decide

/-! ### C18 -/

/-- What a user of the buffer may do next: fill some bytes into the span offered for writing, or
take some bytes from the span offered for reading. -/
inductive RingOp where
  | put (bs : List Byte)
  | take (n : Nat)

/-- Run operations, each within the span offered at that moment; the result is the bytes taken
and the buffer. `none`: an operation exceeded its span, or the code looped for ever. -/
def runRing : Ring → List RingOp → Option (List Byte × Ring)
  | b, [] => some ([], b)
  | b, .put bs :: ops => if bs.length ≤ b.writeSpan.2.2 then (b.put bs).bind (runRing · ops) else none
  | b, .take n :: ops =>
    if n ≤ b.readSpan.2 then
      (b.take n).bind fun (out, b) => (runRing b ops).map fun (o, b) => (out ++ o, b)
    else none

/-- The bytes put in, in order. -/
def putBytes : List RingOp → List Byte
  | [] => []
  | .put bs :: ops => bs ++ putBytes ops
  | .take _ :: ops => putBytes ops

/-- **C18.** For a buffer of any capacity and any operations within the spans offered: the bytes
taken out are a prefix of the bytes put in, what is still inside is the rest (so none is lost,
duplicated or reordered), the count is the number of bytes inside, count and free space add up to
the capacity, and the spans offered next lie inside the buffer and are empty only when there is
nothing to read or no room to write. -/
theorem C18_ring_fifo (size hwm : Nat) (hs : 0 < size) (ops : List RingOp) (out : List Byte) (b : Ring)
    (h : runRing (Ring.new size hwm) ops = some (out, b)) :
    (∃ inside, putBytes ops = out ++ inside ∧ b.count = inside.length ∧
      (b.isEmpty = true ↔ inside = []) ∧ (b.isFull = true ↔ inside.length = size) ∧
      ∀ n, n ≤ b.readSpan.2 → b.buf.read b.readSpan.1 n = inside.take n) ∧
    b.count + b.free = size ∧
    b.readSpan.1 + b.readSpan.2 ≤ size ∧ b.writeSpan.2.1 + b.writeSpan.2.2 ≤ size ∧
    (b.readSpan.2 = 0 ↔ b.count = 0) ∧ (b.writeSpan.2.2 = 0 ↔ b.free = 0) := by
  have key : ∀ (ops : List RingOp) (b0 b : Ring) (out : List Byte), b0.Ok →
      runRing b0 ops = some (out, b) →
      b.Ok ∧ b.size = b0.size ∧ b0.queue ++ putBytes ops = out ++ b.queue := by
    intro ops
    induction ops with
    | nil => intro b0 b out hok h; cases h; exact ⟨hok, rfl, by simp [putBytes]⟩
    | cons op ops ih =>
      intro b0 b out hok h
      cases op with
      | put bs =>
        unfold runRing at h
        split at h
        · rename_i hsp
          obtain ⟨b1, h1, h2, h3, h4, -⟩ := b0.put_spec hok bs hsp
          rw [h1] at h
          obtain ⟨h5, h6, h7⟩ := ih _ _ _ h2 h
          refine ⟨h5, by rw [h6, h4], ?_⟩
          rw [← h7, h3]; simp [putBytes]
        · cases h
      | take n =>
        unfold runRing at h
        split at h
        · rename_i hsp
          obtain ⟨b1, h1, h2, h3, h4, -⟩ := b0.take_spec hok n hsp
          rw [h1] at h
          simp only [Option.bind_some, Option.map_eq_some_iff, Prod.mk.injEq] at h
          obtain ⟨⟨o, b2⟩, h8, h9, h10⟩ := h
          cases h10
          obtain ⟨h5, h6, h7⟩ := ih _ _ _ h2 h8
          refine ⟨h5, by rw [h6, h4], ?_⟩
          rw [← h9, List.append_assoc, ← h7, h3, ← List.append_assoc, List.take_append_drop]
          rfl
        · cases h
  obtain ⟨hok, hsz, hq⟩ := key ops _ b out (Ring.new_ok size hwm hs) h
  have hsz' : b.size = size := hsz
  have h0 : (Ring.new size hwm).queue = [] := rfl
  rw [h0, List.nil_append] at hq
  have hlen := b.queue_length hok
  have hle := b.count_le hok
  obtain ⟨r1, r2, r3⟩ := b.readSpan_le hok
  obtain ⟨w1, w2, w3, -, -⟩ := b.writeSpan_le hok
  have hr := hok.ridx
  have hw := hok.widx
  have hcf : b.count + b.free = size := by unfold Ring.free; omega
  refine ⟨⟨b.queue, hq, hlen.symm, ?_, ?_, fun n hn => b.readSpan_data n hn⟩, hcf, by omega, by omega, ?_, ?_⟩
  · constructor
    · intro he; exact Ring.queue_empty he
    · intro he
      cases hee : b.empty with
      | true => exact hee
      | false =>
        rw [he] at hlen
        unfold Ring.count at hlen
        rw [hee] at hlen
        simp only [Bool.false_eq_true, if_false, List.length_nil] at hlen
        split at hlen <;> omega
  · rw [hlen]
    unfold Ring.isFull Ring.count
    cases hee : b.empty with
    | true => simp; omega
    | false =>
      simp only [Bool.not_false, Bool.true_and, beq_iff_eq, Bool.false_eq_true, if_false]
      split <;> omega
  · constructor
    · intro h; have := r3 h; rw [this] at hlen; exact hlen.symm
    · intro h; omega
  · constructor
    · exact w3
    · intro h; omega

/-- A buffer of five bytes, filled across its end and emptied. -/
example : (runRing (Ring.new 5 3) [.put [1, 2, 3], .take 2, .put [4, 5], .put [6, 7], .take 3, .take 1]).map
    (fun x => (x.1, x.2.count, x.2.isFull, x.2.queue)) = some ([1, 2, 3, 4, 5, 6], 1, false, [7]) := by
  decide +kernel

/-! ### C19 -/

/-- The invariant: what was received is what was passed on followed by what is in the buffer; the
bytes the TLS library kept are the front of the buffer. -/
structure ProxyInv (p : Proxy) : Prop where
  ok1 : p.p2c.Ok
  ok2 : p.c2p.Ok
  plain : p.plainIn = p.cryptOut ++ p.p2c.queue
  crypt : p.cryptIn = p.plainOut ++ p.c2p.queue
  kept : p.kept <+: p.p2c.queue

theorem proxy_readPlain (p : Proxy) (t : Turn) (h : ProxyInv p) :
    ProxyInv (p.readPlain t).1 ∧ (p.readPlain t).2 ≠ some .hang := by
  obtain ⟨h1, h2, h3, h4, h5⟩ := h
  obtain ⟨s1, s2, s3, s4, s5⟩ := p.p2c.writeSpan_le h1
  have hidem : p.p2c.writeSpan.1.writeSpan.2.2 = p.p2c.writeSpan.2.2 := by
    unfold Ring.writeSpan
    split
    · rename_i he; simp [he]
    · rename_i he
      split
      · rename_i hh; simp [he, hh]
      · rename_i hh; simp [he, hh]
  unfold Proxy.readPlain
  simp only []
  have hi : ProxyInv { p with p2c := p.p2c.writeSpan.1 } :=
    ⟨s5, h2, by rw [s4]; exact h3, h4, by rw [s4]; exact h5⟩
  split
  · split
    · exact ⟨hi, by simp⟩
    · split
      · exact ⟨hi, by simp⟩
      · exact ⟨⟨s5, h2, by rw [s4]; exact h3, h4, by rw [s4]; exact h5⟩, by simp⟩
      · rename_i c cs hrd
        obtain ⟨b, q1, q2, q3, q4, -⟩ := p.p2c.writeSpan.1.put_spec s5 ((c :: cs).take p.p2c.writeSpan.2.2)
          (by rw [hidem, List.length_take]; exact Nat.min_le_left _ _)
        rw [q1]
        refine ⟨⟨q2, h2, ?_, h4, ?_⟩, by simp⟩
        · simp only []; rw [q3, s4, h3, List.append_assoc]
        · simp only []; rw [q3, s4]; exact h5.trans (List.prefix_append _ _)
  · exact ⟨hi, by simp⟩

theorem proxy_recvCrypt (p : Proxy) (t : Turn) (h : ProxyInv p) :
    ProxyInv (p.recvCrypt t).1 ∧ (p.recvCrypt t).2 ≠ some .hang := by
  obtain ⟨h1, h2, h3, h4, h5⟩ := h
  obtain ⟨s1, s2, s3, s4, s5⟩ := p.c2p.writeSpan_le h2
  have hidem : p.c2p.writeSpan.1.writeSpan.2.2 = p.c2p.writeSpan.2.2 := by
    unfold Ring.writeSpan
    split
    · rename_i he; simp [he]
    · rename_i he
      split
      · rename_i hh; simp [he, hh]
      · rename_i hh; simp [he, hh]
  unfold Proxy.recvCrypt
  simp only []
  have hi : ProxyInv { p with c2p := p.c2p.writeSpan.1 } :=
    ⟨h1, s5, h3, by rw [s4]; exact h4, h5⟩
  split
  · split
    · exact ⟨hi, by simp⟩
    · split
      · exact ⟨hi, by simp⟩
      · exact ⟨hi, by simp⟩
      · exact ⟨⟨h1, s5, h3, by rw [s4]; exact h4, h5⟩, by simp⟩
      · rename_i c cs hrd
        obtain ⟨b, q1, q2, q3, q4, -⟩ := p.c2p.writeSpan.1.put_spec s5 ((c :: cs).take p.c2p.writeSpan.2.2)
          (by rw [hidem, List.length_take]; exact Nat.min_le_left _ _)
        rw [q1]
        refine ⟨⟨h1, q2, h3, ?_, h5⟩, by simp⟩
        simp only []; rw [q3, s4, h4, List.append_assoc]
  · exact ⟨hi, by simp⟩

theorem proxy_writePlain (p : Proxy) (t : Turn) (h : ProxyInv p) :
    ProxyInv (p.writePlain t).1 ∧ (p.writePlain t).2 ≠ some .hang := by
  have hh := h
  obtain ⟨h1, h2, h3, h4, h5⟩ := h
  unfold Proxy.writePlain
  simp only []
  split
  · split
    · exact ⟨hh, by simp⟩
    · split
      · exact ⟨hh, by simp⟩
      · rename_i k hk
        obtain ⟨b, q1, q2, q3, q4, -⟩ := p.c2p.take_spec h2 (min k p.c2p.readSpan.2) (Nat.min_le_right _ _)
        rw [q1]
        refine ⟨⟨h1, q2, h3, ?_, h5⟩, by simp⟩
        simp only []; rw [q3, h4, List.append_assoc, List.take_append_drop]
  · exact ⟨hh, by simp⟩

theorem proxy_sendCrypt (p : Proxy) (t : Turn) (h : ProxyInv p)
    (hk : p.wrInt = false → p.kept = []) :
    ProxyInv (p.sendCrypt t).1 ∧ (p.sendCrypt t).2 ≠ some .hang := by
  have hh := h
  obtain ⟨h1, h2, h3, h4, h5⟩ := h
  unfold Proxy.sendCrypt
  simp only []
  split
  · split
    · exact ⟨hh, by simp⟩
    · split
      · split
        · exact ⟨hh, by simp⟩
        · split
          · exact ⟨hh, by simp⟩
          · exact ⟨hh, by simp⟩
          · obtain ⟨b, q1, q2, q3, q4, -, -⟩ := p.p2c.doneRead_spec h1 p.kept.length
            rw [q1]
            obtain ⟨rest, hrest⟩ := h5
            refine ⟨⟨q2, h2, ?_, h4, List.nil_prefix⟩, by simp⟩
            simp only []; rw [q3, h3, ← hrest, List.append_assoc, List.drop_left' rfl]
      · rename_i hwr
        have hk' := hk (by simpa using hwr)
        split
        · exact ⟨hh, by simp⟩
        · rename_i k _
          refine ⟨⟨h1, h2, h3, h4, ?_⟩, by simp⟩
          simp only []
          rw [p.p2c.readSpan_data _ (Nat.min_le_right _ _)]
          exact List.take_prefix _ _
        · rename_i k _
          obtain ⟨b, q1, q2, q3, q4, -⟩ := p.p2c.take_spec h1 (min (k + 1) p.p2c.readSpan.2) (Nat.min_le_right _ _)
          rw [q1]
          refine ⟨⟨q2, h2, ?_, h4, by simp only []; rw [hk']; exact List.nil_prefix⟩, by simp⟩
          simp only []; rw [q3, h3, List.append_assoc, List.take_append_drop]
  · exact ⟨hh, by simp⟩

/-- Only the sending step touches the fields about interrupted sends. -/
theorem proxy_kept (p : Proxy) (t : Turn) :
    ((p.readPlain t).1.wrInt = p.wrInt ∧ (p.readPlain t).1.kept = p.kept ∧
      (p.readPlain t).1.cryptOut = p.cryptOut) ∧
    ((p.writePlain t).1.wrInt = p.wrInt ∧ (p.writePlain t).1.kept = p.kept ∧
      (p.writePlain t).1.cryptOut = p.cryptOut) ∧
    ((p.recvCrypt t).1.wrInt = p.wrInt ∧ (p.recvCrypt t).1.kept = p.kept ∧
      (p.recvCrypt t).1.cryptOut = p.cryptOut) ∧
    (((p.sendCrypt t).1.wrInt = false → (p.sendCrypt t).1.kept = []) ∨ ¬ (p.wrInt = false → p.kept = [])) ∧
    (p.wrInt = true → p.kept = [] → (p.sendCrypt t).1.wrInt = true ∧ (p.sendCrypt t).1.kept = [] ∧
      (p.sendCrypt t).1.cryptOut = p.cryptOut) := by
  refine ⟨?_, ?_, ?_, ?_, ?_⟩
  · unfold Proxy.readPlain; simp only []
    split
    · split
      · simp
      · split
        · simp
        · simp
        · split <;> simp
    · simp
  · unfold Proxy.writePlain; simp only []
    split
    · split
      · simp
      · split
        · simp
        · split <;> simp
    · simp
  · unfold Proxy.recvCrypt; simp only []
    split
    · split
      · simp
      · split
        · simp
        · simp
        · simp
        · split <;> simp
    · simp
  · by_cases hk : p.wrInt = false → p.kept = []
    · left
      unfold Proxy.sendCrypt; simp only []
      split
      · split
        · exact hk
        · split
          · split
            · exact hk
            · split
              · exact hk
              · exact hk
              · split <;> simp_all
          · split
            · exact hk
            · simp
            · split <;> simp_all
      · exact hk
    · right; exact hk
  · intro hw hk
    unfold Proxy.sendCrypt; simp only []
    split
    · split
      · simp [hw, hk]
      · first
        | exact ⟨hw, hk, rfl⟩
        | (split
           · first
             | exact ⟨hw, hk, rfl⟩
             | (split
                · exact ⟨hw, hk, rfl⟩
                · rename_i hn; exact absurd hk hn)
           · rename_i hn; exact absurd hw hn)
    · exact ⟨hw, hk, rfl⟩

/-- The state with the invariant about kept bytes. -/
structure ProxyOk (p : Proxy) : Prop where
  inv : ProxyInv p
  kept : p.wrInt = false → p.kept = []

theorem proxy_guarded (c : Bool) (f : Proxy → Turn → Proxy × Option PEnd) (t : Turn)
    (hf : ∀ p, ProxyOk p → ProxyOk (f p t).1 ∧ (f p t).2 ≠ some .hang ∧
      (f p t).2 ≠ some .plainDone ∧ (f p t).2 ≠ some .cryptDone)
    (s : Proxy × Option PEnd) (h1 : ProxyOk s.1) (h2 : s.2 ≠ some .hang)
    (h3 : s.2 ≠ some .plainDone) (h4 : s.2 ≠ some .cryptDone) :
    ProxyOk (Proxy.guarded c f t s).1 ∧ (Proxy.guarded c f t s).2 ≠ some .hang ∧
      (Proxy.guarded c f t s).2 ≠ some .plainDone ∧ (Proxy.guarded c f t s).2 ≠ some .cryptDone := by
  obtain ⟨p, o⟩ := s
  cases o with
  | some e => exact ⟨h1, h2, h3, h4⟩
  | none =>
    unfold Proxy.guarded
    simp only []
    split
    · exact hf p h1
    · exact ⟨h1, by simp, by simp, by simp⟩

theorem proxy_turn (p : Proxy) (t : Turn) (h : ProxyOk p) :
    ProxyOk (p.turn t).1 ∧ (p.turn t).2 ≠ some .hang ∧
    ((p.turn t).2 = some .plainDone → (p.turn t).1.cryptOut = (p.turn t).1.plainIn) ∧
    ((p.turn t).2 = some .cryptDone → (p.turn t).1.plainOut = (p.turn t).1.cryptIn) := by
  unfold Proxy.turn
  split
  · exact ⟨h, by simp, by simp, by simp⟩
  · split
    · exact ⟨h, by simp, by simp, by simp⟩
    · split
      · rename_i hc
        simp only [Bool.and_eq_true, Ring.isEmpty] at hc
        refine ⟨⟨⟨h.inv.ok1, h.inv.ok2, h.inv.plain, h.inv.crypt, h.inv.kept⟩, h.kept⟩, by simp, ?_, by simp⟩
        intro _
        have := h.inv.plain
        rw [Ring.queue_empty hc.1.2, List.append_nil] at this
        exact this.symm
      · split
        · rename_i hc
          simp only [Bool.and_eq_true, Ring.isEmpty] at hc
          refine ⟨⟨⟨h.inv.ok1, h.inv.ok2, h.inv.plain, h.inv.crypt, h.inv.kept⟩, h.kept⟩, by simp, by simp, ?_⟩
          intro _
          have := h.inv.crypt
          rw [Ring.queue_empty hc.1.2, List.append_nil] at this
          exact this.symm
        · simp only []
          split
          · exact ⟨h, by simp, by simp, by simp⟩
          · have hread : ∀ p, ProxyOk p → ProxyOk (p.readPlain t).1 ∧ (p.readPlain t).2 ≠ some .hang ∧
                (p.readPlain t).2 ≠ some .plainDone ∧ (p.readPlain t).2 ≠ some .cryptDone := by
              intro p hp
              obtain ⟨h1, h2⟩ := proxy_readPlain p t hp.inv
              have hk := (proxy_kept p t).1
              refine ⟨⟨h1, by rw [hk.1, hk.2.1]; exact hp.kept⟩, h2, ?_⟩
              unfold Proxy.readPlain; simp only []
              split
              · split
                · simp
                · split
                  · simp
                  · simp
                  · split <;> simp
              · simp
            have hwrite : ∀ p, ProxyOk p → ProxyOk (p.writePlain t).1 ∧ (p.writePlain t).2 ≠ some .hang ∧
                (p.writePlain t).2 ≠ some .plainDone ∧ (p.writePlain t).2 ≠ some .cryptDone := by
              intro p hp
              obtain ⟨h1, h2⟩ := proxy_writePlain p t hp.inv
              have hk := (proxy_kept p t).2.1
              refine ⟨⟨h1, by rw [hk.1, hk.2.1]; exact hp.kept⟩, h2, ?_⟩
              unfold Proxy.writePlain; simp only []
              split
              · split
                · simp
                · split
                  · simp
                  · split <;> simp
              · simp
            have hrecv : ∀ p, ProxyOk p → ProxyOk (p.recvCrypt t).1 ∧ (p.recvCrypt t).2 ≠ some .hang ∧
                (p.recvCrypt t).2 ≠ some .plainDone ∧ (p.recvCrypt t).2 ≠ some .cryptDone := by
              intro p hp
              obtain ⟨h1, h2⟩ := proxy_recvCrypt p t hp.inv
              have hk := (proxy_kept p t).2.2.1
              refine ⟨⟨h1, by rw [hk.1, hk.2.1]; exact hp.kept⟩, h2, ?_⟩
              unfold Proxy.recvCrypt; simp only []
              split
              · split
                · simp
                · split
                  · simp
                  · simp
                  · simp
                  · split <;> simp
              · simp
            have hsend : ∀ p, ProxyOk p → ProxyOk (p.sendCrypt t).1 ∧ (p.sendCrypt t).2 ≠ some .hang ∧
                (p.sendCrypt t).2 ≠ some .plainDone ∧ (p.sendCrypt t).2 ≠ some .cryptDone := by
              intro p hp
              obtain ⟨h1, h2⟩ := proxy_sendCrypt p t hp.inv hp.kept
              have hk := (proxy_kept p t).2.2.2.1
              refine ⟨⟨h1, hk.resolve_right (fun h => h hp.kept)⟩, h2, ?_⟩
              unfold Proxy.sendCrypt; simp only []
              split
              · split
                · simp
                · split
                  · split
                    · simp
                    · split
                      · simp
                      · simp
                      · split <;> simp
                  · split
                    · simp
                    · simp
                    · split <;> simp
              · simp
            obtain ⟨a1, a2, a3, a4⟩ := proxy_guarded (!p.plainEOF && !p.p2c.overHwm && t.plainR) _ t hread
              (p, none) h (by simp) (by simp) (by simp)
            obtain ⟨b1, b2, b3, b4⟩ := proxy_guarded (!p.plainEOF && !p.c2p.isEmpty && t.plainW) _ t hwrite
              _ a1 a2 a3 a4
            obtain ⟨c1, c2, c3, c4⟩ := proxy_guarded ((!p.cryptEOF && !p.c2p.overHwm && t.cryptR) || t.buffered)
              _ t hrecv _ b1 b2 b3 b4
            obtain ⟨d1, d2, d3, d4⟩ := proxy_guarded (!p.cryptEOF && (!p.p2c.isEmpty || p.wrInt) && t.cryptW)
              _ t hsend _ c1 c2 c3 c4
            exact ⟨d1, d2, fun h => absurd h d3, fun h => absurd h d4⟩

theorem proxy_start : ProxyOk Proxy.start :=
  ⟨⟨Ring.new_ok _ _ (by decide), Ring.new_ok _ _ (by decide), rfl, rfl, List.nil_prefix⟩, fun _ => rfl⟩

theorem proxy_run (p : Proxy) (ts : List Turn) (h : ProxyOk p) :
    ProxyOk (p.run ts).1 ∧ (p.run ts).2 ≠ .hang ∧
    ((p.run ts).2 = .plainDone → (p.run ts).1.cryptOut = (p.run ts).1.plainIn) ∧
    ((p.run ts).2 = .cryptDone → (p.run ts).1.plainOut = (p.run ts).1.cryptIn) := by
  induction ts generalizing p with
  | nil => exact ⟨h, by simp [Proxy.run], by simp [Proxy.run], by simp [Proxy.run]⟩
  | cons t ts ih =>
    obtain ⟨h1, h2, h3, h4⟩ := proxy_turn p t h
    unfold Proxy.run
    split
    · rename_i q e hq
      rw [hq] at h1 h2 h3 h4
      exact ⟨h1, by simpa using h2, by simpa using h3, by simpa using h4⟩
    · rename_i q hq
      rw [hq] at h1
      exact ih q h1

/-- **C19** (partial: "delivered in full" only when the loop leaves through its orderly exits; see the
two refutations below). In every run of the TLS proxy (every readiness pattern, every split of the transfers,
every would-block, every end of file, stopped at any moment) the bytes handed to the TLS layer are
a prefix of the bytes read from the plain socket and vice versa; the buffer code never loops; and
when the loop ends because the plain (TLS) side was closed and drained, everything received from
that side has been passed on. -/
theorem C19_proxy_stream_partial (ts : List Turn) :
    let (p, e) := Proxy.start.run ts
    p.cryptOut <+: p.plainIn ∧ p.plainOut <+: p.cryptIn ∧ e ≠ .hang ∧
    (e = .plainDone → p.cryptOut = p.plainIn) ∧ (e = .cryptDone → p.plainOut = p.cryptIn) := by
  obtain ⟨h1, h2, h3, h4⟩ := proxy_run Proxy.start ts proxy_start
  refine ⟨?_, ?_, h2, h3, h4⟩
  · rw [h1.inv.plain]; exact List.prefix_append _ _
  · rw [h1.inv.crypt]; exact List.prefix_append _ _

/-- A turn in which nothing happens. -/
def idle : Turn := ⟨false, false, false, false, false, .eof, .put 0, .again, .ok 0, fun _ => false⟩

/-- Three bytes from the plain socket, sent in two pieces, then the plain side closes. -/
example : (match Proxy.start.run [{ idle with plainR := true, rd := .got 1 [2, 3] },
      { idle with cryptW := true, sd := .ok 1 }, { idle with plainR := true, rd := .eof },
      { idle with cryptW := true, sd := .ok 9 }, idle] with
    | (p, e) => (p.cryptOut, p.plainIn, e)) = ([1, 2, 3], [1, 2, 3], .plainDone) := by decide +kernel

/-- **C19 is false when both sides end in the same turn**: bytes received from the TLS side are
dropped although that side ended in an orderly way (`bothEof` leaves the loop without draining). -/
theorem C19_false_both_ends : ∃ ts : List Turn, let (p, e) := Proxy.start.run ts
    e = .bothEof ∧ p.cryptIn = [1, 2, 3] ∧ p.plainOut = [] :=
  ⟨[{ idle with cryptR := true, rc := .got 1 [2, 3] },
    { idle with plainR := true, rd := .eof, cryptR := true, rc := .eof }, idle], by decide +kernel⟩

/-- **C19: a would-block on the TLS side ends the transfer.** Once a send would have blocked and was
completed, no further byte ever reaches the TLS layer, whatever happens afterwards. -/
theorem C19_false_would_block (p : Proxy) (hw : p.wrInt = true) (hk : p.kept = []) (ts : List Turn) :
    (p.run ts).1.cryptOut = p.cryptOut ∧ (p.run ts).2 ≠ .plainDone := by
  have hg : ∀ (c : Bool) (f : Proxy → Turn → Proxy × Option PEnd) (t : Turn) (s : Proxy × Option PEnd),
      (∀ q, q.wrInt = true → q.kept = [] → (f q t).1.wrInt = true ∧ (f q t).1.kept = [] ∧
        (f q t).1.cryptOut = q.cryptOut ∧ (f q t).2 ≠ some .plainDone) →
      s.1.wrInt = true → s.1.kept = [] → s.2 ≠ some .plainDone →
      (Proxy.guarded c f t s).1.wrInt = true ∧ (Proxy.guarded c f t s).1.kept = [] ∧
      (Proxy.guarded c f t s).1.cryptOut = s.1.cryptOut ∧ (Proxy.guarded c f t s).2 ≠ some .plainDone := by
    intro c f t s hf h1 h2 h3
    obtain ⟨q, o⟩ := s
    cases o with
    | some e => exact ⟨h1, h2, rfl, h3⟩
    | none =>
      unfold Proxy.guarded
      simp only []
      split
      · exact hf q h1 h2
      · exact ⟨h1, h2, rfl, by simp⟩
  have hturn : ∀ (q : Proxy) (t : Turn), q.wrInt = true → q.kept = [] →
      (q.turn t).1.wrInt = true ∧ (q.turn t).1.kept = [] ∧ (q.turn t).1.cryptOut = q.cryptOut ∧
      (q.turn t).2 ≠ some .plainDone := by
    intro q t h1 h2
    unfold Proxy.turn
    split
    · exact ⟨h1, h2, rfl, by simp⟩
    · split
      · exact ⟨h1, h2, rfl, by simp⟩
      · rw [if_neg (by simp [h1])]
        split
        · exact ⟨h1, h2, rfl, by simp⟩
        · simp only []
          split
          · exact ⟨h1, h2, rfl, by simp⟩
          · have hr : ∀ q : Proxy, q.wrInt = true → q.kept = [] → (q.readPlain t).1.wrInt = true ∧
                (q.readPlain t).1.kept = [] ∧ (q.readPlain t).1.cryptOut = q.cryptOut ∧
                (q.readPlain t).2 ≠ some .plainDone := by
              intro q h1 h2
              have := (proxy_kept q t).1
              refine ⟨by rw [this.1, h1], by rw [this.2.1, h2], this.2.2, ?_⟩
              unfold Proxy.readPlain; simp only []
              split
              · split
                · simp
                · split
                  · simp
                  · simp
                  · split <;> simp
              · simp
            have hwp : ∀ q : Proxy, q.wrInt = true → q.kept = [] → (q.writePlain t).1.wrInt = true ∧
                (q.writePlain t).1.kept = [] ∧ (q.writePlain t).1.cryptOut = q.cryptOut ∧
                (q.writePlain t).2 ≠ some .plainDone := by
              intro q h1 h2
              have := (proxy_kept q t).2.1
              refine ⟨by rw [this.1, h1], by rw [this.2.1, h2], this.2.2, ?_⟩
              unfold Proxy.writePlain; simp only []
              split
              · split
                · simp
                · split
                  · simp
                  · split <;> simp
              · simp
            have hrc : ∀ q : Proxy, q.wrInt = true → q.kept = [] → (q.recvCrypt t).1.wrInt = true ∧
                (q.recvCrypt t).1.kept = [] ∧ (q.recvCrypt t).1.cryptOut = q.cryptOut ∧
                (q.recvCrypt t).2 ≠ some .plainDone := by
              intro q h1 h2
              have := (proxy_kept q t).2.2.1
              refine ⟨by rw [this.1, h1], by rw [this.2.1, h2], this.2.2, ?_⟩
              unfold Proxy.recvCrypt; simp only []
              split
              · split
                · simp
                · split
                  · simp
                  · simp
                  · simp
                  · split <;> simp
              · simp
            have hsc : ∀ q : Proxy, q.wrInt = true → q.kept = [] → (q.sendCrypt t).1.wrInt = true ∧
                (q.sendCrypt t).1.kept = [] ∧ (q.sendCrypt t).1.cryptOut = q.cryptOut ∧
                (q.sendCrypt t).2 ≠ some .plainDone := by
              intro q h1 h2
              obtain ⟨a, b, c⟩ := (proxy_kept q t).2.2.2.2 h1 h2
              refine ⟨a, b, c, ?_⟩
              unfold Proxy.sendCrypt; simp only []
              split
              · split
                · simp
                · first
                  | simp; done
                  | (rw [if_pos h1, if_pos h2]; simp)
              · simp
            obtain ⟨a1, a2, a3, a4⟩ := hg (!q.plainEOF && !q.p2c.overHwm && t.plainR) _ t (q, none) hr h1 h2 (by simp)
            obtain ⟨b1, b2, b3, b4⟩ := hg (!q.plainEOF && !q.c2p.isEmpty && t.plainW) _ t _ hwp a1 a2 a4
            obtain ⟨c1, c2, c3, c4⟩ := hg ((!q.cryptEOF && !q.c2p.overHwm && t.cryptR) || t.buffered) _ t _ hrc b1 b2 b4
            obtain ⟨d1, d2, d3, d4⟩ := hg (!q.cryptEOF && (!q.p2c.isEmpty || q.wrInt) && t.cryptW) _ t _ hsc c1 c2 c4
            exact ⟨d1, d2, by rw [d3, c3, b3, a3], d4⟩
  induction ts generalizing p with
  | nil => exact ⟨rfl, by simp [Proxy.run]⟩
  | cons t ts ih =>
    obtain ⟨h1, h2, h3, h4⟩ := hturn p t hw hk
    unfold Proxy.run
    split
    · rename_i q e hq
      rw [hq] at h3 h4
      exact ⟨h3, by simpa using h4⟩
    · rename_i q hq
      rw [hq] at h1 h2 h3
      obtain ⟨h5, h6⟩ := ih q h1 h2
      exact ⟨by rw [h5, h3], h6⟩

/-- Such a state is reached: one would-block, then completion. -/
example : (match Proxy.start.run [{ idle with plainR := true, rd := .got 1 [2, 3] },
      { idle with cryptW := true, sd := .again 1 }, { idle with cryptW := true, sd := .ok 0 }] with
    | (p, e) => (p.wrInt, p.kept, p.cryptOut, p.p2c.queue, e)) = (true, [], [1, 2], [3], .running) := by
  decide +kernel

end Nbd.Props
