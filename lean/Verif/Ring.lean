import Verif.Store
/-!
# The ring buffer of the TLS proxy (`buffer.c`)
-/

set_option autoImplicit false

namespace Nbd

/-- buffer.c 31-39 `struct buffer`; `buf` is the memory, of which positions below `size` exist. The
indices are never negative, so natural numbers stand for `ssize_t`. -/
structure Ring where
  buf : Flat
  size : Nat
  hwm : Nat
  ridx : Nat
  widx : Nat
  empty : Bool

/-- buffer.c 78-87 `bufNew` (`calloc` clears the memory). -/
def Ring.new (size hwm : Nat) : Ring := ⟨fun _ => 0, size, hwm, 0, 0, true⟩

/-- The length computed in buffer.c 108-110 and 146-148: `widx - ridx`, or up to the end if that
is not positive. -/
def Ring.readLen (b : Ring) : Nat := if b.widx > b.ridx then b.widx - b.ridx else b.size - b.ridx

/-- The length computed in buffer.c 133-135 and 176-178. -/
def Ring.writeLen (b : Ring) : Nat := if b.ridx > b.widx then b.ridx - b.widx else b.size - b.widx

/-- buffer.c 100-113 `bufGetReadSpan`: offset of the span in the buffer and its length. -/
def Ring.readSpan (b : Ring) : Nat × Nat := if b.empty then (0, 0) else (b.ridx, b.readLen)

/-- buffer.c 117-137 `bufGetWriteSpan`; an empty buffer is reset first. -/
def Ring.writeSpan (b : Ring) : Ring × Nat × Nat :=
  if b.empty then ({ b with ridx := 0, widx := 0 }, 0, b.size)
  else if b.ridx = b.widx then (b, 0, 0)
  else (b, b.widx, b.writeLen)

/-- buffer.c 154-163: one step of `bufDoneRead`, `len` bytes. -/
def Ring.stepRead (b : Ring) (len : Nat) : Ring :=
  let ridx := if b.ridx + len ≥ b.size then 0 else b.ridx + len
  if ridx = b.widx then { b with ridx := 0, widx := 0, empty := true } else { b with ridx := ridx }

/-- buffer.c 140-167 `bufDoneRead`. `none` would be an endless loop (a step of length 0). -/
def Ring.doneRead (b : Ring) (n : Nat) : Option Ring :=
  if b.empty = true ∨ n = 0 then some b
  else
    let len := min b.readLen n
    if len = 0 then none
    else (b.stepRead len).doneRead (n - len)
termination_by n
decreasing_by omega

/-- buffer.c 170-193 `bufDoneWrite`. -/
def Ring.doneWrite (b : Ring) (n : Nat) : Option Ring :=
  if (b.empty = false ∧ b.ridx = b.widx) ∨ n = 0 then some b
  else
    let len := min b.writeLen n
    if len = 0 then none
    else
      let widx := if b.widx + len ≥ b.size then 0 else b.widx + len
      Ring.doneWrite { b with widx := widx, empty := false } (n - len)
termination_by n
decreasing_by omega

/-- buffer.c 195-199. -/
def Ring.isEmpty (b : Ring) : Bool := b.empty
/-- buffer.c 201-205. -/
def Ring.isFull (b : Ring) : Bool := !b.empty && b.ridx == b.widx
/-- buffer.c 219-225 `bufGetCount`. -/
def Ring.count (b : Ring) : Nat :=
  if b.empty then 0 else if b.ridx < b.widx then b.widx - b.ridx else b.widx + b.size - b.ridx
/-- buffer.c 207-211 `bufIsOverHWM`. -/
def Ring.overHwm (b : Ring) : Bool := b.count > b.hwm
/-- buffer.c 213-217 `bufGetFree`. -/
def Ring.free (b : Ring) : Nat := b.size - b.count

/-- How the buffer is filled: get a span, let the kernel put `bs` there, mark them as written.
As crypto-gnutls.c 358-575 uses buffer.c 118-139 and 171-194. -/
def Ring.put (b : Ring) (bs : List Byte) : Option Ring :=
  let (b, off, _) := b.writeSpan
  Ring.doneWrite { b with buf := b.buf.write off bs } bs.length

/-- How it is emptied: get a span, take `n` bytes from it, mark them as read. As crypto-gnutls.c 358-575 uses buffer.c 101-116 and 141-169. -/
def Ring.take (b : Ring) (n : Nat) : Option (List Byte × Ring) :=
  (b.doneRead n).map fun b' => (b.buf.read b.readSpan.1 n, b')

end Nbd
