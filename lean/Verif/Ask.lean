import Verif.Parent
import Verif.SockIO
/-!
# How the parent reads a question of a child

nbd-server.c 3298-3320, the first part of `handle_childname`, on top of whatever `read` delivers: `Parent.readName` takes for granted
that the four bytes of the length arrive at once.
-/

set_option autoImplicit false

namespace Nbd

/-- How reading ends: with a name, with -1, waiting for more, or with a length of which some bytes were never written to.
The ways out of nbd-server.c 3298-3320. -/
inductive AskEnd where
  | name (n : List Byte)
  | gaveUp
  | waiting
  | ub
deriving DecidableEq, Repr

/-- nbd-server.c 3305-3315: `read` into `len` until four bytes have been read in all - always to the beginning of `len`, and always
four bytes. `mem` is what has been written to `len` so far (the rest is not initialised), `rt` how much has been read. Returns `len`, the rest
of the stream and of the kernel's answers. EAGAIN is an error here (3309). -/
def readLen : List RecvRes → List Byte → List Byte → Nat → Option (Option (List Byte × List Byte × List RecvRes))
  | rs, stream, mem, rt =>
    if 4 ≤ rt then some (some (mem, stream, rs))
    else
      match rs with
      | [] => none
      | .got k :: rs =>
        let n := min (min (k + 1) 4) stream.length
        if n = 0 then none
        else readLen rs (stream.drop n) (stream.take n ++ mem.drop n) (rt + n)
      | .again :: _ => some none
      | .eof :: _ => some none
      | .fail :: _ => some none

/-- nbd-server.c 3298-3320 up to the loop: the name the parent looks up. Simplification: an end of the stream within the name is taken
for -1 (the code goes on with what it has). -/
def readAsk (e : Endian) (rs : List RecvRes) (stream : List Byte) : AskEnd :=
  match readLen rs stream [] 0 with
  | none => .waiting
  | some none => .gaveUp
  | some (some (mem, stream, rs)) =>
    if mem.length < 4 then .ub
    else
      let len := (load32 e mem).toNat
      if len ≥ 2 ^ 32 - 1 - 1 then .gaveUp
      else
        match readit rs stream len [] with
        | .done buf _ => .name (cstr buf)
        | .blocked => .waiting
        | _ => .gaveUp

end Nbd
