import Verif.Bytes
/-!
# Fixed-length receives and sends (`readit`, `writeit` and their TLS variants)

The kernel's (or the TLS library's) answers are a list; when it runs out the call is still blocked.
-/

set_option autoImplicit false

namespace Nbd

/-- What one `read`/`gnutls_record_recv` may do: deliver at most `k + 1` bytes (and never more than
asked for or available), report that it would block, report end of stream, or fail. Called at cliserv.c 119-146 and nbd-server.c 324-344. -/
inductive RecvRes where
  | got (k : Nat)
  | again
  | eof
  | fail
deriving DecidableEq, Repr

/-- How a receive ends: `done bytes rest`, the failure return -1, process exit, or still blocked.
The ways out of cliserv.c 119-146 and nbd-server.c 324-377. -/
inductive RecvEnd where
  | done (bytes rest : List Byte)
  | failed
  | exited
  | blocked
deriving DecidableEq, Repr

/-- cliserv.c 119-138 `readit`: `stream` is what the peer has sent and we have not yet read, `len`
the number of bytes still wanted, `acc` the bytes already placed in the buffer. -/
def readit : List RecvRes → List Byte → Nat → List Byte → RecvEnd
  | _, stream, 0, acc => .done acc stream
  | [], _, _ + 1, _ => .blocked
  | .got k :: rs, stream, len + 1, acc =>
    let n := min (min (k + 1) (len + 1)) stream.length
    readit rs (stream.drop n) (len + 1 - n) (acc ++ stream.take n)
  | .again :: rs, stream, len + 1, acc => readit rs stream (len + 1) acc
  | .eof :: _, _, _ + 1, _ => .failed
  | .fail :: _, _, _ + 1, _ => .failed

/-- nbd-server.c 324-344 `readit_tls`: end of data calls `nbd_err`, which exits; `again` is every
error the TLS library calls non-fatal. -/
def readitTls : List RecvRes → List Byte → Nat → List Byte → RecvEnd
  | _, stream, 0, acc => .done acc stream
  | [], _, _ + 1, _ => .blocked
  | .got k :: rs, stream, len + 1, acc =>
    let n := min (min (k + 1) (len + 1)) stream.length
    readitTls rs (stream.drop n) (len + 1 - n) (acc ++ stream.take n)
  | .again :: rs, stream, len + 1, acc => readitTls rs stream (len + 1) acc
  | .eof :: _, _, _ + 1, _ => .exited
  | .fail :: _, _, _ + 1, _ => .failed

/-- nbd-server.c 379-386 `consume`: read and drop `len` bytes through a buffer of `bufsiz` bytes.
A failed `socket_read` closes the connection (363-369). The answers `rs` are shared out: the list
of answers for each inner call is given separately. -/
def consume (bufsiz : Nat) : List (List RecvRes) → List Byte → Nat → RecvEnd
  | _, stream, 0 => .done [] stream
  | [], _, _ + 1 => .blocked
  | rs :: rest, stream, len + 1 =>
    let curlen := min bufsiz (len + 1)
    match readit rs stream curlen [] with
    | .done _ stream => consume bufsiz rest stream (len + 1 - curlen)
    | r => r

/-- What one `write`/`gnutls_record_send` may do: accept at most `k + 1` bytes, accept none
(return 0, with the stale `errno` being EAGAIN or not), would block, or fail. Called at cliserv.c 148-174 and nbd-server.c 304-322. -/
inductive SendRes where
  | put (k : Nat)
  | zero (stale : Bool)
  | again
  | fail
deriving DecidableEq, Repr

/-- How a send ends; the bytes that went out are recorded in every case but `oob`, which stands for
sending bytes from outside the buffer. The ways out of cliserv.c 148-174 and nbd-server.c 304-322, 402-408. -/
inductive SendEnd where
  | done (out : List Byte)
  | failed (out : List Byte)
  | blocked (out : List Byte)
  | oob
deriving DecidableEq, Repr

/-- cliserv.c 148-165 `writeit`. `pos` is the value of the `buf` pointer relative to the start of
the buffer and `len` the remaining length. After a would-block result the `switch` falls through to
`len -= res; buf += res` with `res == -1`. -/
def writeit (buf : List Byte) : List SendRes → Int → Nat → List Byte → SendEnd
  | _, _, 0, out => .done out
  | [], _, _ + 1, out => .blocked out
  | .put k :: rs, pos, len + 1, out =>
    let n := min (k + 1) (len + 1)
    if pos < 0 ∨ buf.length < pos.toNat + n then .oob
    else writeit buf rs (pos + n) (len + 1 - n) (out ++ (buf.drop pos.toNat).take n)
  | .zero true :: rs, pos, len + 1, out => writeit buf rs pos (len + 1) out
  | .zero false :: _, _, _ + 1, out => .failed out
  | .again :: rs, pos, len + 1, out => writeit buf rs (pos - 1) (len + 2) out
  | .fail :: _, _, _ + 1, out => .failed out

/-- nbd-server.c 304-322 `writeit_tls`: a non-fatal error retries the same bytes. -/
def writeitTls (buf : List Byte) : List SendRes → Nat → Nat → List Byte → SendEnd
  | _, _, 0, out => .done out
  | [], _, _ + 1, out => .blocked out
  | .put k :: rs, pos, len + 1, out =>
    let n := min (k + 1) (len + 1)
    if buf.length < pos + n then .oob
    else writeitTls buf rs (pos + n) (len + 1 - n) (out ++ (buf.drop pos).take n)
  | .zero _ :: rs, pos, len + 1, out => writeitTls buf rs pos (len + 1) out
  | .again :: rs, pos, len + 1, out => writeitTls buf rs pos (len + 1) out
  | .fail :: _, _, _ + 1, out => .failed out

end Nbd
