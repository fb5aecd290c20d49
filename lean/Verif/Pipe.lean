import Verif.Request
/-!
# The pipes of splice exports

`Verif.Exp` and `Verif.Request` take a pipe to hold whatever is moved into it. Linux counts a pipe's capacity in
buffers: a pipe whose size was set to 1 MiB (nbd-server.c 2806) has 256, each holding at most one page, and `splice(2)`
without SPLICE_F_NONBLOCK waits for a free buffer when there is none. Nobody else reads the pipes of the server: the
thread that fills one is the only one that knows it. So a thread that has to wait for a free buffer waits for ever.

This module repeats the functions that fill a pipe, with the buffers counted.
-/
set_option autoImplicit false

namespace Nbd

/-- `F_SETPIPE_SZ` with MAX_PIPE_SIZE (nbd-server.c 212, 2806) makes 1 MiB / 4096 buffers (fcntl(2), pipe(7)). -/
def PIPE_BUFS : Nat := MAX_PIPE_SIZE / 4096

/-- Result of code that may wait for ever. Models no code of its own. -/
inductive POut (α : Type) where
  | val (a : α)
  | ub
  | exit
  /-- the thread waits for a free buffer in a pipe that nobody reads -/
  | stuck
deriving DecidableEq, Repr

/-- The outcomes that other modules know. Models no code of its own. -/
def POut.of {α : Type} : Out α → POut α
  | .val a => .val a
  | .ub => .ub
  | .exit => .exit

/-- Bytes at `off` in a file that fit in `free` buffers: the page cache is moved by reference, one buffer for each page
touched. (Kernel; for the `splice` of nbd-server.c 481-496 and 1486-1532.) -/
def fitBufs (free off : Nat) : Nat := free * 4096 - off % 4096

/-- Buffers that `n` bytes at `off` take. (Kernel; for the `splice` of nbd-server.c 481-496 and 1486-1532.) -/
def bufsOf (off n : Nat) : Nat := if n = 0 then 0 else (off + n - 1) / 4096 - off / 4096 + 1

/-- nbd-server.c 1486-1521 `rawexpsplice`, direction SPLICE_IN, into a pipe with `free` free buffers. Result: the bytes
moved (`none` is -1) and the buffers taken. -/
def rawexpspliceP (ex : Export) (w : World) (a len free : Nat) : POut (World × Option (List Byte) × Nat) :=
  match getFilepos ex w a with
  | .ub => .ub
  | .exit => .exit
  | .val (w, none) => .val (w, none, 0)
  | .val (w, some (h, foffset, maxbytes)) =>
    -- a bad descriptor is refused before the pipe is looked at
    if free = 0 ∧ h ≠ .bad then .stuck
    else
      match handlePread w h foffset (min (clip maxbytes len) (fitBufs free foffset)) with
      | (w, none) => .val (w, none, 0)
      | (w, some bs) => .val (w, some bs, bufsOf foffset bs.length)

/-- nbd-server.c 1534-1544 `expsplice`, direction SPLICE_IN. -/
def expspliceInP (ex : Export) (w : World) (a len : Nat) (pipe : List Byte) (free : Nat) :
    POut (World × List Byte × Bool) :=
  if len = 0 then .val (w, pipe, true)
  else
    match rawexpspliceP ex w a len free with
    | .ub => .ub
    | .exit => .exit
    | .stuck => .stuck
    | .val (w, none, _) => .val (w, pipe, false)
    | .val (w, some [], _) => .val (w, pipe, false)
    | .val (w, some (b :: bs), used) =>
      expspliceInP ex w (a + (b :: bs).length) (len - (b :: bs).length) (pipe ++ (b :: bs)) (free - used)
termination_by len
decreasing_by simp only [List.length_cons]; omega

/-- nbd-server.c 2840-2868 `handle_splice_read`. (`spliceit` on 2863 takes the bytes out of the pipe again; it waits only
for the client.) -/
def handleSpliceReadP (e : Endian) (cl : Client) (w : World) (r : Req) : POut (World × Option (List Msg)) :=
  if cl.tls then .val (w, none)
  else
    match mkpipe w r.len with
    | (w, false) => .val (w, none)
    | (w, true) =>
      match expspliceInP cl.ex w r.start r.len [] PIPE_BUFS with
      | .ub => .ub
      | .exit => .exit
      | .stuck => .stuck
      | .val (w, _, false) => .val (w, none)
      | .val (w, pipe, true) => .val (w, some [⟨simpleHdr e 0 r.cookie, pipe⟩])

/-- nbd-server.c 2915-2927 `handle_read`. -/
def handleReadP (e : Endian) (cl : Client) (w : World) (r : Req) : POut (World × List Msg) :=
  if has cl.ex.flags F_SPLICE then
    match handleSpliceReadP e cl w r with
    | .ub => .ub
    | .exit => .exit
    | .stuck => .stuck
    | .val (w, some msgs) => .val (w, msgs)
    | .val (w, none) => .of (handleNormalRead e cl w r)
  else .of (handleNormalRead e cl w r)

/-- nbd-server.c 3025-3093 `handle_request`: only reads fill a pipe here. -/
def handleRequestP (e : Endian) (cl : Client) (w : World) (r : Req) (p : Payload) :
    POut (Client × World × List Msg) :=
  if (r.type - r.type % 65536) / 65536 / 4 = 0 ∧ r.type % 65536 = CMD_READ ∧ badRange cl r = false then
    match handleReadP e cl w r with
    | .ub => .ub
    | .exit => .exit
    | .stuck => .stuck
    | .val (w, msgs) => .val (cl, w, msgs)
  else .of (handleRequest e cl w r p)

/-- nbd-server.c 481-491 `spliceit` from the socket into a pipe with `free` free buffers. The payload arrives in the
buffers `bufs` (the network's choice: about one for each packet); the `i`-th call of `splice` moves the first and up to
`arrived i` more, as far as there is room. `none`: the thread waits for ever. -/
def spliceNet (arrived : Nat → Nat) (i : Nat) (bufs : List (List Byte)) (pipe : List (List Byte)) (free : Nat) :
    Option (List (List Byte)) :=
  match bufs with
  | [] => some pipe
  | b :: bs =>
    if free = 0 then none
    else
      spliceNet arrived (i + 1) (bs.drop (min (arrived i) (free - 1)))
        (pipe ++ b :: bs.take (min (arrived i) (free - 1)))
        (free - 1 - (bs.take (min (arrived i) (free - 1))).length)
termination_by bufs.length
decreasing_by simp only [List.length_drop, List.length_cons]; omega

/-- nbd-server.c 3095-3148, one turn of `mainloop_threaded`, where the payload of a write arrives in the buffers `bufs`
(whose concatenation is what `stream` holds after the request, see `Nbd.Props.C96_writes`). -/
def fetchP (e : Endian) (cl : Client) (w : World) (stream : List Byte) (arrived : Nat → Nat) (bufs : List (List Byte)) :
    POut (World × Fetched) :=
  match fetch e cl w stream with
  | .ub => .ub
  | .exit => .exit
  | .val (w, .push r (.pipe _) rest) =>
    match spliceNet arrived 0 bufs [] PIPE_BUFS with
    | none => .stuck
    | some pipe => .val (w, .push r (.pipe pipe.flatten) rest)
  | .val x => .val x

end Nbd
