import Verif.Exp
import Verif.Wire
/-!
# Handling one request, and the request loop

Replies are lists of `Msg`; each `Msg` is written under `client->lock`. Socket writes are taken
to succeed here (a failing write ends the connection, see `Verif.SockIO`).
-/

namespace Nbd

/-- nbd-server.c 1362-1367 `confirm_read`: the chunk for one partial read. -/
def dataMsg (e : Endian) (cookie : List Byte) (x : Nat × List Byte) : Msg :=
  chunkMsg e cookie 0 REPLY_TYPE_OFFSET_DATA (UInt32.ofNat (x.2.length + 8))
    (store64 e (ntohll e (UInt64.ofNat x.1)) ++ x.2)

/-- The bytes of `char read_failed[] = "Read failed"` including the NUL, nbd-server.c 2874. -/
def readFailed : List Byte := [82, 101, 97, 100, 32, 102, 97, 105, 108, 101, 100, 0]

/-- "Request too long for unfragmented reply" including the NUL, nbd-server.c 2892. -/
def tooLong : List Byte :=
  [82, 101, 113, 117, 101, 115, 116, 32, 116, 111, 111, 32, 108, 111, 110, 103, 32, 102, 111,
   114, 32, 117, 110, 102, 114, 97, 103, 109, 101, 110, 116, 101, 100, 32, 114, 101, 112, 108,
   121, 0]

/-- nbd-server.c 1388-1421: the error chunk of `complete_read` (called with `with_offset`
false). `msglen` is stored in host order: no `htons`. -/
def errorMsg (e : Endian) (cookie : List Byte) (error : UInt32) : Msg :=
  chunkMsg e cookie REPLY_FLAG_DONE REPLY_TYPE_ERROR (UInt32.ofNat (6 + readFailed.length))
    (store32 e error ++ store16 e (UInt16.ofNat readFailed.length) ++ readFailed)

/-- nbd-server.c 1370-1431 `complete_read`, with `with_offset = false`, `err_offset = 0`.
Sending bytes of the reply buffer that were never initialised is reported as undefined
behaviour. In the DF branch (1376-1386) the header announces `len + 8` bytes but the length
passed for the data is `err_offset`, i.e. 0. -/
def completeRead (e : Endian) (c : ReadCtx) (cookie : List Byte) (error : Option UInt32) :
    Out (List Msg) :=
  if c.structured then
    let dfMsgs := if c.df && error.isNone then
        [chunkMsg e cookie 0 REPLY_TYPE_OFFSET_DATA (UInt32.ofNat (c.reqLen + 8))
          (store64 e (ntohll e (UInt64.ofNat c.start)))]
      else []
    match error with
    | some err => .val (dfMsgs ++ [errorMsg e cookie err])
    | none => .val (dfMsgs ++ [chunkMsg e cookie REPLY_FLAG_DONE REPLY_TYPE_NONE 0 []])
  else
    match error with
    | some err => .val [⟨simpleHdr e err cookie, []⟩]
    | none =>
      match allInit c.buf with
      | none => .ub
      | some data => .val [⟨simpleHdr e 0 cookie, data⟩]

/-- nbd-server.c 2871-2913 `handle_normal_read`. (`malloc` does not fail.) -/
def handleNormalRead (e : Endian) (cl : Client) (w : World) (r : Req) :
    Out (World × List Msg) :=
  let df := has r.type CMD_FLAG_DF
  if cl.structured && df && decide (r.len > 1048576) then
    .val (w, [chunkMsg e r.cookie REPLY_FLAG_DONE REPLY_TYPE_ERROR
      (UInt32.ofNat (6 + tooLong.length))
      (store32 e NBD_EOVERFLOW ++ store16 e (UInt16.ofNat tooLong.length) ++ tooLong)])
  else
    let c : ReadCtx := {
      start := r.start, reqLen := r.len, structured := cl.structured, df := df
      buf := if df || !cl.structured then List.replicate r.len none else []
      curOff := 0, curLen := r.len, chunks := [] }
    match expread cl w c with
    | .ub => .ub
    | .exit => .exit
    | .val (w, c, ok) =>
      match completeRead e c r.cookie (if ok then none else some (nbdErrno e w.errno)) with
      | .ub => .ub
      | .exit => .exit
      | .val msgs => .val (w, c.chunks.map (dataMsg e r.cookie) ++ msgs)

/-- nbd-server.c 2800-2819 `mkpipe`; `true` if a pipe was made. -/
def mkpipe (w : World) (len : Nat) : World × Bool :=
  if len > MAX_PIPE_SIZE then (w, false)
  else match w.next with
    | .err e => (w.fail e, false)
    | .done _ => (w.step, true)

/-- nbd-server.c 2840-2868 `handle_splice_read`; `none` is the return value -1. The reply is a
simple reply even if structured replies were negotiated. -/
def handleSpliceRead (e : Endian) (cl : Client) (w : World) (r : Req) :
    Out (World × Option (List Msg)) :=
  if cl.tls then .val (w, none)
  else
    match mkpipe w r.len with
    | (w, false) => .val (w, none)
    | (w, true) =>
      match expspliceIn cl.ex w r.start r.len [] with
      | .ub => .ub
      | .exit => .exit
      | .val (w, _, false) => .val (w, none)
      | .val (w, pipe, true) => .val (w, some [⟨simpleHdr e 0 r.cookie, pipe⟩])

/-- nbd-server.c 2915-2927 `handle_read`. -/
def handleRead (e : Endian) (cl : Client) (w : World) (r : Req) : Out (World × List Msg) :=
  if has cl.ex.flags F_SPLICE then
    match handleSpliceRead e cl w r with
    | .ub => .ub
    | .exit => .exit
    | .val (w, some msgs) => .val (w, msgs)
    | .val (w, none) => handleNormalRead e cl w r
  else handleNormalRead e cl w r

/-- The payload of a write request as the main loop left it in the work package:
nothing (other commands), a `malloc`ed buffer, or a pipe. nbd-server.c 222-227 and 3127-3143. -/
inductive Payload where
  | nothing
  | data (bs : List Byte)
  | pipe (bs : List Byte)
deriving DecidableEq, Repr

/-- A simple reply without data. nbd-server.c 1284-1288. -/
def simpleMsg (e : Endian) (r : Req) (error : Option UInt32) : Msg :=
  ⟨simpleHdr e (error.getD 0) r.cookie, []⟩

/-- `rep.error = nbd_errno(errno)` if the operation failed. nbd-server.c 2943-2947, 2965-2968, 2979-2982, 2995-2998. -/
def resultOf (e : Endian) (w : World) (ok : Bool) : Option UInt32 :=
  if ok then none else some (nbdErrno e w.errno)

/-- nbd-server.c 2929-2958 `handle_write`. -/
def handleWrite (e : Endian) (cl : Client) (w : World) (r : Req) (p : Payload) :
    Out (Client × World × List Msg) :=
  let fua := has r.type CMD_FLAG_FUA
  match p with
  | .data bs =>
    match expwrite cl w r.start bs fua with
    | .ub => .ub
    | .exit => .exit
    | .val (cl, w, ok) => .val (cl, w, [simpleMsg e r (resultOf e w ok)])
  | .pipe bs =>
    match expspliceOut cl.ex w r.start r.len bs fua with
    | .ub => .ub
    | .exit => .exit
    | .val (w, ok) => .val (cl, w, [simpleMsg e r (resultOf e w ok)])
  | .nothing => .ub

/-- nbd-server.c 2960-2972 `handle_flush`. -/
def handleFlush (e : Endian) (cl : Client) (w : World) (r : Req) : World × List Msg :=
  let (w, ok) := expflush cl w
  (w, [simpleMsg e r (resultOf e w ok)])

/-- nbd-server.c 2974-2986 `handle_trim` (`exptrim` always returns 0). -/
def handleTrim (e : Endian) (cl : Client) (w : World) (r : Req) : Out (World × List Msg) :=
  match exptrim cl w r.start r.len with
  | .ub => .ub
  | .exit => .exit
  | .val w => .val (w, [simpleMsg e r none])

/-- nbd-server.c 2988-3005 `handle_write_zeroes`. -/
def handleWriteZeroes (e : Endian) (cl : Client) (w : World) (r : Req) :
    Out (Client × World × List Msg) :=
  match expwriteZeroes cl w r.start r.len (has r.type CMD_FLAG_FUA) with
  | .ub => .ub
  | .exit => .exit
  | .val (cl, w, ok) => .val (cl, w, [simpleMsg e r (resultOf e w ok)])

/-- nbd-server.c 3007-3014 `bad_write`. -/
def badWrite (cl : Client) : Bool :=
  has cl.ex.flags F_READONLY || has cl.ex.flags F_AUTOREADONLY

/-- nbd-server.c 3016-3023 `bad_range`, 64-bit arithmetic. -/
def badRange (cl : Client) (r : Req) : Bool :=
  decide (r.start > cl.ex.exportsize) || decide ((r.start + r.len) % 2 ^ 64 > cl.ex.exportsize)

/-- nbd-server.c 3082-3089: the `error:` exit of `handle_request`. -/
def errorReply (e : Endian) (cl : Client) (w : World) (r : Req) (errno : Nat) :
    Out (Client × World × List Msg) :=
  .val (cl, w, [simpleMsg e r (some (nbdErrno e errno))])

/-- nbd-server.c 3025-3093 `handle_request`. -/
def handleRequest (e : Endian) (cl : Client) (w : World) (r : Req) (p : Payload) :
    Out (Client × World × List Msg) :=
  let type := r.type % 65536
  let flags := r.type - r.type % 65536
  -- flags & ~(NBD_CMD_FLAG_FUA | NBD_CMD_FLAG_NO_HOLE)
  if flags / 65536 / 4 ≠ 0 then errorReply e cl w r EINVAL
  else if type = CMD_READ then
    if badRange cl r then errorReply e cl w r EINVAL
    else
      match handleRead e cl w r with
      | .ub => .ub
      | .exit => .exit
      | .val (w, msgs) => .val (cl, w, msgs)
  else if type = CMD_WRITE then
    if badWrite cl then errorReply e cl w r EPERM
    else if badRange cl r then errorReply e cl w r ENOSPC
    else handleWrite e cl w r p
  else if type = CMD_FLUSH then
    let (w, msgs) := handleFlush e cl w r
    .val (cl, w, msgs)
  else if type = CMD_TRIM then
    if badWrite cl then errorReply e cl w r EPERM
    else if badRange cl r then errorReply e cl w r EINVAL
    else
      match handleTrim e cl w r with
      | .ub => .ub
      | .exit => .exit
      | .val (w, msgs) => .val (cl, w, msgs)
  else if type = CMD_WRITE_ZEROES then
    if badWrite cl then errorReply e cl w r EPERM
    else if badRange cl r then errorReply e cl w r ENOSPC
    else handleWriteZeroes e cl w r
  else errorReply e cl w r EINVAL

/-! ### The request loop -/

/-- Result of one turn of the loop of `mainloop_threaded` on the bytes still to come. nbd-server.c 3100-3150. -/
inductive Fetched where
  /-- a request was handed to the thread pool; remaining bytes -/
  | push (r : Req) (p : Payload) (rest : List Byte)
  /-- disconnect request; remaining bytes -/
  | disc (rest : List Byte)
  /-- the connection ended inside or before a request, or the magic was wrong: the process
  serving the connection exits -/
  | gone
deriving DecidableEq, Repr

/-- nbd-server.c 3095-3148: one turn of `mainloop_threaded`, without the transaction log (see
`Verif.TrLog`). When the export uses splice and a pipe was made but the session is encrypted,
`pkg->data` is NULL and the payload is read to address 0 (3139). -/
def fetch (e : Endian) (cl : Client) (w : World) (stream : List Byte) : Out (World × Fetched) :=
  if stream.length < 28 then .val (w, .gone)
  else
    let r := loadReq e (stream.take 28)
    let rest := stream.drop 28
    if !r.magicOk e then .val (w, .gone)
    else if r.type % 65536 = CMD_WRITE then
      let (w, piped) := if has cl.ex.flags F_SPLICE then mkpipe w r.len else (w, false)
      if piped && cl.tls && decide (0 < r.len) then .ub
      else if rest.length < r.len then .val (w, .gone)
      else
        let p := if piped then Payload.pipe (rest.take r.len) else .data (rest.take r.len)
        .val (w, .push r p (rest.drop r.len))
    else if r.type = CMD_DISC then .val (w, .disc rest)
    else .val (w, .push r .nothing rest)

theorem fetch_push_lt (e : Endian) (cl : Client) (w w' : World) (stream : List Byte) (r : Req)
    (p : Payload) (rest : List Byte) (hf : fetch e cl w stream = .val (w', .push r p rest)) :
    rest.length < stream.length := by
  unfold fetch at hf
  split at hf
  · simp at hf
  · rename_i h28
    simp only [] at hf
    split at hf
    · simp at hf
    · split at hf
      · generalize (if has cl.ex.flags F_SPLICE = true then _ else _ : World × Bool) = mp at hf
        split at hf
        · simp at hf
        · split at hf
          · simp at hf
          · simp only [Out.val.injEq, Prod.mk.injEq, Fetched.push.injEq] at hf
            obtain ⟨_, _, _, rfl⟩ := hf
            simp only [List.length_drop]; omega
      · split at hf
        · simp at hf
        · simp only [Out.val.injEq, Prod.mk.injEq, Fetched.push.injEq] at hf
          obtain ⟨_, _, _, rfl⟩ := hf
          simp only [List.length_drop]; omega

/-- How a connection's run ended. The ways out of nbd-server.c 3095-3152. -/
inductive Ending where
  | gone
  | disconnected
  | ub
  | exit
deriving DecidableEq, Repr

/-- One request the server finished: the request, its payload, and the messages sent.
(A record of what nbd-server.c 3025-3093 did; models no code of its own.) -/
structure Done where
  req : Req
  payload : Payload
  msgs : List Msg
deriving DecidableEq, Repr

/-- What happened on a connection. (A record of what nbd-server.c 3095-3152 did; models no code of its own.) -/
structure Run where
  handled : List Done
  cl : Client
  w : World
  ending : Ending

/-- Put one finished request in front of a run. Models no code of its own. -/
def Run.cons (d : Done) (run : Run) : Run := { run with handled := d :: run.handled }

/-- nbd-server.c 3095-3152 `mainloop_threaded`, with requests handled one after the other (the
schedule in which each worker finishes before the next request arrives; other schedules are in
`Verif.Sched`). -/
def mainloop (e : Endian) (cl : Client) (w : World) (stream : List Byte) : Run :=
  match _hf : fetch e cl w stream with
  | .ub => ⟨[], cl, w, .ub⟩
  | .exit => ⟨[], cl, w, .exit⟩
  | .val (w, .gone) => ⟨[], cl, w, .gone⟩
  | .val (w, .disc _) => ⟨[], cl, w, .disconnected⟩
  | .val (w, .push r p rest) =>
    match handleRequest e cl w r p with
    | .ub => ⟨[], cl, w, .ub⟩
    | .exit => ⟨[], cl, w, .exit⟩
    | .val (cl, w, msgs) =>
      (mainloop e cl w rest).cons ⟨r, p, msgs⟩
termination_by stream.length
decreasing_by
  have h := fetch_push_lt _ _ _ _ _ _ _ _ _hf
  exact h

/-- The bytes sent to the client, in order. Models no code of its own. -/
def Run.sent (run : Run) : List Byte := (run.handled.flatMap Done.msgs).flatMap Msg.bytes

end Nbd
