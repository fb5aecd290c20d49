import Verif.Request
/-!
# The transaction log: writing it, dumping it, replaying it

nbd-server.c `setup_transactionlog`, the log writes of `mainloop_threaded`, `log_reply` and
`log_structured_reply`; nbd-trdump.c; nbd-trplay.c.
-/

set_option autoImplicit false

namespace Nbd

/-- nbd.h 72, nbd-helper.h 16 and 20. -/
def TRACELOG_MAGIC : UInt32 := 0x25609514
/-- nbd-helper.h 16 `NBD_TRACELOG_SET_DATALOG`. -/
def TRACELOG_SET_DATALOG : UInt32 := 1
/-- nbd-helper.h 20 `NBD_TRACELOG_FROM_MAGIC`. -/
def TRACELOG_FROM_MAGIC : UInt64 := 0x4A93BA39A54F31B6

/-! ### Writing the log -/

/-- The log file and the offset of the descriptor one server process has on it. nbd-server.c 2211-2281. -/
structure Log where
  file : List Byte
  pos : Nat
deriving DecidableEq, Repr

/-- `write(2)` at the descriptor's offset (the file is not opened with `O_APPEND`, nbd-server.c
2217-2219). Simplification: `writeit` on the log always writes everything; the code ignores its
result (1293, 1301, 3108, 3140). -/
def Log.write (l : Log) (bs : List Byte) : Log where
  file := l.file.take l.pos ++ List.replicate (l.pos - l.file.length) 0 ++ bs ++
    l.file.drop (l.pos + bs.length)
  pos := l.pos + bs.length

/-- nbd-server.c 2229-2235: the record that announces that write requests are followed by their
data. `htonl(TRUE)` is `htonl(1)`. -/
def optionRecord (e : Endian) : List Byte :=
  store32 e (ntohl e TRACELOG_MAGIC) ++ store32 e (ntohl e TRACELOG_SET_DATALOG) ++
    List.replicate 8 0 ++ store64 e (ntohll e TRACELOG_FROM_MAGIC) ++ store32 e (ntohl e 1)

/-- nbd-server.c 2211-2245 `setup_transactionlog`: the file is opened for writing, created if
missing, but neither truncated nor opened for appending: `old` is what it contained. The
semaphore (2247-2265) is in `Verif.Sched`. -/
def setupLog (e : Endian) (flags : Nat) (old : List Byte) : Log :=
  let l : Log := ⟨old, 0⟩
  if has flags F_DATALOG then l.write (optionRecord e) else l

/-- nbd-server.c 3103-3117 and 3139-3143: what one turn of the request loop logs. The header is
logged as received, before the magic is checked; the data of a write after it has arrived. -/
def logFetch (e : Endian) (cl : Client) (stream : List Byte) (l : Log) : Log :=
  if stream.length < 28 then l
  else
    let l := l.write (stream.take 28)
    let r := loadReq e (stream.take 28)
    if r.magicOk e && decide (r.type % 65536 = CMD_WRITE) && has cl.ex.flags F_DATALOG &&
        !has cl.ex.flags F_SPLICE && decide (r.len ≤ (stream.drop 28).length)
    then l.write ((stream.drop 28).take r.len)
    else l

/-- nbd-server.c 1290-1304 `log_reply`, `log_structured_reply`: the reply struct, without
payload. -/
def logReplies (l : Log) (msgs : List Msg) : Log := msgs.foldl (fun l m => l.write m.hdr) l

/-- `mainloop` (nbd-server.c 3095-3152, requests handled one after the other) on a connection
that keeps a transaction log. -/
def mainloopLog (e : Endian) (cl : Client) (w : World) (stream : List Byte) (l : Log) :
    Run × Log :=
  let l := logFetch e cl stream l
  match _hf : fetch e cl w stream with
  | .ub => (⟨[], cl, w, .ub⟩, l)
  | .exit => (⟨[], cl, w, .exit⟩, l)
  | .val (w, .gone) => (⟨[], cl, w, .gone⟩, l)
  | .val (w, .disc _) => (⟨[], cl, w, .disconnected⟩, l)
  | .val (w, .push r p rest) =>
    match handleRequest e cl w r p with
    | .ub => (⟨[], cl, w, .ub⟩, l)
    | .exit => (⟨[], cl, w, .exit⟩, l)
    | .val (cl, w, msgs) =>
      let x := mainloopLog e cl w rest (logReplies l msgs)
      (x.1.cons ⟨r, p, msgs⟩, x.2)
termination_by stream.length
decreasing_by
  have h := fetch_push_lt _ _ _ _ _ _ _ _ _hf
  exact h

/-- A whole connection that keeps a transaction log: what happened, and the log file afterwards. nbd-server.c 2211-2281 and 3095-3152. -/
def loggedSession (e : Endian) (cl : Client) (w : World) (stream old : List Byte) : Run × List Byte :=
  let x := mainloopLog e cl w stream (setupLog e cl.ex.flags old)
  (x.1, x.2.file)

/-! ### nbd-trdump -/

/-- One line printed by nbd-trdump (the numbers in it; the names of commands and types are
functions of these numbers). nbd-trdump.c 43-160. -/
inductive DumpLine where
  /-- `"> H=... C=... O=... L=..."` -/
  | request (cookie command offset len : Nat)
  /-- `"< H=... E=..."` -/
  | reply (cookie error : Nat)
  /-- `"TRACE_OPTION C=... O=... L=..."` -/
  | option (command offset len : Nat)
  /-- `"TRACE_OPTION DATALOG set to ..."` -/
  | datalog (on : Bool)
  /-- `"TRACE_OPTION ? Unknown type"` -/
  | unknownType
  /-- `"TRACE_OPTION ? Unknown FROM_MAGIC"` -/
  | unknownFrom
  /-- `"<S: H=... T=... F=... L=..."` -/
  | chunk (cookie type flags paylen : Nat)
  /-- `"? Unknown transaction type ..."` -/
  | unknown (magic : Nat)
deriving DecidableEq, Repr

/-- nbd-trdump.c 125-144 and nbd-trplay.c 196-227: what a trace option does to the flag, and what
trdump prints about it. -/
def traceOption (command : Nat) (start len : Nat) (datalog : Bool) : Bool × List DumpLine :=
  if start = TRACELOG_FROM_MAGIC.toNat then
    if command = TRACELOG_SET_DATALOG.toNat then
      (decide (len ≠ 0), [.datalog (decide (len ≠ 0))])
    else (datalog, [.unknownType])
  else (datalog, [.unknownFrom])

/-- nbd-trdump.c 70-163, the loop of `main` on the bytes not yet read; `datalog` is
`g_with_datalog`. `doread` (27-39) ends the program at the end of the file, also in the middle of
a record. The data of a write is read and ignored in pieces of `BUFSIZE` (102-112). `cookie` is
`ntohll` of the field. Line 149: `paylen = ntohs(srep.paylen)`, although `paylen` has 32 bits:
the argument is converted to `uint16_t`. -/
def trdump (e : Endian) (datalog : Bool) (log : List Byte) : List DumpLine :=
  if _h : log.length < 4 then []
  else
    let magic := ntohl e (load32 e (log.take 4))
    if magic = REQUEST_MAGIC then
      if log.length < 28 then []
      else
        let r := loadReq e (log.take 28)
        let line := DumpLine.request (ntohll e (load64 e r.cookie)).toNat r.type r.start r.len
        if r.type % 65536 = CMD_WRITE && datalog then
          if (log.drop 28).length < r.len then [line]
          else line :: trdump e datalog ((log.drop 28).drop r.len)
        else line :: trdump e datalog (log.drop 28)
    else if magic = REPLY_MAGIC then
      if log.length < 16 then []
      else
        .reply (ntohll e (load64 e ((log.drop 8).take 8))).toNat
            (ntohl e (load32 e ((log.drop 4).take 4))).toNat ::
          trdump e datalog (log.drop 16)
    else if magic = TRACELOG_MAGIC then
      if log.length < 28 then []
      else
        let r := loadReq e (log.take 28)
        let x := traceOption r.type r.start r.len datalog
        .option r.type r.start r.len :: (x.2 ++ trdump e x.1 (log.drop 28))
    else if magic = STRUCTURED_REPLY_MAGIC then
      if log.length < 20 then []
      else
        .chunk (ntohll e (load64 e ((log.drop 8).take 8))).toNat
            (ntohs e (load16 e ((log.drop 6).take 2))).toNat
            (ntohs e (load16 e ((log.drop 4).take 2))).toNat
            (ntohs e (load32 e ((log.drop 16).take 4)).toUInt16).toNat ::
          trdump e datalog (log.drop 20)
    else .unknown magic.toNat :: trdump e datalog (log.drop 4)
termination_by log.length
decreasing_by all_goals (simp only [List.length_drop]; omega)

/-! ### nbd-trplay -/

/-- How nbd-trplay ended: the world, the number of blocks written (`g_cur_blocks`), and the exit
status. The ways out of nbd-trplay.c 87-239. -/
structure Played where
  w : World
  blocks : Nat
  code : Nat

theorem sysPwrite_le {w w' : World} {id : FileId} {off : Nat} {bs : List Byte} {n : Nat}
    (h : sysPwrite w id off bs = (w', some n)) : n ≤ bs.length := by
  unfold sysPwrite at h
  split at h
  · cases h
  · split at h
    · cases h
    · cases h; exact Nat.min_le_right _ _

/-- nbd-trplay.c 63-84 `dowriteimage`; `some c` if the process exits with status `c`. An offset
of 2^63 or more is negative as an `off_t`, and `pwrite` refuses it. -/
def writeImage (w : World) (id : FileId) (bs : List Byte) (off : Nat) : World × Option Nat :=
  if _h : bs = [] then (w, none)
  else if 2 ^ 63 ≤ off then (w.fail EINVAL, some 1)
  else
    match sysPwrite w id off bs with
    | (w, none) => (w, some 1)
    | (w, some 0) => (w, some 0)
    | (w, some (n + 1)) => writeImage w id (bs.drop (n + 1)) (off + (n + 1))
termination_by bs.length
decreasing_by
  rw [List.length_drop]
  have := List.length_pos_iff.mpr _h
  omega

/-- nbd-trplay.c 105-122: the loop for a write request of `n` blocks; the data comes from the
log. The left case is the end of the process. (`len` is a multiple of the block size here, so the
loop runs `len / blocksize` times.) -/
def playWrites (bsz max : Nat) (id : FileId) :
    Nat → Nat → List Byte → World → Nat → Sum Played (World × Nat × List Byte)
  | 0, _, log, w, cur => .inr (w, cur, log)
  | n + 1, off, log, w, cur =>
    if log.length < bsz then .inl ⟨w, cur, 0⟩
    else
      match writeImage w id (log.take bsz) off with
      | (w, some c) => .inl ⟨w, cur, c⟩
      | (w, none) =>
        if cur + 1 = max then .inl ⟨w, cur + 1, 0⟩
        else playWrites bsz max id n (off + bsz) (log.drop bsz) w (cur + 1)

/-- nbd-trplay.c 124-138: the loop for a trim or write-zeroes request. -/
def playZeros (bsz max : Nat) (id : FileId) :
    Nat → Nat → World → Nat → Sum Played (World × Nat)
  | 0, _, w, cur => .inr (w, cur)
  | n + 1, off, w, cur =>
    match writeImage w id (List.replicate bsz 0) off with
    | (w, some c) => .inl ⟨w, cur, c⟩
    | (w, none) =>
      if cur + 1 = max then .inl ⟨w, cur + 1, 0⟩
      else playZeros bsz max id n (off + bsz) w (cur + 1)

/-- nbd-trplay.c 87-146 `process_command`. -/
def processCommand (bsz max : Nat) (id : FileId) (r : Req) (datalog : Bool) (log : List Byte)
    (w : World) (cur : Nat) : Sum Played (World × Nat × List Byte) :=
  if r.start % bsz ≠ 0 then .inl ⟨w, cur, 1⟩
  else if r.len % bsz ≠ 0 then .inl ⟨w, cur, 1⟩
  else if r.type % 65536 = CMD_READ ∨ r.type % 65536 = CMD_DISC ∨ r.type % 65536 = CMD_FLUSH then
    .inr (w, cur, log)
  else if r.type % 65536 = CMD_WRITE then
    if datalog then playWrites bsz max id (r.len / bsz) r.start log w cur
    else .inl ⟨w, cur, 1⟩
  else if r.type % 65536 = CMD_TRIM ∨ r.type % 65536 = CMD_WRITE_ZEROES then
    match playZeros bsz max id (r.len / bsz) r.start w cur with
    | .inl p => .inl p
    | .inr (w, cur) => .inr (w, cur, log)
  else .inl ⟨w, cur, 1⟩

theorem playWrites_le (bsz max : Nat) (id : FileId) (n off : Nat) (log : List Byte) (w : World)
    (cur : Nat) (w' : World) (cur' : Nat) (rest : List Byte)
    (h : playWrites bsz max id n off log w cur = .inr (w', cur', rest)) :
    rest.length ≤ log.length := by
  induction n generalizing off log w cur with
  | zero => cases h; exact Nat.le_refl _
  | succ n ih =>
    rw [playWrites] at h
    split at h
    · cases h
    · split at h
      · cases h
      · split at h
        · cases h
        · have := ih _ _ _ _ h
          rw [List.length_drop] at this
          omega

theorem processCommand_le (bsz max : Nat) (id : FileId) (r : Req) (datalog : Bool)
    (log : List Byte) (w : World) (cur : Nat) (w' : World) (cur' : Nat) (rest : List Byte)
    (h : processCommand bsz max id r datalog log w cur = .inr (w', cur', rest)) :
    rest.length ≤ log.length := by
  unfold processCommand at h
  split at h
  · cases h
  · split at h
    · cases h
    · split at h
      · cases h; exact Nat.le_refl _
      · split at h
        · split at h
          · exact playWrites_le _ _ _ _ _ _ _ _ _ _ _ h
          · cases h
        · split at h
          · split at h
            · cases h
            · cases h; exact Nat.le_refl _
          · cases h

/-- nbd-trplay.c 148-239 `main_loop` on the bytes of the log not yet read. `bsz` is the block
size (positive, at most 131072: checked by `main`), `max` the number of blocks after which to stop
(positive), `id` the image. `doread` (44-61) ends the program with status 0 at the end of the
file, also in the middle of a record. -/
def trplay (e : Endian) (bsz max : Nat) (id : FileId) (log : List Byte) (datalog : Bool)
    (w : World) (cur : Nat) : Played :=
  if log.length < 4 then ⟨w, cur, 0⟩
  else
    let magic := ntohl e (load32 e (log.take 4))
    if magic = REQUEST_MAGIC then
      if log.length < 28 then ⟨w, cur, 0⟩
      else
        match _hp : processCommand bsz max id (loadReq e (log.take 28)) datalog (log.drop 28) w cur with
        | .inl p => p
        | .inr (w, cur, rest) => trplay e bsz max id rest datalog w cur
    else if magic = REPLY_MAGIC then
      if log.length < 16 then ⟨w, cur, 0⟩
      else trplay e bsz max id (log.drop 16) datalog w cur
    else if magic = TRACELOG_MAGIC then
      if log.length < 28 then ⟨w, cur, 0⟩
      else
        let r := loadReq e (log.take 28)
        trplay e bsz max id (log.drop 28) (traceOption r.type r.start r.len datalog).1 w cur
    else ⟨w, cur, 1⟩
termination_by log.length
decreasing_by
  · have := processCommand_le _ _ _ _ _ _ _ _ _ _ _ _hp
    rw [List.length_drop] at this
    omega
  · rw [List.length_drop]; omega
  · rw [List.length_drop]; omega

end Nbd
