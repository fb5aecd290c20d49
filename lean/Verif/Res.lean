import Verif.Request
/-!
# Memory and descriptors

The request path once more, with every `malloc`, `free`, `open` and `close` it does. The names of
live heap blocks and of open descriptors are kept; freeing or closing something that is not live
is `Out.ub`. What the functions compute is taken from `Verif.Raw`, `Verif.Exp` and
`Verif.Request`; `Verif.ResLemmas` shows that these functions compute the same.

Simplifications: allocation does not fail; a freed name may be handed out again by the next
allocation (as a real allocator does), and the same holds for descriptors; sockets are not
counted; `getFilepos`'s stack buffers are not on the heap.
-/

set_option autoImplicit false

namespace Nbd

/-- Live heap blocks (name, size) and open descriptors of the process serving a connection,
newest first. For nbd-server.c 2788-3152. -/
structure Res where
  mem : List (Nat × Nat)
  fds : List Nat
deriving DecidableEq, Repr

/-- A name above all names in use. (C library.) -/
def unused : List Nat → Nat
  | [] => 1
  | n :: l => max (n + 1) (unused l)

/-- `malloc`, `calloc`, `g_new0`. (C library; called in nbd-server.c 2788-3152.) -/
def Res.malloc (res : Res) (n : Nat) : Nat × Res :=
  let p := unused (res.mem.map Prod.fst)
  (p, { res with mem := (p, n) :: res.mem })

/-- `free`, `g_free`: `NULL` is allowed, anything else must be live. (C library; called in nbd-server.c 2788-3152.) -/
def Res.free (res : Res) : Option Nat → Out Res
  | none => .val res
  | some p =>
    if p ∈ res.mem.map Prod.fst then
      .val { res with mem := res.mem.eraseP (fun b => b.1 == p) }
    else .ub

/-- A successful `open`, or one end of a `pipe`. (Kernel; called in nbd-server.c 2798-2816.) -/
def Res.open (res : Res) : Nat × Res :=
  let fd := unused res.fds
  (fd, { res with fds := fd :: res.fds })

/-- `close`: `close(-1)` fails with EBADF and does nothing; anything else must be open (else it
could close a descriptor that belongs to something else). (Kernel; called in nbd-server.c 2788-2816.) -/
def Res.close (res : Res) : Option Nat → Out Res
  | none => .val res
  | some fd => if fd ∈ res.fds then .val { res with fds := res.fds.erase fd } else .ub

/-- Bytes on the heap. (A notion of the statements.) -/
def Res.bytes (res : Res) : Nat := (res.mem.map Prod.snd).sum

/-! ### Reading and writing the files -/

/-- nbd-server.c 1151-1156: the descriptor that `get_filepos` opens for a tree export; for other
exports nothing is opened. `open_treefile` (treefiles.c 61-107) opens one descriptor or returns
-1; it leaves no other descriptor open. -/
def openR (ex : Export) (h : Handle) (res : Res) : Option Nat × Res :=
  if has ex.flags F_TREEFILES then
    match h with
    | .bad => (none, res)
    | _ => (some res.open.1, res.open.2)
  else (none, res)

/-- nbd-server.c 1257-1259, 1458-1460, 1519-1520: `if (F_TREEFILES) close(fhandle)`. -/
def closeR (ex : Export) (fd : Option Nat) (res : Res) : Out Res :=
  if has ex.flags F_TREEFILES then res.close fd else .val res

/-- nbd-server.c 1444-1462 `rawexpread`, and 1486-1521 `rawexpsplice` into the pipe. -/
def rawexpreadR (ex : Export) (w : World) (a len : Nat) (res : Res) :
    Out ((World × Option (List Byte)) × Res) :=
  match getFilepos ex w a with
  | .ub => .ub
  | .exit => .exit
  | .val (w, none) => .val ((w, none), res)
  | .val (w, some (h, foffset, maxbytes)) =>
    let (fd, res) := openR ex h res
    let r := handlePread w h foffset (clip maxbytes len)
    match closeR ex fd res with
    | .ub => .ub
    | .exit => .exit
    | .val res => .val (r, res)

/-- nbd-server.c 1200-1261 `rawexpwrite`, and 1486-1521 `rawexpsplice` out of the pipe. -/
def rawexpwriteR (ex : Export) (w : World) (a : Nat) (buf : List Byte) (fua : Bool) (res : Res) :
    Out ((World × Option Nat) × Res) :=
  match getFilepos ex w a with
  | .ub => .ub
  | .exit => .exit
  | .val (w, none) => .val ((w, none), res)
  | .val (w, some (h, foffset, maxbytes)) =>
    let (fd, res) := openR ex h res
    let r := handlePwrite w h foffset (buf.take (clip maxbytes buf.length))
    let w := if has ex.flags F_SYNC || fua then handleSyncIgnored r.1 h else r.1
    match closeR ex fd res with
    | .ub => .ub
    | .exit => .exit
    | .val res => .val ((w, r.2), res)

/-- nbd-server.c 1273-1282 `rawexpwrite_fully`. -/
def rawexpwriteFullyR (ex : Export) (w : World) (a : Nat) (buf : List Byte) (fua : Bool)
    (res : Res) : Out ((World × Bool) × Res) :=
  if buf.length = 0 then .val ((w, true), res)
  else
    match rawexpwriteR ex w a buf fua res with
    | .ub => .ub
    | .exit => .exit
    | .val ((w, none), res) => .val ((w, false), res)
    | .val ((w, some 0), res) => .val ((w, false), res)
    | .val ((w, some (n + 1)), res) =>
      rawexpwriteFullyR ex w (a + (n + 1)) (buf.drop (n + 1)) fua res
termination_by buf.length
decreasing_by simp only [List.length_drop]; omega

/-- nbd-server.c 1352-1361 `find_read_buf`: `ctx->buf` (the second component) is replaced by a new
block for a structured read that is not DF. -/
def findReadBuf (c : ReadCtx) (ptr : Option Nat) (res : Res) : Option Nat × Res :=
  if c.chunked then
    let (p, res) := res.malloc c.curLen
    (some p, res)
  else (ptr, res)

/-- nbd-server.c 1363-1369 `confirm_read`: what it frees. -/
def confirmRead (c : ReadCtx) (ptr : Option Nat) (res : Res) : Out Res :=
  if c.chunked then res.free ptr else .val res

/-- nbd-server.c 1468-1483 `rawexpread_fully`; `ptr` is `ctx->buf`. -/
def rawexpreadFullyR (ex : Export) (w : World) (c : ReadCtx) (ptr : Option Nat) (res : Res) :
    Out ((World × ReadCtx × Bool) × Option Nat × Res) :=
  if c.curLen = 0 then .val ((w, c, true), ptr, res)
  else
    let (ptr, res) := findReadBuf c ptr res
    match rawexpreadR ex w (c.start + c.curOff) c.curLen res with
    | .ub => .ub
    | .exit => .exit
    | .val ((w, none), res) => .val ((w, c, false), ptr, res)
    | .val ((w, some []), res) => .val ((w, c, false), ptr, res)
    | .val ((w, some (b :: bs)), res) =>
      match c.deliver (b :: bs) with
      | .ub => .ub
      | .exit => .exit
      | .val c' =>
        match confirmRead c ptr res with
        | .ub => .ub
        | .exit => .exit
        | .val res =>
          rawexpreadFullyR ex w { c' with
            curOff := c.curOff + (b :: bs).length
            curLen := c.curLen - (b :: bs).length } ptr res
termination_by c.curLen
decreasing_by simp only [List.length_cons]; omega

/-- nbd-server.c 1571-1601: the page loop of `expread`. -/
def expreadPagesR (cl : Client) : Nat → World → ReadCtx → (mapcnt a len : Nat) → Option Nat → Res →
    Out ((World × ReadCtx × Bool) × Option Nat × Res)
  | 0, w, c, _, _, _, ptr, res => .val ((w, c, true), ptr, res)
  | n + 1, w, c, mapcnt, a, len, ptr, res =>
    let offset := a - mapcnt * DIFFPAGESIZE
    let rdlen := pageLen offset len
    match cl.difmap[mapcnt]? with
    | none => .ub
    | some m =>
      if m ≠ NOPAGE then
        let (ptr, res) := findReadBuf c ptr res
        match sysPread w (.fd cl.difffile) (diffOffset m offset) rdlen with
        | (w, none) => .val ((w, c, false), ptr, res)
        | (w, some bs) =>
          match c.deliver bs with
          | .ub => .ub
          | .exit => .exit
          | .val c' =>
            if bs.length ≠ rdlen then .val ((w, c, false), ptr, res)
            else
              match confirmRead c ptr res with
              | .ub => .ub
              | .exit => .exit
              | .val res => expreadPagesR cl n w c' (mapcnt + 1) (a + rdlen) (len - rdlen) ptr res
      else if cl.waiting then .val ((w, c, false), ptr, res)
      else
        match rawexpreadFullyR cl.ex w { c with curLen := rdlen } ptr res with
        | .ub => .ub
        | .exit => .exit
        | .val ((w, c, false), ptr, res) => .val ((w, c, false), ptr, res)
        | .val ((w, c, true), ptr, res) =>
          expreadPagesR cl n w c (mapcnt + 1) (a + rdlen) (len - rdlen) ptr res

/-- nbd-server.c 1557-1610 `expread`. -/
def expreadR (cl : Client) (w : World) (c : ReadCtx) (ptr : Option Nat) (res : Res) :
    Out ((World × ReadCtx × Bool) × Option Nat × Res) :=
  if cl.paged then
    expreadPagesR cl (pageCount (c.start + c.curOff) c.reqLen) w c
      ((c.start + c.curOff) / DIFFPAGESIZE) (c.start + c.curOff) c.reqLen ptr res
  else rawexpreadFullyR cl.ex w c ptr res

/-- nbd-server.c 1662-1668: fill the page buffer (a stack array) from the original file(s). -/
def pageInR (ex : Export) (w : World) (pagebuf : List (Option Byte)) (pagestart done rdlen : Nat)
    (res : Res) : Out ((World × List (Option Byte) × Bool) × Res) :=
  if rdlen = 0 then .val ((w, pagebuf, true), res)
  else
    match rawexpreadR ex w pagestart rdlen res with
    | .ub => .ub
    | .exit => .exit
    | .val ((w, none), res) => .val ((w, pagebuf, false), res)
    | .val ((w, some []), res) => .val ((w, pagebuf, true), res)
    | .val ((w, some (b :: bs)), res) =>
      pageInR ex w (bufSet pagebuf done (b :: bs)) (pagestart + (b :: bs).length)
        (done + (b :: bs).length) (rdlen - (b :: bs).length) res
termination_by rdlen
decreasing_by simp only [List.length_cons]; omega

/-- nbd-server.c 1639-1680: the page loop of `expwrite`. -/
def expwritePagesR : Nat → Client → World → List (Option Byte) → (mapcnt a : Nat) → List Byte →
    Res → Out ((Client × World × Bool) × Res)
  | 0, cl, w, _, _, _, _, res => .val ((cl, w, true), res)
  | n + 1, cl, w, pagebuf, mapcnt, a, buf, res =>
    let offset := a - mapcnt * DIFFPAGESIZE
    let wrlen := pageLen offset buf.length
    match cl.difmap[mapcnt]? with
    | none => .ub
    | some m =>
      if m ≠ NOPAGE then
        match sysPwrite w (.fd cl.difffile) (diffOffset m offset) (buf.take wrlen) with
        | (w, none) => .val ((cl, w, false), res)
        | (w, some k) =>
          if k ≠ wrlen then .val ((cl, w, false), res)
          else expwritePagesR n cl w pagebuf (mapcnt + 1) (a + wrlen) (buf.drop wrlen) res
      else
        let sparse := has cl.ex.flags F_SPARSE
        let slot := if sparse then mapcnt % 2 ^ 32 else cl.difffilelen
        let cl := { cl with
          difmap := cl.difmap.set mapcnt slot
          difffilelen := if sparse then cl.difffilelen else (cl.difffilelen + 1) % 2 ^ 32 }
        let partialPage := offset ≠ 0 ∨ wrlen ≠ DIFFPAGESIZE
        if partialPage ∧ cl.waiting = true then .val ((cl, w, false), res)
        else
          let filled :=
            if partialPage then pageInR cl.ex w pagebuf (mapcnt * DIFFPAGESIZE) 0 DIFFPAGESIZE res
            else .val ((w, pagebuf, true), res)
          match filled with
          | .ub => .ub
          | .exit => .exit
          | .val ((w, _, false), res) => .val ((cl, w, false), res)
          | .val ((w, pagebuf, true), res) =>
            let pagebuf := bufSet pagebuf offset (buf.take wrlen)
            match allInit pagebuf with
            | none => .ub
            | some page =>
              match diffAppend cl w page with
              | (w, cl, none) => .val ((cl, w, false), res)
              | (w, cl, some k) =>
                if k ≠ DIFFPAGESIZE then .val ((cl, w, false), res)
                else expwritePagesR n cl w pagebuf (mapcnt + 1) (a + wrlen) (buf.drop wrlen) res

/-- nbd-server.c 1624-1692 `expwrite`. -/
def expwriteR (cl : Client) (w : World) (a : Nat) (buf : List Byte) (fua : Bool) (res : Res) :
    Out ((Client × World × Bool) × Res) :=
  if cl.paged then
    match expwritePagesR (pageCount a buf.length) cl w (List.replicate DIFFPAGESIZE none)
        (a / DIFFPAGESIZE) a buf res with
    | .ub => .ub
    | .exit => .exit
    | .val ((cl, w, false), res) => .val ((cl, w, false), res)
    | .val ((cl, w, true), res) =>
      if has cl.ex.flags F_SYNC || fua then .val ((cl, (sysFsync w (.fd cl.difffile)).1, true), res)
      else .val ((cl, w, true), res)
  else
    match rawexpwriteFullyR cl.ex w a buf fua res with
    | .ub => .ub
    | .exit => .exit
    | .val ((w, ok), res) => .val ((cl, w, ok), res)

/-- nbd-server.c 1710-1723: the loop of `expwrite_zeroes`; `ptr` is the zeroed buffer, freed on
both ways out. -/
def zeroLoopR (cl : Client) (w : World) (a len : Nat) (fua : Bool) (ptr : Option Nat) (res : Res) :
    Out ((Client × World × Bool) × Res) :=
  if len = 0 then
    match res.free ptr with
    | .ub => .ub
    | .exit => .exit
    | .val res => .val ((cl, w, true), res)
  else
    let l := min len ZEROCHUNK
    match expwriteR cl w a (Flat.zeros l) fua res with
    | .ub => .ub
    | .exit => .exit
    | .val ((cl, w, false), res) =>
      match res.free ptr with
      | .ub => .ub
      | .exit => .exit
      | .val res => .val ((cl, w, false), res)
    | .val ((cl, w, true), res) => zeroLoopR cl w a (len - l) fua ptr res
termination_by len
decreasing_by
  have : 0 < ZEROCHUNK := by decide
  omega

/-- nbd-server.c 1704-1724 `expwrite_zeroes`. -/
def expwriteZeroesR (cl : Client) (w : World) (a len : Nat) (fua : Bool) (res : Res) :
    Out ((Client × World × Bool) × Res) :=
  let (p, res) := res.malloc ZEROCHUNK
  zeroLoopR cl w a len fua (some p) res

/-- nbd-server.c 1534-1544 `expsplice`, direction SPLICE_IN. -/
def expspliceInR (ex : Export) (w : World) (a len : Nat) (pipe : List Byte) (res : Res) :
    Out ((World × List Byte × Bool) × Res) :=
  if len = 0 then .val ((w, pipe, true), res)
  else
    match rawexpreadR ex w a len res with
    | .ub => .ub
    | .exit => .exit
    | .val ((w, none), res) => .val ((w, pipe, false), res)
    | .val ((w, some []), res) => .val ((w, pipe, false), res)
    | .val ((w, some (b :: bs)), res) =>
      expspliceInR ex w (a + (b :: bs).length) (len - (b :: bs).length) (pipe ++ (b :: bs)) res
termination_by len
decreasing_by simp only [List.length_cons]; omega

/-- nbd-server.c 1534-1544 `expsplice`, direction SPLICE_OUT. -/
def expspliceOutR (ex : Export) (w : World) (a len : Nat) (pipe : List Byte) (fua : Bool)
    (res : Res) : Out ((World × Bool) × Res) :=
  if len = 0 then .val ((w, true), res)
  else
    match rawexpwriteR ex w a (pipe.take len) fua res with
    | .ub => .ub
    | .exit => .exit
    | .val ((w, none), res) => .val ((w, false), res)
    | .val ((w, some 0), res) => .val ((w, false), res)
    | .val ((w, some (n + 1)), res) =>
      expspliceOutR ex w (a + (n + 1)) (len - (n + 1)) (pipe.drop (n + 1)) fua res
termination_by len
decreasing_by omega

/-! ### One request -/

/-- Size of a `READ_CTX` (nbdsrv.h 93-101) on a 64-bit machine. -/
def CTXSIZE : Nat := 40

/-- Size of a `struct work_package` (nbd-server.c 222-227) on a 64-bit machine. -/
def PKGSIZE : Nat := 32

/-- Size of a `struct nbd_request` (nbd.h 90-96). -/
def REQSIZE : Nat := 28

/-- nbd-server.c 1370-1431 `complete_read`: `ctx->buf` is freed if the read is DF (1385) or simple
(1429). -/
def completeReadR (e : Endian) (c : ReadCtx) (cookie : List Byte) (error : Option UInt32)
    (ptr : Option Nat) (res : Res) : Out (List Msg × Res) :=
  match completeRead e c cookie error with
  | .ub => .ub
  | .exit => .exit
  | .val msgs =>
    if c.structured && !c.df then .val (msgs, res)
    else
      match res.free ptr with
      | .ub => .ub
      | .exit => .exit
      | .val res => .val (msgs, res)

/-- nbd-server.c 2871-2913 `handle_normal_read`; the context block is freed on every way out
(`_cleanup_g_free_`). -/
def handleNormalReadR (e : Endian) (cl : Client) (w : World) (r : Req) (res : Res) :
    Out ((World × List Msg) × Res) :=
  let df := has r.type CMD_FLAG_DF
  let (ctx, res) := res.malloc CTXSIZE
  if cl.structured && df && decide (r.len > 1048576) then
    match res.free (some ctx) with
    | .ub => .ub
    | .exit => .exit
    | .val res =>
      .val ((w, [chunkMsg e r.cookie REPLY_FLAG_DONE REPLY_TYPE_ERROR
        (UInt32.ofNat (6 + tooLong.length))
        (store32 e NBD_EOVERFLOW ++ store16 e (UInt16.ofNat tooLong.length) ++ tooLong)]), res)
  else
    let c : ReadCtx := {
      start := r.start, reqLen := r.len, structured := cl.structured, df := df
      buf := if df || !cl.structured then List.replicate r.len none else []
      curOff := 0, curLen := r.len, chunks := [] }
    let (ptr, res) := if df || !cl.structured then
        let (p, res) := res.malloc r.len
        (some p, res)
      else (none, res)
    match expreadR cl w c ptr res with
    | .ub => .ub
    | .exit => .exit
    | .val ((w, c, ok), ptr, res) =>
      match completeReadR e c r.cookie (if ok then none else some (nbdErrno e w.errno)) ptr res with
      | .ub => .ub
      | .exit => .exit
      | .val (msgs, res) =>
        match res.free (some ctx) with
        | .ub => .ub
        | .exit => .exit
        | .val res => .val ((w, c.chunks.map (dataMsg e r.cookie) ++ msgs), res)

/-- nbd-server.c 2798-2816 `mkpipe`: the two ends, or nothing. If `F_SETPIPE_SZ` fails both ends
are closed again (2807-2808). -/
def mkpipeR (w : World) (len : Nat) (res : Res) :
    Out ((World × Option (Nat × Nat)) × Res) :=
  if len > MAX_PIPE_SIZE then .val ((w, none), res)
  else
    let (rd, res) := res.open
    let (wr, res) := res.open
    match w.next with
    | .err e =>
      match res.close (some rd) with
      | .ub => .ub
      | .exit => .exit
      | .val res =>
        match res.close (some wr) with
        | .ub => .ub
        | .exit => .exit
        | .val res => .val ((w.fail e, none), res)
    | .done _ => .val ((w.step, some (rd, wr)), res)

/-- Close two descriptors one after the other. nbd-server.c 2788-2796. -/
def closeBoth (a b : Option Nat) (res : Res) : Out Res :=
  match res.close a with
  | .ub => .ub
  | .exit => .exit
  | .val res => res.close b

/-- nbd-server.c 2840-2868 `handle_splice_read`. -/
def handleSpliceReadR (e : Endian) (cl : Client) (w : World) (r : Req) (res : Res) :
    Out ((World × Option (List Msg)) × Res) :=
  if cl.tls then .val ((w, none), res)
  else
    match mkpipeR w r.len res with
    | .ub => .ub
    | .exit => .exit
    | .val ((w, none), res) => .val ((w, none), res)
    | .val ((w, some (rd, wr)), res) =>
      match expspliceInR cl.ex w r.start r.len [] res with
      | .ub => .ub
      | .exit => .exit
      | .val ((w, _, false), res) =>
        match closeBoth (some wr) (some rd) res with
        | .ub => .ub
        | .exit => .exit
        | .val res => .val ((w, none), res)
      | .val ((w, pipe, true), res) =>
        match closeBoth (some rd) (some wr) res with
        | .ub => .ub
        | .exit => .exit
        | .val res => .val ((w, some [⟨simpleHdr e 0 r.cookie, pipe⟩]), res)

/-- nbd-server.c 2915-2927 `handle_read`. -/
def handleReadR (e : Endian) (cl : Client) (w : World) (r : Req) (res : Res) :
    Out ((World × List Msg) × Res) :=
  if has cl.ex.flags F_SPLICE then
    match handleSpliceReadR e cl w r res with
    | .ub => .ub
    | .exit => .exit
    | .val ((w, some msgs), res) => .val ((w, msgs), res)
    | .val ((w, none), res) => handleNormalReadR e cl w r res
  else handleNormalReadR e cl w r res

/-- nbd-server.c 2929-2958 `handle_write`. -/
def handleWriteR (e : Endian) (cl : Client) (w : World) (r : Req) (p : Payload) (res : Res) :
    Out ((Client × World × List Msg) × Res) :=
  let fua := has r.type CMD_FLAG_FUA
  match p with
  | .data bs =>
    match expwriteR cl w r.start bs fua res with
    | .ub => .ub
    | .exit => .exit
    | .val ((cl, w, ok), res) => .val ((cl, w, [simpleMsg e r (resultOf e w ok)]), res)
  | .pipe bs =>
    match expspliceOutR cl.ex w r.start r.len bs fua res with
    | .ub => .ub
    | .exit => .exit
    | .val ((w, ok), res) => .val ((cl, w, [simpleMsg e r (resultOf e w ok)]), res)
  | .nothing => .ub

/-- nbd-server.c 2988-3005 `handle_write_zeroes`. -/
def handleWriteZeroesR (e : Endian) (cl : Client) (w : World) (r : Req) (res : Res) :
    Out ((Client × World × List Msg) × Res) :=
  match expwriteZeroesR cl w r.start r.len (has r.type CMD_FLAG_FUA) res with
  | .ub => .ub
  | .exit => .exit
  | .val ((cl, w, ok), res) => .val ((cl, w, [simpleMsg e r (resultOf e w ok)]), res)

/-- nbd-server.c 222-227 `struct work_package`: the names of the blocks and descriptors it owns.
`none` is `NULL` or -1. -/
structure Pkg where
  self : Nat
  req : Nat
  data : Option Nat
  pipe0 : Option Nat
  pipe1 : Option Nat
deriving DecidableEq, Repr

/-- nbd-server.c 2788-2796 `package_dispose`. -/
def Pkg.dispose (k : Pkg) (res : Res) : Out Res :=
  match closeBoth k.pipe0 k.pipe1 res with
  | .ub => .ub
  | .exit => .exit
  | .val res =>
    match res.free k.data with
    | .ub => .ub
    | .exit => .exit
    | .val res =>
      match res.free (some k.req) with
      | .ub => .ub
      | .exit => .exit
      | .val res => res.free (some k.self)

/-- nbd-server.c 2818-2837 `package_create`: the write payload goes to a pipe if the export
splices and a pipe could be made, else to a block of `len` bytes. The Boolean tells if there is a
pipe. -/
def packageCreate (cl : Client) (w : World) (r : Req) (req : Nat) (res : Res) :
    Out ((World × Bool) × Pkg × Res) :=
  let (self, res) := res.malloc PKGSIZE
  if r.type % 65536 = CMD_WRITE then
    if has cl.ex.flags F_SPLICE then
      match mkpipeR w r.len res with
      | .ub => .ub
      | .exit => .exit
      | .val ((w, some (rd, wr)), res) => .val ((w, true), ⟨self, req, none, some rd, some wr⟩, res)
      | .val ((w, none), res) =>
        let (d, res) := res.malloc r.len
        .val ((w, false), ⟨self, req, some d, none, none⟩, res)
    else
      let (d, res) := res.malloc r.len
      .val ((w, false), ⟨self, req, some d, none, none⟩, res)
  else .val ((w, false), ⟨self, req, none, none, none⟩, res)

/-- nbd-server.c 3025-3090: `handle_request` up to its last statement (`package_dispose`). Only
the commands that allocate differ from `handleRequest`. -/
def handleRequestR (e : Endian) (cl : Client) (w : World) (r : Req) (p : Payload) (res : Res) :
    Out ((Client × World × List Msg) × Res) :=
  let type := r.type % 65536
  let flags := r.type - r.type % 65536
  if flags / 65536 / 4 ≠ 0 then
    match errorReply e cl w r EINVAL with
    | .ub => .ub
    | .exit => .exit
    | .val v => .val (v, res)
  else if type = CMD_READ ∧ ¬ badRange cl r = true then
    match handleReadR e cl w r res with
    | .ub => .ub
    | .exit => .exit
    | .val ((w, msgs), res) => .val ((cl, w, msgs), res)
  else if type = CMD_WRITE ∧ ¬ badWrite cl = true ∧ ¬ badRange cl r = true then
    handleWriteR e cl w r p res
  else if type = CMD_WRITE_ZEROES ∧ ¬ badWrite cl = true ∧ ¬ badRange cl r = true then
    handleWriteZeroesR e cl w r res
  else
    match handleRequest e cl w r p with
    | .ub => .ub
    | .exit => .exit
    | .val v => .val (v, res)

/-! ### The request loop -/

/-- Result of one turn of the loop, with the package that was made. nbd-server.c 3100-3150. -/
inductive FetchedR where
  | push (r : Req) (p : Payload) (k : Pkg) (rest : List Byte)
  | disc (rest : List Byte)
  | gone
deriving DecidableEq, Repr

/-- nbd-server.c 3101-3148: one turn of `mainloop_threaded`. On a disconnect request the package
is disposed of (3145). -/
def fetchR (e : Endian) (cl : Client) (w : World) (stream : List Byte) (res : Res) :
    Out ((World × FetchedR) × Res) :=
  let (req, res) := res.malloc REQSIZE
  if stream.length < 28 then .val ((w, .gone), res)
  else
    let r := loadReq e (stream.take 28)
    let rest := stream.drop 28
    if !r.magicOk e then .val ((w, .gone), res)
    else
      match packageCreate cl w r req res with
      | .ub => .ub
      | .exit => .exit
      | .val ((w, piped), k, res) =>
        if r.type % 65536 = CMD_WRITE then
          if piped && cl.tls && decide (0 < r.len) then .ub
          else if rest.length < r.len then .val ((w, .gone), res)
          else
            let p := if piped then Payload.pipe (rest.take r.len) else .data (rest.take r.len)
            .val ((w, .push r p k (rest.drop r.len)), res)
        else if r.type = CMD_DISC then
          match k.dispose res with
          | .ub => .ub
          | .exit => .exit
          | .val res => .val ((w, .disc rest), res)
        else .val ((w, .push r .nothing k rest), res)

/-- Forget the package. (Models no code of its own.) -/
def FetchedR.erase : FetchedR → Fetched
  | .push r p _ rest => .push r p rest
  | .disc rest => .disc rest
  | .gone => .gone

theorem packageCreate_notWrite (cl : Client) (w : World) (r : Req) (req : Nat) (res : Res)
    (h : ¬ r.type % 65536 = CMD_WRITE) :
    ∃ k res', packageCreate cl w r req res = .val ((w, false), k, res') := by
  unfold packageCreate
  simp only []
  rw [if_neg h]
  exact ⟨_, _, rfl⟩

theorem fetchR_push_lt (e : Endian) (cl : Client) (w w' : World) (stream : List Byte) (r : Req)
    (p : Payload) (k : Pkg) (rest : List Byte) (res res' : Res)
    (hf : fetchR e cl w stream res = .val ((w', .push r p k rest), res')) :
    rest.length < stream.length := by
  unfold fetchR at hf
  simp only [] at hf
  by_cases h28 : stream.length < 28
  · rw [if_pos h28] at hf; cases hf
  · rw [if_neg h28] at hf
    by_cases hm : (!(loadReq e (stream.take 28)).magicOk e) = true
    · rw [if_pos hm] at hf; cases hf
    · rw [if_neg hm] at hf
      generalize packageCreate _ _ _ _ _ = x at hf
      rcases x with ⟨⟨w1, piped⟩, k1, res1⟩ | _ | _
      · simp only [] at hf
        by_cases hw : (loadReq e (stream.take 28)).type % 65536 = CMD_WRITE
        · rw [if_pos hw] at hf
          by_cases h1 : (piped && cl.tls && decide (0 < (loadReq e (stream.take 28)).len)) = true
          · rw [if_pos h1] at hf; cases hf
          · rw [if_neg h1] at hf
            by_cases h2 : (stream.drop 28).length < (loadReq e (stream.take 28)).len
            · rw [if_pos h2] at hf; cases hf
            · rw [if_neg h2] at hf
              cases hf
              simp only [List.length_drop]; omega
        · rw [if_neg hw] at hf
          by_cases hd : (loadReq e (stream.take 28)).type = CMD_DISC
          · rw [if_pos hd] at hf
            generalize Pkg.dispose _ _ = y at hf
            rcases y with _ | _ | _ <;> cases hf
          · rw [if_neg hd] at hf
            cases hf
            simp only [List.length_drop]; omega
      · cases hf
      · cases hf

/-- What happened on a connection, and what the process holds at the end (which is of interest
only if the process goes on, i.e. after a disconnect request). nbd-server.c 3095-3152. -/
structure RunR where
  run : Run
  res : Res

/-- nbd-server.c 3095-3152 `mainloop_threaded` with 3091-3092, `package_dispose` at the end of
`handle_request`; requests are handled one after the other. -/
def mainloopR (e : Endian) (cl : Client) (w : World) (stream : List Byte) (res : Res) : RunR :=
  match _hf : fetchR e cl w stream res with
  | .ub => ⟨⟨[], cl, w, .ub⟩, res⟩
  | .exit => ⟨⟨[], cl, w, .exit⟩, res⟩
  | .val ((w, .gone), res) => ⟨⟨[], cl, w, .gone⟩, res⟩
  | .val ((w, .disc _), res) => ⟨⟨[], cl, w, .disconnected⟩, res⟩
  | .val ((w, .push r p k rest), res) =>
    match handleRequestR e cl w r p res with
    | .ub => ⟨⟨[], cl, w, .ub⟩, res⟩
    | .exit => ⟨⟨[], cl, w, .exit⟩, res⟩
    | .val ((cl, w, msgs), res) =>
      match k.dispose res with
      | .ub => ⟨⟨[], cl, w, .ub⟩, res⟩
      | .exit => ⟨⟨[], cl, w, .exit⟩, res⟩
      | .val res =>
        let rr := mainloopR e cl w rest res
        ⟨rr.run.cons ⟨r, p, msgs⟩, rr.res⟩
termination_by stream.length
decreasing_by exact fetchR_push_lt _ _ _ _ _ _ _ _ _ _ _ _hf

end Nbd
