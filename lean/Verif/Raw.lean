import Verif.Layout
/-!
# Plain reads and writes: `rawexpread`, `rawexpwrite` and their `_fully` loops
-/

namespace Nbd

/-- `pread` on a handle: nbd-server.c 1457. A dummy file (read-only tree export, missing block)
holds TREEPAGESIZE zero bytes. -/
def handlePread (w : World) (h : Handle) (off len : Nat) : World × Option (List Byte) :=
  match h with
  | .file id => sysPread w id off len
  | .bad => (w.fail EBADF, none)
  | .dummy =>
    match w.next with
    | .err e => (w.fail e, none)
    | .done n => (w.step, some ((File.clean (fun _ => 0) TREEPAGESIZE).pread off len (min n MAX_RW_COUNT)))

/-- `pwrite` on a handle: nbd-server.c 1213. A dummy file is opened by `mkstemp` for writing but
is anonymous: its contents are lost at `close`. -/
def handlePwrite (w : World) (h : Handle) (off : Nat) (bs : List Byte) : World × Option Nat :=
  match h with
  | .file id => sysPwrite w id off bs
  | .bad => (w.fail EBADF, none)
  | .dummy =>
    match w.next with
    | .err e => (w.fail e, none)
    | .done n => (w.step, some (min n bs.length))

/-- `fsync`/`fdatasync` on a handle with the result thrown away: nbd-server.c 1215, 1252. -/
def handleSyncIgnored (w : World) (h : Handle) : World :=
  match h with
  | .file id => (sysFsync w id).1
  | .bad => w.fail EBADF
  | .dummy => match w.next with
    | .err e => w.fail e
    | .done _ => w.step

/-- nbd-server.c 1206-1208, 1450-1452: clip the length to the limit from `get_filepos`. -/
def clip (maxbytes len : Nat) : Nat := if maxbytes ≠ 0 ∧ len > maxbytes then maxbytes else len

/-- nbd-server.c 1444-1462 `rawexpread`. `none` is the return value -1. -/
def rawexpread (ex : Export) (w : World) (a len : Nat) : Out (World × Option (List Byte)) :=
  match getFilepos ex w a with
  | .ub => .ub
  | .exit => .exit
  | .val (w, none) => .val (w, none)
  | .val (w, some (h, foffset, maxbytes)) => .val (handlePread w h foffset (clip maxbytes len))

/-- nbd-server.c 1200-1261 `rawexpwrite`. `none` is the return value -1. The results of
`fsync`/`fdatasync` are ignored. -/
def rawexpwrite (ex : Export) (w : World) (a : Nat) (buf : List Byte) (fua : Bool) :
    Out (World × Option Nat) :=
  match getFilepos ex w a with
  | .ub => .ub
  | .exit => .exit
  | .val (w, none) => .val (w, none)
  | .val (w, some (h, foffset, maxbytes)) =>
    let r := handlePwrite w h foffset (buf.take (clip maxbytes buf.length))
    let w := if has ex.flags F_SYNC || fua then handleSyncIgnored r.1 h else r.1
    .val (w, r.2)

/-- nbd-server.c 1273-1282 `rawexpwrite_fully`; the Boolean is `true` on success. -/
def rawexpwriteFully (ex : Export) (w : World) (a : Nat) (buf : List Byte) (fua : Bool) :
    Out (World × Bool) :=
  if buf.length = 0 then .val (w, true)
  else
    match rawexpwrite ex w a buf fua with
    | .ub => .ub
    | .exit => .exit
    | .val (w, none) => .val (w, false)
    | .val (w, some 0) => .val (w, false)
    | .val (w, some (n + 1)) => rawexpwriteFully ex w (a + (n + 1)) (buf.drop (n + 1)) fua
termination_by buf.length
decreasing_by simp only [List.length_drop]; omega

/-- nbdsrv.h `READ_CTX`. `buf` is the `malloc`ed reply buffer of a simple (or DF) read, `none`
marking bytes that were never initialised; `chunks` are the structured offset/data chunks sent
so far by `confirm_read`. -/
structure ReadCtx where
  start : Nat
  reqLen : Nat
  structured : Bool
  df : Bool
  buf : List (Option Byte)
  curOff : Nat
  curLen : Nat
  chunks : List (Nat × List Byte)
deriving DecidableEq, Repr

/-- Does the read send one chunk per partial read? (nbd-server.c 1352, 1363) -/
def ReadCtx.chunked (c : ReadCtx) : Bool := c.structured && !c.df

/-- Overwrite part of a buffer. (C; for the reads into a buffer of nbd-server.c 1444-1484 and 1557-1622.) -/
def bufSet (buf : List (Option Byte)) (off : Nat) (bs : List Byte) : List (Option Byte) :=
  buf.take off ++ bs.map some ++ buf.drop (off + bs.length)

/-- nbd-server.c 1351-1368 `find_read_buf` + the `pread` into it + `confirm_read`, for the bytes
`bs` that arrived. A chunked read uses a fresh buffer of `current_len` bytes, otherwise the bytes
go to `buf + current_offset`. Writing past the end of either buffer is undefined behaviour. -/
def ReadCtx.deliver (c : ReadCtx) (bs : List Byte) : Out ReadCtx :=
  if c.chunked then
    if bs.length > c.curLen then .ub
    else .val { c with chunks := c.chunks ++ [(c.start + c.curOff, bs)] }
  else
    if c.curOff + bs.length > c.buf.length then .ub
    else .val { c with buf := bufSet c.buf c.curOff bs }

/-- nbd-server.c 1468-1483 `rawexpread_fully`; the Boolean is `true` on success. (The error
paths leak the chunk buffer: see `Verif.Res`, which counts memory.) -/
def rawexpreadFully (ex : Export) (w : World) (c : ReadCtx) : Out (World × ReadCtx × Bool) :=
  if c.curLen = 0 then .val (w, c, true)
  else
    match rawexpread ex w (c.start + c.curOff) c.curLen with
    | .ub => .ub
    | .exit => .exit
    | .val (w, none) => .val (w, c, false)
    | .val (w, some []) => .val (w, c, false)
    | .val (w, some (b :: bs)) =>
      match c.deliver (b :: bs) with
      | .ub => .ub
      | .exit => .exit
      | .val c' =>
        rawexpreadFully ex w { c' with
          curOff := c.curOff + (b :: bs).length
          curLen := c.curLen - (b :: bs).length }
termination_by c.curLen
decreasing_by simp only [List.length_cons]; omega

end Nbd
