import Verif.SchedTurn
/-!
# Worker threads of copy-on-write sessions

nbd-server.c 1557-1692. The page map, the number of pages used and the position of the diff file belong to the process of a
session, and no lock is taken around them (the lock in 1575 and 1646 is for awaited files only), so every access to them is a step
of its own here. Simplification: what the threads do to them is taken as an interleaving of loads and stores.
-/

set_option autoImplicit false

namespace Nbd

/-- The memory of all sessions (of which only the page map, the number of pages used and the position of the diff file change), and
the files. nbdsrv.h 56-83. -/
abbrev Mem : Type := (Nat → Client) × World

/-- A changed record for one session. (Models no code of its own.) -/
def Mem.put (s : Mem) (sid : Nat) (cl : Client) : Mem := (fun j => if j = sid then cl else s.1 j, s.2)

/-- As `call`, with the memory beside the files. (For the system calls of nbd-server.c 1557-1702.) -/
def callM {α : Type} (f : World → Out (World × α)) (en : Nat) (k : α → Nat → Prog Mem) : Prog Mem :=
  .op (fun s =>
      match f { s.2 with errno := en } with
      | .ub => .ub
      | .exit => .exit
      | .val (w', a) => .val ((s.1, w'), (a, w'.errno)))
    (fun x => k x.1 x.2)

/-- A load of `client->difmap[mapcnt]`. nbd-server.c 1557-1702. -/
def loadMap (sid mapcnt : Nat) (k : Nat → Prog Mem) : Prog Mem :=
  .op (fun s =>
    match (s.1 sid).difmap[mapcnt]? with
    | none => .ub
    | some m => .val (s, m)) k

/-- A store to `client->difmap[mapcnt]`. nbd-server.c 1624-1702. -/
def storeMap (sid mapcnt slot : Nat) (k : Prog Mem) : Prog Mem :=
  .op (fun s => .val (s.put sid { s.1 sid with difmap := (s.1 sid).difmap.set mapcnt slot }, ())) fun _ => k

/-- A load of `client->difffilelen`. nbd-server.c 1624-1702. -/
def loadLen (sid : Nat) (k : Nat → Prog Mem) : Prog Mem := .op (fun s => .val (s, (s.1 sid).difffilelen)) k

/-- A store to `client->difffilelen`. nbd-server.c 1624-1702. -/
def storeLen (sid n : Nat) (k : Prog Mem) : Prog Mem :=
  .op (fun s => .val (s.put sid { s.1 sid with difffilelen := n }, ())) fun _ => k

/-- nbd-server.c 1649-1650: the place for a new page. -/
def newSlot (sparse : Bool) (sid mapcnt : Nat) (k : Prog Mem) : Prog Mem :=
  if sparse then storeMap sid mapcnt (mapcnt % 2 ^ 32) k
  else loadLen sid fun l => storeLen sid ((l + 1) % 2 ^ 32) (storeMap sid mapcnt l k)

/-- nbd-server.c 1673: `write(2)` on the diff file. The kernel takes care that two of them do not use the same position. -/
def appendM (sid : Nat) (page : List Byte) (en : Nat) (k : Option Nat → Nat → Prog Mem) : Prog Mem :=
  .op (fun s =>
      match diffAppend (s.1 sid) { s.2 with errno := en } page with
      | (w, cl, r) => .val (((s.put sid cl).1, w), (r, w.errno)))
    (fun x => k x.1 x.2)

/-- nbd-server.c 1662-1668, as `pageIn`: one system call at a time. -/
def pageInM (ex : Export) (k : List (Option Byte) → Bool → Nat → Prog Mem) (pagebuf : List (Option Byte))
    (pagestart dn rdlen : Nat) (en : Nat) : Prog Mem :=
  if rdlen = 0 then k pagebuf true en
  else
    callM (fun w => rawexpread ex w pagestart rdlen) en fun r en =>
      match r with
      | none => k pagebuf false en
      | some [] => k pagebuf true en
      | some (b :: bs) =>
        pageInM ex k (bufSet pagebuf dn (b :: bs)) (pagestart + (b :: bs).length) (dn + (b :: bs).length)
          (rdlen - (b :: bs).length) en
termination_by rdlen
decreasing_by simp only [List.length_cons]; omega

/-- nbd-server.c 1639-1680, as `expwritePages`. -/
def writePagesM (cl : Client) (sid : Nat) (k : Bool → Nat → Prog Mem) :
    Nat → List (Option Byte) → (mapcnt a : Nat) → List Byte → Nat → Prog Mem
  | 0, _, _, _, _, en => k true en
  | n + 1, pagebuf, mapcnt, a, buf, en =>
    let offset := a - mapcnt * DIFFPAGESIZE
    let wrlen := pageLen offset buf.length
    loadMap sid mapcnt fun m =>
      if m ≠ NOPAGE then
        loadMap sid mapcnt fun m =>
          callM (fun w => .val (sysPwrite w (.fd cl.difffile) (diffOffset m offset) (buf.take wrlen))) en fun r en =>
            match r with
            | none => k false en
            | some x =>
              if x ≠ wrlen then k false en
              else writePagesM cl sid k n pagebuf (mapcnt + 1) (a + wrlen) (buf.drop wrlen) en
      else
        newSlot (has cl.ex.flags F_SPARSE) sid mapcnt
          (let put := fun pagebuf en =>
            match allInit (bufSet pagebuf offset (buf.take wrlen)) with
            | none => crash
            | some page =>
              appendM sid page en fun r en =>
                match r with
                | none => k false en
                | some x =>
                  if x ≠ DIFFPAGESIZE then k false en
                  else
                    writePagesM cl sid k n (bufSet pagebuf offset (buf.take wrlen)) (mapcnt + 1) (a + wrlen)
                      (buf.drop wrlen) en
          if offset ≠ 0 ∨ wrlen ≠ DIFFPAGESIZE then
            pageInM cl.ex (fun pagebuf ok en => if ok then put pagebuf en else k false en) pagebuf
              (mapcnt * DIFFPAGESIZE) 0 DIFFPAGESIZE en
          else put pagebuf en)

/-- nbd-server.c 1624-1692 `expwrite` on a copy-on-write export. -/
def expwriteM (cl : Client) (sid : Nat) (fua : Bool) (k : Bool → Nat → Prog Mem) (a : Nat) (buf : List Byte)
    (en : Nat) : Prog Mem :=
  writePagesM cl sid
    (fun ok en =>
      if ok then
        if has cl.ex.flags F_SYNC || fua then
          callM (fun w => .val (sysFsync w (.fd cl.difffile))) en fun _ en => k true en
        else k true en
      else k false en)
    (pageCount a buf.length) (List.replicate DIFFPAGESIZE none) (a / DIFFPAGESIZE) a buf en

/-- nbd-server.c 1704-1724 `expwrite_zeroes`. -/
def writeZeroesM (cl : Client) (sid : Nat) (fua : Bool) (k : Bool → Nat → Prog Mem) (a len : Nat) (en : Nat) :
    Prog Mem :=
  if len = 0 then k true en
  else
    let l := min len ZEROCHUNK
    expwriteM cl sid fua (fun ok en => if ok then writeZeroesM cl sid fua k a (len - l) en else k false en) a
      (Flat.zeros l) en
termination_by len
decreasing_by
  have : 0 < ZEROCHUNK := by decide
  omega

/-- nbd-server.c 1468-1483 `rawexpread_fully`, as `readFullyP`. -/
def readFullyM (e : Endian) (ex : Export) (cookie : List Byte) (lg : Bool) (k : ReadCtx → Bool → Nat → Prog Mem)
    (c : ReadCtx) (en : Nat) : Prog Mem :=
  if c.curLen = 0 then k c true en
  else
    callM (readOnce ex c) en fun r en =>
      match r with
      | none => k c false en
      | some (c', bs, n) =>
        let c'' := { c' with curOff := c.curOff + (n + 1), curLen := c.curLen - (n + 1) }
        if c.chunked then
          sendChunkP lg (dataMsg e cookie (c.start + c.curOff, bs)) (readFullyM e ex cookie lg k c'' en)
        else readFullyM e ex cookie lg k c'' en
termination_by c.curLen
decreasing_by all_goals omega

/-- nbd-server.c 1577-1585: a page in the diff file, `find_read_buf`, the `pread` and what `confirm_read` does to the context. -/
def readDiff (cl : Client) (c : ReadCtx) (off len : Nat) (w : World) : Out (World × Option (ReadCtx × List Byte)) :=
  match sysPread w (.fd cl.difffile) off len with
  | (w, none) => .val (w, none)
  | (w, some bs) =>
    match c.deliver bs with
    | .ub => .ub
    | .exit => .exit
    | .val c' => if bs.length ≠ len then .val (w, none) else .val (w, some (c', bs))

/-- nbd-server.c 1571-1601, as `expreadPages`. -/
def readPagesM (e : Endian) (cl : Client) (sid : Nat) (cookie : List Byte) (lg : Bool)
    (k : ReadCtx → Bool → Nat → Prog Mem) : Nat → ReadCtx → (mapcnt a len : Nat) → Nat → Prog Mem
  | 0, c, _, _, _, en => k c true en
  | n + 1, c, mapcnt, a, len, en =>
    let offset := a - mapcnt * DIFFPAGESIZE
    let rdlen := pageLen offset len
    loadMap sid mapcnt fun m =>
      if m ≠ NOPAGE then
        loadMap sid mapcnt fun m =>
          callM (readDiff cl c (diffOffset m offset) rdlen) en fun r en =>
            match r with
            | none => k c false en
            | some (c', bs) =>
              if c.chunked then
                sendChunkP lg (dataMsg e cookie (c.start + c.curOff, bs))
                  (readPagesM e cl sid cookie lg k n c' (mapcnt + 1) (a + rdlen) (len - rdlen) en)
              else readPagesM e cl sid cookie lg k n c' (mapcnt + 1) (a + rdlen) (len - rdlen) en
      else
        readFullyM e cl.ex cookie lg
          (fun c ok en =>
            if ok then readPagesM e cl sid cookie lg k n c (mapcnt + 1) (a + rdlen) (len - rdlen) en
            else k c false en)
          { c with curLen := rdlen } en

/-- nbd-server.c 2871-2913 `handle_normal_read` on a copy-on-write export. -/
def readM (e : Endian) (cl : Client) (sid : Nat) (lg : Bool) (r : Req) (en : Nat) : Prog Mem :=
  let df := has r.type CMD_FLAG_DF
  if cl.structured && df && decide (r.len > 1048576) then
    sendChunkP lg (chunkMsg e r.cookie REPLY_FLAG_DONE REPLY_TYPE_ERROR
      (UInt32.ofNat (6 + tooLong.length))
      (store32 e NBD_EOVERFLOW ++ store16 e (UInt16.ofNat tooLong.length) ++ tooLong)) (.done en)
  else
    readPagesM e cl sid r.cookie lg
      (fun c ok en => completeReadP e lg c r.cookie (if ok then none else some (nbdErrno e en)) en)
      (pageCount r.start r.len)
      { start := r.start, reqLen := r.len, structured := cl.structured, df := df
        buf := if df || !cl.structured then List.replicate r.len none else []
        curOff := 0, curLen := r.len, chunks := [] }
      (r.start / DIFFPAGESIZE) r.start r.len en

/-- The reply of the handlers that send no data. nbd-server.c 2929-3005. -/
def answerM (e : Endian) (lg : Bool) (r : Req) (ok : Bool) (en : Nat) : Prog Mem :=
  sendReplyP lg (simpleMsg e r (if ok then none else some (nbdErrno e en))) (.done en)

/-- nbd-server.c 3025-3093 `handle_request` in session `sid` on a copy-on-write export (without splice); `cl` has the settings of
the session. -/
def cowP (e : Endian) (cl : Client) (sid : Nat) (lg : Bool) (en : Nat) (r : Req) (p : Payload) : Prog Mem :=
  let type := r.type % 65536
  let flags := r.type - r.type % 65536
  let refuse := fun n => sendReplyP lg (simpleMsg e r (some (nbdErrno e n))) (.done en)
  if flags / 65536 / 4 ≠ 0 then refuse EINVAL
  else if type = CMD_READ then
    if badRange cl r then refuse EINVAL
    else readM e cl sid lg r en
  else if type = CMD_WRITE then
    if badWrite cl then refuse EPERM
    else if badRange cl r then refuse ENOSPC
    else
      match p with
      | .data bs => expwriteM cl sid (has r.type CMD_FLAG_FUA) (answerM e lg r) r.start bs en
      | .pipe _ => crash
      | .nothing => crash
  else if type = CMD_FLUSH then
    callM (fun w => .val (sysFsync w (.fd cl.difffile))) en (answerM e lg r)
  else if type = CMD_TRIM then
    if badWrite cl then refuse EPERM
    else if badRange cl r then refuse EINVAL
    else if has cl.ex.flags F_READONLY then .op (α := Unit) (fun _ => .exit) (fun _ => .done en)
    else if ¬ (r.start + r.len) % 2 ^ 64 ≤ cl.ex.exportsize then
      .op (α := Unit) (fun _ => .exit) (fun _ => .done en)
    else answerM e lg r true en
  else if type = CMD_WRITE_ZEROES then
    if badWrite cl then refuse EPERM
    else if badRange cl r then refuse ENOSPC
    else writeZeroesM cl sid (has r.type CMD_FLAG_FUA) (answerM e lg r) r.start r.len en
  else refuse EINVAL

/-- Session `sid` on a copy-on-write export: every system call and every access to the page map is a step. nbd-server.c 3025-3152 with 1557-1702. -/
def cowServer (e : Endian) (cl : Client) (sid : Nat) (lg : Bool) : Server Mem where
  e := e
  cl := cl
  logging := lg
  take := fun s stream =>
    match fetch e cl s.2 stream with
    | .ub => .ub
    | .exit => .exit
    | .val (w, f) => .val ((s.1, w), f)
  code := cowP e cl sid lg

end Nbd
