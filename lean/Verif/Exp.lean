import Verif.Raw
/-!
# The export operations: `expread`, `expwrite`, `expwrite_zeroes`, `expflush`, `exptrim`,
`expsplice`, including the copy-on-write and wait-file branches
-/

namespace Nbd

/-- nbd-server.c 192. -/
def DIFFPAGESIZE : Nat := 4096

/-- `(u32)(-1)`, the "page not in the diff file" mark. -/
def NOPAGE : Nat := 2 ^ 32 - 1

/-- nbd-server.c 212. -/
def MAX_PIPE_SIZE : Nat := 1024 * 1024

/-- nbdsrv.h `CLIENT`, the part used after negotiation. `waiting` is
`(server->flags & F_WAIT) && client->export == NULL`; `difffile` is the descriptor of the diff
file, `diffpos` its file position. -/
structure Client where
  ex : Export
  waiting : Bool
  difmap : List Nat
  difffilelen : Nat
  difffile : Nat
  diffpos : Nat
  structured : Bool
  tls : Bool
deriving DecidableEq, Repr

/-- Is the page map in use? nbd-server.c 1566, 1634. -/
def Client.paged (cl : Client) : Bool := has cl.ex.flags F_COPYONWRITE || cl.waiting

/-- nbd-server.c 1569, 1637: index of the last page, `(a+len-1)/DIFFPAGESIZE` in unsigned 64-bit
arithmetic (so `a = len = 0` wraps around). -/
def lastPage (a len : Nat) : Nat := ((a + len + (2 ^ 64 - 1)) % 2 ^ 64) / DIFFPAGESIZE

/-- Number of iterations of `for (mapcnt=mapl;mapcnt<=maph;mapcnt++)`. nbd-server.c 1573 and 1643. -/
def pageCount (a len : Nat) : Nat := lastPage a len + 1 - a / DIFFPAGESIZE

/-- nbd-server.c 1574-1575, 1642-1643: bytes handled in the current page. -/
def pageLen (offset len : Nat) : Nat :=
  if len < DIFFPAGESIZE - offset then len else DIFFPAGESIZE - offset

/-- nbd-server.c 1582, 1650: position in the diff file; the product is computed in 32 bits. -/
def diffOffset (m offset : Nat) : Nat := (m * DIFFPAGESIZE) % 2 ^ 32 + offset

/-- nbd-server.c 1571-1601: the page loop of `expread` with `n` pages to go. -/
def expreadPages (cl : Client) : Nat → World → ReadCtx → (mapcnt a len : Nat) →
    Out (World × ReadCtx × Bool)
  | 0, w, c, _, _, _ => .val (w, c, true)
  | n + 1, w, c, mapcnt, a, len =>
    let offset := a - mapcnt * DIFFPAGESIZE
    let rdlen := pageLen offset len
    match cl.difmap[mapcnt]? with
    | none => .ub
    | some m =>
      if m ≠ NOPAGE then
        match sysPread w (.fd cl.difffile) (diffOffset m offset) rdlen with
        | (w, none) => .val (w, c, false)
        | (w, some bs) =>
          match c.deliver bs with
          | .ub => .ub
          | .exit => .exit
          | .val c' =>
            if bs.length ≠ rdlen then .val (w, c, false)
            else expreadPages cl n w c' (mapcnt + 1) (a + rdlen) (len - rdlen)
      else if cl.waiting then .val (w, c, false)
      else
        match rawexpreadFully cl.ex w { c with curLen := rdlen } with
        | .ub => .ub
        | .exit => .exit
        | .val (w, c, false) => .val (w, c, false)
        | .val (w, c, true) => expreadPages cl n w c (mapcnt + 1) (a + rdlen) (len - rdlen)

/-- nbd-server.c 1557-1610 `expread`; the Boolean is `true` on success. -/
def expread (cl : Client) (w : World) (c : ReadCtx) : Out (World × ReadCtx × Bool) :=
  if cl.paged then
    expreadPages cl (pageCount (c.start + c.curOff) c.reqLen) w c
      ((c.start + c.curOff) / DIFFPAGESIZE) (c.start + c.curOff) c.reqLen
  else rawexpreadFully cl.ex w c

/-- nbd-server.c 1662-1668: fill the page buffer from the original file(s), `rdlen` bytes to go
at `pagebuf + done`. `false` is the `ret < 0` case; end of file just stops. -/
def pageIn (ex : Export) (w : World) (pagebuf : List (Option Byte)) (pagestart done rdlen : Nat) :
    Out (World × List (Option Byte) × Bool) :=
  if rdlen = 0 then .val (w, pagebuf, true)
  else
    match rawexpread ex w pagestart rdlen with
    | .ub => .ub
    | .exit => .exit
    | .val (w, none) => .val (w, pagebuf, false)
    | .val (w, some []) => .val (w, pagebuf, true)
    | .val (w, some (b :: bs)) =>
      pageIn ex w (bufSet pagebuf done (b :: bs)) (pagestart + (b :: bs).length)
        (done + (b :: bs).length) (rdlen - (b :: bs).length)
termination_by rdlen
decreasing_by simp only [List.length_cons]; omega

/-- All bytes of a buffer, if all are initialised. Models no code of its own. -/
def allInit (buf : List (Option Byte)) : Option (List Byte) :=
  if buf.all Option.isSome then some (buf.map fun b => b.getD 0) else none

/-- nbd-server.c 1673: `write(2)` on the diff file at its file position. -/
def diffAppend (cl : Client) (w : World) (bs : List Byte) : World × Client × Option Nat :=
  match sysPwrite w (.fd cl.difffile) cl.diffpos bs with
  | (w, none) => (w, cl, none)
  | (w, some n) => (w, { cl with diffpos := cl.diffpos + n }, some n)

/-- nbd-server.c 1639-1680: the page loop of `expwrite` with `n` pages to go. The page buffer is
one stack array shared by all iterations. Writing indeterminate bytes of it to the diff file is
reported as undefined behaviour. -/
def expwritePages : Nat → Client → World → List (Option Byte) → (mapcnt a : Nat) → List Byte →
    Out (Client × World × Bool)
  | 0, cl, w, _, _, _, _ => .val (cl, w, true)
  | n + 1, cl, w, pagebuf, mapcnt, a, buf =>
    let offset := a - mapcnt * DIFFPAGESIZE
    let wrlen := pageLen offset buf.length
    match cl.difmap[mapcnt]? with
    | none => .ub
    | some m =>
      if m ≠ NOPAGE then
        match sysPwrite w (.fd cl.difffile) (diffOffset m offset) (buf.take wrlen) with
        | (w, none) => .val (cl, w, false)
        | (w, some k) =>
          if k ≠ wrlen then .val (cl, w, false)
          else expwritePages n cl w pagebuf (mapcnt + 1) (a + wrlen) (buf.drop wrlen)
      else
        let sparse := has cl.ex.flags F_SPARSE
        let slot := if sparse then mapcnt % 2 ^ 32 else cl.difffilelen
        let cl := { cl with
          difmap := cl.difmap.set mapcnt slot
          difffilelen := if sparse then cl.difffilelen else (cl.difffilelen + 1) % 2 ^ 32 }
        let partialPage := offset ≠ 0 ∨ wrlen ≠ DIFFPAGESIZE
        if partialPage ∧ cl.waiting = true then .val (cl, w, false)
        else
          let filled :=
            if partialPage then pageIn cl.ex w pagebuf (mapcnt * DIFFPAGESIZE) 0 DIFFPAGESIZE
            else .val (w, pagebuf, true)
          match filled with
          | .ub => .ub
          | .exit => .exit
          | .val (w, _, false) => .val (cl, w, false)
          | .val (w, pagebuf, true) =>
            let pagebuf := bufSet pagebuf offset (buf.take wrlen)
            match allInit pagebuf with
            | none => .ub
            | some page =>
              match diffAppend cl w page with
              | (w, cl, none) => .val (cl, w, false)
              | (w, cl, some k) =>
                if k ≠ DIFFPAGESIZE then .val (cl, w, false)
                else expwritePages n cl w pagebuf (mapcnt + 1) (a + wrlen) (buf.drop wrlen)

/-- nbd-server.c 1624-1692 `expwrite`; the Boolean is `true` on success. -/
def expwrite (cl : Client) (w : World) (a : Nat) (buf : List Byte) (fua : Bool) :
    Out (Client × World × Bool) :=
  if cl.paged then
    match expwritePages (pageCount a buf.length) cl w (List.replicate DIFFPAGESIZE none)
        (a / DIFFPAGESIZE) a buf with
    | .ub => .ub
    | .exit => .exit
    | .val (cl, w, false) => .val (cl, w, false)
    | .val (cl, w, true) =>
      if has cl.ex.flags F_SYNC || fua then .val (cl, (sysFsync w (.fd cl.difffile)).1, true)
      else .val (cl, w, true)
  else
    match rawexpwriteFully cl.ex w a buf fua with
    | .ub => .ub
    | .exit => .exit
    | .val (w, ok) => .val (cl, w, ok)

/-- nbd-server.c 1707: chunk size of `expwrite_zeroes`. -/
def ZEROCHUNK : Nat := 64 * 1024 * 1024

/-- nbd-server.c 1704-1724 `expwrite_zeroes`. The offset `a` is *not* advanced in the loop.
(`calloc` failure is not modelled.) -/
def expwriteZeroes (cl : Client) (w : World) (a len : Nat) (fua : Bool) :
    Out (Client × World × Bool) :=
  if len = 0 then .val (cl, w, true)
  else
    let l := min len ZEROCHUNK
    match expwrite cl w a (Flat.zeros l) fua with
    | .ub => .ub
    | .exit => .exit
    | .val (cl, w, false) => .val (cl, w, false)
    | .val (cl, w, true) => expwriteZeroes cl w a (len - l) fua
termination_by len
decreasing_by
  have : 0 < ZEROCHUNK := by decide
  omega

/-- nbd-server.c 1750-1755: `fsync` every backing file, stop at the first failure. -/
def flushFiles : List FileInfo → World → World × Bool
  | [], w => (w, true)
  | fi :: rest, w =>
    match sysFsync w (.fd fi.fhandle) with
    | (w, false) => (w, false)
    | (w, true) => flushFiles rest w

/-- nbd-server.c 1732-1758 `expflush`; `true` on success. `sync(2)` for tree exports makes every
file and directory durable (it has no error return). -/
def expflush (cl : Client) (w : World) : World × Bool :=
  if has cl.ex.flags F_COPYONWRITE then sysFsync w (.fd cl.difffile)
  else if has cl.ex.flags F_WAIT then sysFsync w (.fd cl.difffile)
  else if has cl.ex.flags F_TREEFILES then
    if has cl.ex.flags F_READONLY then (w, true)
    else ({ w.step with files := fun id => (w.files id).map File.sync, old := fun _ => [] }, true)
  else flushFiles cl.ex.files w

/-- nbd-server.c 1760-1793 `punch_hole` on a file: refused for a non-positive length or negative
offset (fallocate(2): EINVAL; BLKDISCARD likewise), otherwise the kernel either does nothing
(not supported) or zeroes the part of the range inside the file (`FALLOC_FL_KEEP_SIZE`). -/
def punchHole (w : World) (id : FileId) (off len : Int) : World :=
  if off < 0 ∨ len ≤ 0 then w.fail EINVAL
  else
    match w.files id with
    | none => w.fail EBADF
    | some f =>
      match w.next with
      | .err e => w.fail e
      | .done _ =>
        let n := min len.toNat (f.size - off.toNat)
        w.step.set id { f.pwrite off.toNat (Flat.zeros n) with size := f.size }

/-- nbdsrv.c 293-304: one turn of the loop over the files of a multi-file export. As in the
source, the length handed to `punch_hole` is computed from the *next* file's start minus twice
the offset within the current one. -/
def trimOne (files : List FileInfo) (exportsize start len : Nat) (w : World) (cur : FileInfo)
    (i : Nat) : World :=
  let nextStart := match files[i]? with
    | some nx => nx.startoff
    | none => exportsize
  if cur.startoff ≤ start ∧ (nextStart : Int) - cur.startoff ≥ len then
    let reqoff : Int := (start : Int) - cur.startoff
    let curlen : Int := (nextStart : Int) - reqoff
    let reqlen : Int := if curlen - reqoff > len then len else curlen - reqoff
    punchHole w (.fd cur.fhandle) reqoff reqlen
  else w

/-- nbdsrv.c 291-311: the file loop of `exptrim`; `i` is the index of the next file, `cur` the
current one. All arithmetic is signed 64 bit as in C; the comparison `cur.startoff <= req->from`
is unsigned. -/
def trimFiles (files : List FileInfo) (exportsize start len : Nat) : Nat → World → FileInfo →
    Nat → World
  | 0, w, _, _ => w
  | n + 1, w, cur, i =>
    let w := trimOne files exportsize start len w cur i
    match files[i]? with
    | none => w
    | some nx =>
      if i + 1 < files.length ∧ nx.startoff < start + len then
        trimFiles files exportsize start len n w nx (i + 1)
      else w

/-- nbdsrv.c 281-287: delete every block file wholly inside the range; `n` blocks to go. -/
def trimTree (ex : Export) : Nat → World → Nat → Out World
  | 0, w, _ => .val w
  | n + 1, w, pos =>
    match deleteTreefile w ex.name ex.exportsize pos with
    | .ub => .ub
    | .exit => .exit
    | .val w => trimTree ex n w (pos + TREEPAGESIZE)

/-- nbdsrv.c 270-313 `exptrim`. It always returns 0. `Out.exit` is a failed assertion, `Out.ub`
the use of a NULL (or empty) file array. -/
def exptrim (cl : Client) (w : World) (start len : Nat) : Out World :=
  if has cl.ex.flags F_READONLY then .exit
  else if ¬ (start + len) % 2 ^ 64 ≤ cl.ex.exportsize then .exit
  else if has cl.ex.flags F_COPYONWRITE then .val w
  else if has cl.ex.flags F_TREEFILES then
    let lo := (start + TREEPAGESIZE - 1) / TREEPAGESIZE
    let hi := (start + len) / TREEPAGESIZE
    trimTree cl.ex (hi - lo) w (lo * TREEPAGESIZE)
  else
    match cl.ex.files with
    | [] => .ub
    | cur :: _ =>
      .val (trimFiles cl.ex.files cl.ex.exportsize start len cl.ex.files.length w cur 1)

/-! ### Splicing (nbd-server.c 1486-1544) -/

/-- nbd-server.c 1486-1521 + 1534-1544, direction SPLICE_IN: move `len` bytes at `a` into the
pipe. Result: bytes in the pipe and success. -/
def expspliceIn (ex : Export) (w : World) (a len : Nat) (pipe : List Byte) :
    Out (World × List Byte × Bool) :=
  if len = 0 then .val (w, pipe, true)
  else
    match rawexpread ex w a len with   -- splice(fhandle,&foffset,pipe) moves file bytes like pread
    | .ub => .ub
    | .exit => .exit
    | .val (w, none) => .val (w, pipe, false)
    | .val (w, some []) => .val (w, pipe, false)
    | .val (w, some (b :: bs)) =>
      expspliceIn ex w (a + (b :: bs).length) (len - (b :: bs).length) (pipe ++ (b :: bs))
termination_by len
decreasing_by simp only [List.length_cons]; omega

/-- Direction SPLICE_OUT: move the pipe's contents to the file(s). `splice(pipe, fhandle)` moves
file bytes like `pwrite`. nbd-server.c 1486-1555. -/
def expspliceOut (ex : Export) (w : World) (a len : Nat) (pipe : List Byte) (fua : Bool) :
    Out (World × Bool) :=
  if len = 0 then .val (w, true)
  else
    match rawexpwrite ex w a (pipe.take len) fua with
    | .ub => .ub
    | .exit => .exit
    | .val (w, none) => .val (w, false)
    | .val (w, some 0) => .val (w, false)
    | .val (w, some (n + 1)) =>
      expspliceOut ex w (a + (n + 1)) (len - (n + 1)) (pipe.drop (n + 1)) fua
termination_by len
decreasing_by omega

end Nbd
