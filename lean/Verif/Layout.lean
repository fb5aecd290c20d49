import Verif.Tree
/-!
# Where export bytes live: `get_filepos`, `setupexport`, `size_autodetect`
-/

namespace Nbd

/-! ### Export flags (nbdsrv.h 152-171) -/
/-- nbdsrv.h 153 `F_READONLY`. -/
def F_READONLY : Nat := 1
/-- nbdsrv.h 154 `F_MULTIFILE`. -/
def F_MULTIFILE : Nat := 2
/-- nbdsrv.h 155 `F_COPYONWRITE`. -/
def F_COPYONWRITE : Nat := 4
/-- nbdsrv.h 157 `F_AUTOREADONLY`. -/
def F_AUTOREADONLY : Nat := 8
/-- nbdsrv.h 158 `F_SPARSE`. -/
def F_SPARSE : Nat := 16
/-- nbdsrv.h 159 `F_SDP`. -/
def F_SDP : Nat := 32
/-- nbdsrv.h 160 `F_SYNC`. -/
def F_SYNC : Nat := 64
/-- nbdsrv.h 161 `F_FLUSH`. -/
def F_FLUSH : Nat := 128
/-- nbdsrv.h 162 `F_FUA`. -/
def F_FUA : Nat := 256
/-- nbdsrv.h 163 `F_ROTATIONAL`. -/
def F_ROTATIONAL : Nat := 512
/-- nbdsrv.h 164 `F_TEMPORARY`. -/
def F_TEMPORARY : Nat := 1024
/-- nbdsrv.h 165 `F_TRIM`. -/
def F_TRIM : Nat := 2048
/-- nbdsrv.h 166 `F_FIXED`. -/
def F_FIXED : Nat := 4096
/-- nbdsrv.h 167 `F_TREEFILES`. -/
def F_TREEFILES : Nat := 8192
/-- nbdsrv.h 168 `F_FORCEDTLS`. -/
def F_FORCEDTLS : Nat := 16384
/-- nbdsrv.h 169 `F_SPLICE`. -/
def F_SPLICE : Nat := 32768
/-- nbdsrv.h 170 `F_WAIT`. -/
def F_WAIT : Nat := 65536
/-- nbdsrv.h 171 `F_DATALOG`. -/
def F_DATALOG : Nat := 131072

/-- The C test `flags & mask`. -/
def has (flags mask : Nat) : Bool := flags &&& mask != 0

/-- nbdsrv.h `FILE_INFO`. -/
structure FileInfo where
  fhandle : Nat
  startoff : Nat
deriving DecidableEq, Repr

/-- The part of CLIENT/SERVER (nbdsrv.h) the backing-store code uses. `files` is
`client->export` (empty for tree exports, where it is NULL). -/
structure Export where
  flags : Nat
  exportsize : Nat
  files : List FileInfo
  name : List Char
deriving DecidableEq, Repr

/-- nbd-server.c 1159-1173: the binary search of `get_filepos`. Returns the final value of
`end`; `none` is an out-of-range array index. -/
def bsearch (files : List FileInfo) (a : Nat) (start fin : Int) : Option Int :=
  if start ≤ fin then
    let mid := (start + fin) / 2
    if mid < 0 then none
    else
      match files[mid.toNat]? with
      | none => none
      | some fi =>
        if fi.startoff < a then bsearch files a (mid + 1) fin
        else if fi.startoff > a then bsearch files a start (mid - 1)
        else some mid
  else some fin
termination_by (fin + 1 - start).toNat
decreasing_by all_goals omega

/-- nbd-server.c 1142-1187 `get_filepos`. `a` is the 64-bit representation of the `off_t`
argument, so `2^63 ≤ a` is the "negative offset" case. Result: file handle, offset in that
file, and the byte limit (0 = no limit). `Out.exit` is the failed `assert`. -/
def getFilepos (ex : Export) (w : World) (a : Nat) : Out (World × Option (Handle × Nat × Nat)) :=
  if 2 ^ 63 ≤ a then .val (w, none)
  else if has ex.flags F_TREEFILES then
    match openTreefile w ex.name (!has ex.flags F_READONLY) ex.exportsize a with
    | .val (w, h) =>
      .val (w, some (h, a % TREEPAGESIZE, ((1 + a / TREEPAGESIZE) * TREEPAGESIZE) - a))
    | .ub => .ub
    | .exit => .exit
  else
    match bsearch ex.files a 0 ((ex.files.length : Int) - 1) with
    | none => .ub
    | some e =>
      if e < 0 then .exit
      else
        match ex.files[e.toNat]? with
        | none => .ub
        | some fi =>
          match ex.files[e.toNat + 1]? with
          | none => .val (w, some (.file (.fd fi.fhandle), a - fi.startoff, 0))
          | some nx => .val (w, some (.file (.fd fi.fhandle), a - fi.startoff, nx.startoff - a))

/-! ### Setting up the export -/

/-- What the kernel says about one backing file: whether it can be opened for writing and for
reading, and what the three size probes report. -/
structure ProbeFile where
  fd : Nat
  canWrite : Bool
  canRead : Bool
  blkSize : Option Nat       -- BLKGETSIZE64 result, if the ioctl works
  stat : Option (Bool × Nat) -- (is regular, st_size), if fstat works
  seekEnd : Nat              -- lseek(SEEK_END), 0 if it fails
deriving DecidableEq, Repr

/-- nbdsrv.c 229-268 `size_autodetect`: the block device size, else the `stat` size (believed
when regular or positive), else the `lseek` end position when positive, else `UINT64_MAX`. -/
def sizeAutodetect (p : ProbeFile) : Nat :=
  match p.blkSize with
  | some (b + 1) => b + 1
  | _ =>
    match p.stat with
    | some (true, s) => s
    | some (false, s + 1) => s + 1
    | _ => if p.seekEnd > 0 then p.seekEnd else 2 ^ 64 - 1

/-- nbd-server.c 2049-2072: opening one backing file. `none` is a failed open, otherwise the
server flags afterwards (a writable open that fails is retried read-only and marks the export
auto-read-only, unless it is copy-on-write). -/
def openOne (flags : Nat) (cancreate : Bool) (p : ProbeFile) : Option Nat :=
  if has flags F_READONLY then (if p.canRead then some flags else none)
  else if p.canWrite then some flags
  else if !cancreate && p.canRead then
    some (if has flags F_COPYONWRITE then flags else flags ||| F_AUTOREADONLY ||| F_READONLY)
  else none

/-- nbd-server.c 2042-2107: the loop that opens the backing files; `probes` describes the files
that exist, in order.  Returns the server flags, the FILE_INFO array, `laststartoff` and
`lastsize` (`off_t` arithmetic is modelled modulo 2^64).  `none` is the failure return.
Simplifications: `ftruncate` of a newly created file succeeds; a temporary file is a probe of
size 0. -/
def openLoop (multi : Bool) (expected : Nat) :
    List ProbeFile → Nat → Nat → List FileInfo → Nat → Nat →
      Option (Nat × List FileInfo × Nat × Nat)
  | [], i, flags, acc, lso, ls => if multi && i > 0 then some (flags, acc, lso, ls) else none
  | p :: ps, i, flags, acc, lso, ls =>
    let cancreate := expected != 0 && !multi && i == 0
    match openOne flags cancreate p with
    | none => if multi && i > 0 then some (flags, acc, lso, ls) else none
    | some flags =>
      let startoff := (lso + ls) % 2 ^ 64
      let acc := acc ++ [⟨p.fd, startoff⟩]
      let size := sizeAutodetect p
      if size == 0 && cancreate then some (flags, acc, startoff, expected)
      else if !multi then some (flags, acc, startoff, size)
      else openLoop multi expected ps (i + 1) flags acc startoff size

/-- nbd-server.c 2018-2140 `setupexport` (without the start of the waiting thread, see
`Verif.Wait`).  `none` is the failure return. -/
def setupExport (flags expected : Nat) (name : List Char) (probes : List ProbeFile) :
    Option Export :=
  if has flags F_TREEFILES || has flags F_WAIT then
    some ⟨flags, expected, [], name⟩
  else
    match openLoop (has flags F_MULTIFILE) expected probes 0 flags [] 0 0 with
    | none => none
    | some (flags, files, lso, ls) =>
      let total := (lso + ls) % 2 ^ 64
      if expected != 0 then
        if expected > total then none else some ⟨flags, expected, files, name⟩
      else some ⟨flags, total, files, name⟩

end Nbd
