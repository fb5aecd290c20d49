import Verif.World
/-!
# Tree exports: `treefiles.c`
-/

namespace Nbd

/-- treefiles.h: number of entries per directory. -/
def TREEDIRSIZE : Nat := 1024
/-- treefiles.h: bytes per block file. -/
def TREEPAGESIZE : Nat := 4096
/-- limits.h (Linux). -/
def PATH_MAX : Nat := 4096

/-- One upper-case hexadecimal digit. For the format of treefiles.c 17-32. -/
def hexDigit (v : Nat) : Char :=
  ['0', '1', '2', '3', '4', '5', '6', '7', '8', '9', 'A', 'B', 'C', 'D', 'E', 'F'][v % 16]'(by
    have : v % 16 < 16 := Nat.mod_lt _ (by omega)
    simpa using this)

/-- `printf("%04X", v)` for `v < 65536` (the code only prints values below 1024). -/
def hex4 (v : Nat) : List Char :=
  [hexDigit (v / 4096), hexDigit (v / 256), hexDigit (v / 16), hexDigit v]

/-- treefiles.c 17-32 `construct_path`.  `lenmax` is the room left in the caller's buffer,
`none` is the call of `err()` (process exit).  The result is the characters placed at `name`
(without the terminating NUL that line 23 adds) and the value left in `*ppos`. -/
def constructPath (lenmax : Int) (size pos : Nat) : Option (List Char × Nat) :=
  if lenmax < 10 then none
  else if size < TREEDIRSIZE * TREEPAGESIZE then
    some ("/FILE".toList ++ hex4 ((pos / TREEPAGESIZE) % TREEDIRSIZE),
      pos / (TREEPAGESIZE * TREEDIRSIZE))
  else
    match constructPath (lenmax - 9) (size / TREEDIRSIZE) pos with
    | none => none
    | some (rest, ppos) =>
      some ("/TREE".toList ++ hex4 (ppos % TREEDIRSIZE) ++ rest, ppos / TREEDIRSIZE)
termination_by size
decreasing_by
  simp only [TREEDIRSIZE, TREEPAGESIZE] at *
  omega

/-- treefiles.c 61-67 / 34-40: the file name built in the `char filename[PATH_MAX]` buffer.
`none` is process exit. When `strlen(name) ≥ PATH_MAX` the room passed is negative (size_t
wrap-around converted to int), so `construct_path` exits before anything is written. -/
def treeFilename (name : List Char) (size pos : Nat) : Option (List Char) :=
  match constructPath ((PATH_MAX : Int) - name.length - 1) size pos with
  | none => none
  | some (p, _) => some (name ++ p)

/-- Opening a block file can give a usable handle on a stored file, a handle on an anonymous
dummy file full of zeroes (read-only exports, treefiles.c 85-96), or -1. -/
inductive Handle where
  | file (id : FileId)
  | dummy
  | bad
deriving DecidableEq, Repr

/-- treefiles.c 61-107 `open_treefile`.  `rdwr` is `mode & O_RDWR`.  Simplifications: the
directory creation `mkdir_path` and the `open(O_CREAT)` are one oracle step; `lseek` does not
fail; the mutex is dealt with in the scheduling model. -/
def openTreefile (w : World) (name : List Char) (rdwr : Bool) (size pos : Nat) :
    Out (World × Handle) :=
  match treeFilename name size pos with
  | none => .exit
  | some p =>
    match w.files (.path p) with
    | some _ =>
      match w.next with
      | .done _ => .val (w.step, .file (.path p))
      | .err e => .val (w.fail e, .bad)
    | none =>
      match w.next with
      | .err e => .val (w.fail e, .bad)          -- some failure other than ENOENT
      | .done _ =>                                -- ENOENT
        let w := w.fail ENOENT
        if rdwr then
          match w.next with
          | .err _ => .exit
          | .done _ =>
            -- created with size 0, then one NUL byte is written at TREEPAGESIZE-1
            let w := w.step.create p (File.clean (fun _ => 0) 0)
            match w.next with
            | .err _ => .exit
            | .done 0 => .exit
            | .done (_ + 1) =>
              .val ((w.step).set (.path p)
                ((File.clean (fun _ => 0) 0).pwrite (TREEPAGESIZE - 1) [0]), .file (.path p))
        else
          match w.next with
          | .err _ => .exit
          | .done _ => .val (w.step, .dummy)

/-- treefiles.c 34-46 `delete_treefile`: failure of `unlink` is ignored. -/
def deleteTreefile (w : World) (name : List Char) (size pos : Nat) : Out World :=
  match treeFilename name size pos with
  | none => .exit
  | some p =>
    match w.next with
    | .err e => .val (w.fail e)
    | .done _ => .val (w.step.remove p)

end Nbd
