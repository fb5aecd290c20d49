import Verif.Store
/-!
# The environment: files, system calls, process outcomes

Files live in the kernel.  Each file has its current contents (what `pread`
returns), its size, and, for every byte, the list of older values that may
reappear after a crash because they have not been made obsolete by a
successful sync.  System call results are chosen by an arbitrary oracle
`orc : Nat → Kr`, one entry per call, so theorems quantify over every pattern
of partial transfers and failures.
-/

namespace Nbd

/-- Outcome of running a piece of C code: a value, undefined behaviour, or
termination of the process (`err()`, `nbd_err`, `assert`, `exit`). (C, and cliserv.c 75-85.) -/
inductive Out (α : Type) where
  | val (a : α)
  | ub
  | exit
deriving DecidableEq, Repr

namespace Out
/-- Sequencing. -/
protected def bind {α β : Type} (x : Out α) (f : α → Out β) : Out β :=
  match x with
  | .val a => f a
  | .ub => .ub
  | .exit => .exit

instance : Monad Out where
  pure := .val
  bind := Out.bind

@[simp] theorem pure_eq {α} (a : α) : (pure a : Out α) = .val a := rfl
@[simp] theorem val_bind {α β} (a : α) (f : α → Out β) : (Out.val a >>= f) = f a := rfl
@[simp] theorem ub_bind {α β} (f : α → Out β) : ((Out.ub : Out α) >>= f) = .ub := rfl
@[simp] theorem exit_bind {α β} (f : α → Out β) : ((Out.exit : Out α) >>= f) = .exit := rfl
end Out

/-- A regular file (or block device) as the kernel sees it. (Kernel; what nbd-server.c and treefiles.c work on.) -/
structure File where
  /-- current contents (page cache) -/
  data : Flat
  /-- current size -/
  size : Nat
  /-- for each byte, older values that may reappear after a crash -/
  hist : Nat → List Byte

/-- A file whose contents are all on stable storage. (Kernel; models no code of /repo.) -/
def File.clean (data : Flat) (size : Nat) : File := ⟨data, size, fun _ => []⟩

/-- `g` is a possible content of the file after a crash. (Kernel; models no code of /repo.) -/
def File.CanCrashTo (f : File) (g : Flat) : Prop := ∀ i, g i = f.data i ∨ g i ∈ f.hist i

/-- Bytes delivered by `pread(2)` when the kernel is willing to transfer at most `cap`
bytes: never beyond the end of the file, never more than asked. (Kernel; models no code of /repo.) -/
def File.pread (f : File) (off len cap : Nat) : List Byte :=
  f.data.read off (min cap (min len (f.size - off)))

/-- Effect of `pwrite(2)` of `bs` at `off`. (Kernel; models no code of /repo.) -/
def File.pwrite (f : File) (off : Nat) (bs : List Byte) : File where
  data := f.data.write off bs
  size := if bs = [] then f.size else max f.size (off + bs.length)
  hist := fun i => if off ≤ i ∧ i < off + bs.length then f.data i :: f.hist i else f.hist i

/-- Effect of a successful `fsync(2)`/`fdatasync(2)`: no older value can reappear. (Kernel; models no code of /repo.) -/
def File.sync (f : File) : File := { f with hist := fun _ => [] }

/-- How a file is named: an already open descriptor, or a path (tree exports open files on
demand, treefiles.c). -/
inductive FileId where
  | fd (n : Nat)
  | path (p : List Char)
deriving DecidableEq, Repr

/-- Kernel's choice for one system call: transfer at most `n` bytes (or just succeed), or
fail with an errno. (Kernel; models no code of /repo.) -/
inductive Kr where
  | done (n : Nat)
  | err (errno : Nat)
deriving DecidableEq, Repr

/-- The world outside the process. `old p` lists older states of the directory entry `p` that may reappear after a crash:
creating and removing a file changes a directory, and `fsync` on the file itself does not make that change permanent
(fsync(2)). (Kernel; models no code of /repo.) -/
structure World where
  files : FileId → Option File
  orc : Nat → Kr
  tick : Nat
  errno : Nat
  old : List Char → List (Option File) := fun _ => []

namespace World

/-- The kernel's choice for the next system call. (Kernel; models no code of /repo.) -/
def next (w : World) : Kr := w.orc w.tick

/-- Account for one system call that succeeded. (Kernel; models no code of /repo.) -/
def step (w : World) : World := { w with tick := w.tick + 1 }

/-- Account for one system call that failed with `e`. (Kernel; models no code of /repo.) -/
def fail (w : World) (e : Nat) : World := { w with tick := w.tick + 1, errno := e }

/-- Replace one file. (Kernel; models no code of /repo.) -/
def set (w : World) (id : FileId) (f : File) : World :=
  { w with files := fun j => if j = id then some f else w.files j }

/-- Create a file in a directory. (Kernel; models no code of /repo.) -/
def create (w : World) (p : List Char) (f : File) : World :=
  { w with
    files := fun j => if j = .path p then some f else w.files j
    old := fun q => if q = p then w.files (.path p) :: w.old p else w.old q }

/-- Remove one file from its directory. (Kernel; models no code of /repo.) -/
def remove (w : World) (p : List Char) : World :=
  { w with
    files := fun j => if j = .path p then none else w.files j
    old := fun q => if q = p then w.files (.path p) :: w.old p else w.old q }

@[simp] theorem step_files (w : World) : w.step.files = w.files := rfl
@[simp] theorem fail_files (w : World) (e : Nat) : (w.fail e).files = w.files := rfl
@[simp] theorem set_files_same (w : World) (id : FileId) (f : File) :
    (w.set id f).files id = some f := by simp [set]
theorem set_files_ne (w : World) {id j : FileId} (f : File) (h : j ≠ id) :
    (w.set id f).files j = w.files j := by simp [set, h]
theorem create_files (w : World) (p : List Char) (f : File) : (w.create p f).files = (w.set (.path p) f).files := rfl
@[simp] theorem create_orc (w : World) (p f) : (w.create p f).orc = w.orc := rfl
@[simp] theorem step_orc (w : World) : w.step.orc = w.orc := rfl
@[simp] theorem fail_orc (w : World) (e : Nat) : (w.fail e).orc = w.orc := rfl
@[simp] theorem set_orc (w : World) (id f) : (w.set id f).orc = w.orc := rfl

end World

/-- errno values used by the model (Linux). Those of nbd-server.c 2767-2786. -/
def EPERM : Nat := 1
/-- Linux, as in nbd-server.c 2767-2786. -/
def ENOENT : Nat := 2
/-- Linux, as in nbd-server.c 2767-2786. -/
def EIO : Nat := 5
/-- Linux, as in nbd-server.c 2767-2786. -/
def EBADF : Nat := 9
/-- Linux, as in nbd-server.c 2767-2786. -/
def ENOMEM : Nat := 12
/-- Linux, as in nbd-server.c 2767-2786. -/
def EINVAL : Nat := 22
/-- Linux, as in nbd-server.c 2767-2786. -/
def EFBIG : Nat := 27
/-- Linux, as in nbd-server.c 2767-2786. -/
def ENOSPC : Nat := 28
/-- Linux, as in nbd-server.c 2767-2786. -/
def EDQUOT : Nat := 122

/-- Linux transfers at most this many bytes per read or write call (read(2), "NOTES"). (Kernel; models no code of /repo.) -/
def MAX_RW_COUNT : Nat := 0x7ffff000

/-- `pread(2)` on an open file. Called at nbd-server.c 1444-1466 and 1557-1622. -/
def sysPread (w : World) (id : FileId) (off len : Nat) : World × Option (List Byte) :=
  match w.files id with
  | none => (w.fail EBADF, none)
  | some f =>
    match w.next with
    | .err e => (w.fail e, none)
    | .done n => (w.step, some (f.pread off len (min n MAX_RW_COUNT)))

/-- `pwrite(2)` on an open file; returns the number of bytes written. Called at nbd-server.c 1200-1271 and 1624-1702. -/
def sysPwrite (w : World) (id : FileId) (off : Nat) (bs : List Byte) : World × Option Nat :=
  match w.files id with
  | none => (w.fail EBADF, none)
  | some f =>
    match w.next with
    | .err e => (w.fail e, none)
    | .done n => ((w.step).set id (f.pwrite off (bs.take n)), some (min n bs.length))

/-- `fsync(2)` / `fdatasync(2)`; `true` on success. Called at nbd-server.c 1200-1271 and 1732-1758. -/
def sysFsync (w : World) (id : FileId) : World × Bool :=
  match w.files id with
  | none => (w.fail EBADF, false)
  | some f =>
    match w.next with
    | .err e => (w.fail e, false)
    | .done _ => ((w.step).set id f.sync, true)

end Nbd
