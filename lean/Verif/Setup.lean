import Verif.Layout
/-!
# Setting up an export, on a file system

nbd-server.c 2018-2140 `setupexport` as in `Verif.Layout`, here with the file system it works on: which files it opens, creates,
grows and removes, and which descriptors it leaves open. `Verif.Layout.setupExport` takes for granted what the files look like
(`ProbeFile`); here they are looked up by name.
-/

set_option autoImplicit false

namespace Nbd

/-- A regular file or a block device: its contents, and whether the server's user may read and write it. What nbd-server.c 2042-2115 opens. -/
structure Inode where
  regular : Bool
  data : List Byte
  readable : Bool
  writable : Bool
deriving DecidableEq, Repr

/-- An open file: which one, and whether it may be written through this descriptor. What nbd-server.c 2042-2115 opens. -/
structure OpenFile where
  ino : Nat
  wr : Bool
deriving DecidableEq, Repr

/-- The file system, and the descriptors of the process. Files are numbered; a name stands for one of them or for nothing.
Simplification: descriptors are numbered in the order of opening (`setupexport` closes none). What nbd-server.c 2018-2140 works on. -/
structure Fs where
  names : List Char → Option Nat
  inodes : List Inode
  fds : List OpenFile

/-- What the kernel answers: may a file be created under this name (the directory is there and may be written to), how many descriptors may be open, can a
file be made this long, the letters `mkstemp` chooses, and whether `unlink` works. For the calls of nbd-server.c 2042-2115. -/
structure Kern where
  create : List Char → Bool
  limit : Nat
  grow : Nat → Bool
  letters : List Char
  unlinks : Bool

/-- A new directory entry, or one less. (Kernel; for nbd-server.c 2058-2069.) -/
def setName (names : List Char → Option Nat) (p : List Char) (v : Option Nat) : List Char → Option Nat :=
  fun q => if q = p then v else names q

/-- A new empty regular file with mode 0600 under the name `p`, open for reading and writing. -/
def Fs.made (fs : Fs) (p : List Char) : Fs :=
  { names := setName fs.names p (some fs.inodes.length)
    inodes := fs.inodes ++ [⟨true, [], true, true⟩]
    fds := fs.fds ++ [⟨fs.inodes.length, true⟩] }

/-- open(2) with `O_RDWR` (`rw`) or `O_RDONLY`, and with `O_CREAT` or without, as 2066 and 2069 call it. -/
def openAt (k : Kern) (rw creat : Bool) (p : List Char) (fs : Fs) : Fs × Option Nat :=
  if k.limit ≤ fs.fds.length then (fs, none)
  else
    match fs.names p with
    | some i =>
      match fs.inodes[i]? with
      | none => (fs, none)
      | some n =>
        if n.readable && (!rw || n.writable) then ({ fs with fds := fs.fds ++ [⟨i, rw⟩] }, some fs.fds.length) else (fs, none)
    | none => if creat && k.create p then (fs.made p, some fs.fds.length) else (fs, none)

/-- mkstemp(3), as 2058 calls it: the name is the template with the last six letters chosen. Simplification: it gives up when the
name it tried is taken (glibc tries others). -/
def mkstempAt (k : Kern) (base : List Char) (fs : Fs) : Fs × Option (Nat × List Char) :=
  let p := base ++ k.letters
  if k.limit ≤ fs.fds.length then (fs, none)
  else
    match fs.names p with
    | some _ => (fs, none)
    | none => if k.create p then (fs.made p, some (fs.fds.length, p)) else (fs, none)

/-- unlink(2). Called at nbd-server.c 2061. -/
def unlinkAt (k : Kern) (p : List Char) (fs : Fs) : Fs :=
  if k.unlinks then { fs with names := setName fs.names p none } else fs

/-- ftruncate(2) of a file of length 0: `false` if it fails. Called at nbd-server.c 2103. -/
def growTo (k : Kern) (fd size : Nat) (fs : Fs) : Fs × Bool :=
  match fs.fds[fd]? with
  | none => (fs, false)
  | some f =>
    match fs.inodes[f.ino]? with
    | none => (fs, false)
    | some n =>
      if f.wr && n.regular && k.grow size then
        ({ fs with inodes := fs.inodes.set f.ino { n with data := List.replicate size 0 } }, true)
      else (fs, false)

/-- What `size_autodetect` sees of an open file (nbdsrv.c 229-268), and what `open` would say about it. -/
def probeOf (fs : Fs) (fd : Nat) (canWrite canRead : Bool) : ProbeFile :=
  match fs.fds[fd]? with
  | none => ⟨fd, canWrite, canRead, none, none, 0⟩
  | some f =>
    match fs.inodes[f.ino]? with
    | none => ⟨fd, canWrite, canRead, none, none, 0⟩
    | some n =>
      if n.regular then ⟨fd, canWrite, canRead, none, some (true, n.data.length), n.data.length⟩
      else ⟨fd, canWrite, canRead, some n.data.length, some (false, 0), n.data.length⟩

/-- nbd-server.c 2052-2092: opening the `i`-th file: the flags of the export afterwards and the descriptor. `%d` of `i` is `Nat.repr i`. -/
def openNth (k : Kern) (flags : Nat) (multi temporary cancreate : Bool) (name : List Char) (i : Nat) (fs : Fs) :
    Fs × Option (Nat × Nat) :=
  if temporary then
    match mkstempAt k (name ++ ['.'] ++ (Nat.repr i).toList ++ ['-']) fs with
    | (fs, none) => (fs, none)
    | (fs, some (fd, p)) => (unlinkAt k p fs, some (flags, fd))
  else
    let p := if multi then name ++ ['.'] ++ (Nat.repr i).toList else name
    let ro := has flags F_READONLY
    match openAt k (!ro) (!ro && cancreate) p fs with
    | (fs, some fd) => (fs, some (flags, fd))
    | (fs, none) =>
      if !ro && !cancreate then
        match openAt k false false p fs with
        | (fs, some fd) =>
          (fs, some (if has flags F_COPYONWRITE then flags else flags ||| F_AUTOREADONLY ||| F_READONLY, fd))
        | (fs, none) => (fs, none)
      else (fs, none)

theorem openAt_fds (k : Kern) (rw creat : Bool) (p : List Char) (fs : Fs) :
    match openAt k rw creat p fs with
    | (fs', some _) => fs'.fds.length = fs.fds.length + 1 ∧ fs.fds.length < k.limit
    | (fs', none) => fs' = fs := by
  unfold openAt
  by_cases hl : k.limit ≤ fs.fds.length
  · rw [if_pos hl]
  · rw [if_neg hl]
    cases hn : fs.names p with
    | some i =>
      simp only []
      cases hi : fs.inodes[i]? with
      | none => rfl
      | some n =>
        simp only []
        by_cases hc : (n.readable && (!rw || n.writable)) = true
        · rw [if_pos hc]; exact ⟨by simp, by omega⟩
        · rw [if_neg hc]
    | none =>
      simp only []
      by_cases hc : (creat && k.create p) = true
      · rw [if_pos hc]; exact ⟨by simp [Fs.made], by omega⟩
      · rw [if_neg hc]

theorem openNth_fds {k : Kern} {flags : Nat} {multi temporary cancreate : Bool} {name : List Char} {i : Nat} {fs fs' : Fs}
    {r : Nat × Nat} (h : openNth k flags multi temporary cancreate name i fs = (fs', some r)) :
    fs'.fds.length = fs.fds.length + 1 ∧ fs.fds.length < k.limit := by
  unfold openNth at h
  cases temporary with
  | true =>
    rw [if_pos rfl] at h
    unfold mkstempAt at h
    by_cases hl : k.limit ≤ fs.fds.length
    · rw [if_pos hl] at h; cases h
    · rw [if_neg hl] at h
      cases hn : fs.names (name ++ ['.'] ++ (Nat.repr i).toList ++ ['-'] ++ k.letters) with
      | some _ => simp only [hn] at h; cases h
      | none =>
        simp only [hn] at h
        by_cases hc : k.create (name ++ ['.'] ++ (Nat.repr i).toList ++ ['-'] ++ k.letters) = true
        · rw [if_pos hc] at h
          cases h
          unfold unlinkAt
          by_cases hu : k.unlinks = true
          · rw [if_pos hu]; exact ⟨by simp [Fs.made], by omega⟩
          · rw [if_neg hu]; exact ⟨by simp [Fs.made], by omega⟩
        · rw [if_neg hc] at h; cases h
  | false =>
    rw [if_neg (by decide)] at h
    generalize hp : (if multi = true then name ++ ['.'] ++ (Nat.repr i).toList else name) = p at h
    have h1 := openAt_fds k (!has flags F_READONLY) (!has flags F_READONLY && cancreate) p fs
    rcases hr : openAt k (!has flags F_READONLY) (!has flags F_READONLY && cancreate) p fs with ⟨fs1, _ | fd⟩
    · rw [hr] at h1
      simp only [hr] at h
      cases h1
      by_cases hc : (!has flags F_READONLY && !cancreate) = true
      · rw [if_pos hc] at h
        have h2 := openAt_fds k false false p fs
        rcases hr2 : openAt k false false p fs with ⟨fs2, _ | fd⟩
        · simp only [hr2] at h; cases h
        · rw [hr2] at h2
          simp only [hr2] at h
          cases h
          exact h2
      · rw [if_neg hc] at h; cases h
    · rw [hr] at h1
      simp only [hr] at h
      cases h
      exact h1

/-- nbd-server.c 2042-2115: the loop over the backing files. Returns the file system and what `openLoop` returns. It ends because every
file takes a descriptor. -/
def openFiles (k : Kern) (multi temporary : Bool) (expected : Nat) (name : List Char) (i flags : Nat) (acc : List FileInfo)
    (lso ls : Nat) (fs : Fs) : Fs × Option (Nat × List FileInfo × Nat × Nat) :=
  let cancreate := expected != 0 && !multi && i == 0
  match h : openNth k flags multi temporary cancreate name i fs with
  | (fs', none) => (fs', if multi && i > 0 then some (flags, acc, lso, ls) else none)
  | (fs', some (flags', fd)) =>
    let startoff := (lso + ls) % 2 ^ 64
    let acc := acc ++ [⟨fd, startoff⟩]
    let size := sizeAutodetect (probeOf fs' fd true true)
    if size == 0 && cancreate then
      match growTo k fd expected fs' with
      | (fs'', true) => (fs'', some (flags', acc, startoff, expected))
      | (fs'', false) => (fs'', none)
    else if !multi || temporary then (fs', some (flags', acc, startoff, size))
    else openFiles k multi temporary expected name (i + 1) flags' acc startoff size fs'
termination_by k.limit - fs.fds.length
decreasing_by
  have := openNth_fds h
  omega

/-- nbd-server.c 2018-2140 `setupexport` (without the start of the waiting thread). The descriptors opened before a failure stay open. -/
def setupFs (k : Kern) (flags expected : Nat) (name : List Char) (fs : Fs) : Fs × Option Export :=
  if has flags F_TREEFILES || has flags F_WAIT then (fs, some ⟨flags, expected, [], name⟩)
  else
    match openFiles k (has flags F_MULTIFILE) (has flags F_TEMPORARY && !has flags F_MULTIFILE) expected name 0 flags [] 0 0 fs with
    | (fs, none) => (fs, none)
    | (fs, some (flags, files, lso, ls)) =>
      let total := (lso + ls) % 2 ^ 64
      if expected != 0 then
        if expected > total then (fs, none) else (fs, some ⟨flags, expected, files, name⟩)
      else (fs, some ⟨flags, total, files, name⟩)

end Nbd
