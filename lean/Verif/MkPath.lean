import Verif.Tree
/-!
# `mkdir_path` (treefiles.c), with directories

The parts of a file system that `mkdir` and `open` with `O_CREAT` look at: which names there are, and which of them are directories.
-/

set_option autoImplicit false

namespace Nbd

/-- The parts of a path: what is between slashes, without empty parts. (A notion of the statements about treefiles.c 48-59.) -/
def pathParts : List Char → List Char → List (List Char)
  | [], part => if part = [] then [] else [part]
  | c :: cs, part => if c = '/' then (if part = [] then pathParts cs [] else part :: pathParts cs []) else pathParts cs (part ++ [c])

/-- What there is under a name: `true` is a directory, `false` something else. Names are paths from one place (the root or the current
directory), without symbolic links and the parts "." and "..". `may` says where the process may create something and has room for it.
What treefiles.c 48-59 works on. -/
structure DirTree where
  node : List (List Char) → Option Bool
  may : List (List Char) → Bool

/-- Create something. (The effect of `mkdir`, called at treefiles.c 48-59.) -/
def DirTree.put (t : DirTree) (q : List (List Char)) (dir : Bool) : DirTree :=
  { t with node := fun x => if x = q then some dir else t.node x }

/-- mkdir(2): made, there already (EEXIST), or another error. Called at treefiles.c 48-59. -/
inductive Mkdir where
  | made (t : DirTree)
  | exists
  | failed

/-- mkdir(2), mode 0700. -/
def DirTree.mkdir (t : DirTree) (path : List Char) : Mkdir :=
  let q := pathParts path []
  match t.node q with
  | some _ => .exists
  | none => if t.node q.dropLast = some true ∧ t.may q = true then .made (t.put q true) else .failed

/-- treefiles.c 50-58: the loop of `mkdir_path`; `pre` is the part of the path in front of `subpath`, which `strchr` goes through. The slash
at `subpath` is replaced with a NUL for the call, so that the path is `pre`, and put back. The flag is `false` if `err` was called. -/
def mkdirLoop (t : DirTree) (pre : List Char) : List Char → DirTree × Bool
  | [] => (t, true)
  | c :: rest =>
    if c = '/' then
      match t.mkdir pre with
      | .made t' => mkdirLoop t' (pre ++ [c]) rest
      | .exists => mkdirLoop t (pre ++ [c]) rest
      | .failed => (t, false)
    else mkdirLoop t (pre ++ [c]) rest

/-- treefiles.c 48-59 `mkdir_path`. With an empty path `strchr` would start behind its end. -/
def mkdirPath (t : DirTree) : List Char → Out (DirTree × Bool)
  | [] => .ub
  | c :: rest => .val (mkdirLoop t [c] rest)

/-- open(2) with `O_RDWR|O_CREAT` (treefiles.c 80) for a name that may not be there. -/
def DirTree.create (t : DirTree) (path : List Char) : Option DirTree :=
  let q := pathParts path []
  match t.node q with
  | some false => some t
  | some true => none
  | none => if t.node q.dropLast = some true ∧ t.may q = true then some (t.put q false) else none

/-- treefiles.c 71, 75-83: the block file is not there and the export is writable. The flag is `false` if `err` was called. -/
def makeBlock (t : DirTree) (path : List Char) : Out (DirTree × Bool) :=
  match mkdirPath t path with
  | .val (t, true) =>
    match t.create path with
    | some t => .val (t, true)
    | none => .val (t, false)
  | r => r

end Nbd
