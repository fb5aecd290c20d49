import Verif.World
/-!
# SIGUSR1 and the sessions that wait for their file

nbd-server.c 255, 1126-1129 (`file_wait_sem`, `sigusr1_handler`), 1974-2011 (`wait_file`), 2026-2037 and 2345-2355 (the set-up of a session of a `waitfile` export), 3162-3201
(`spawn_child`), 454-461 (`finalize_client`). What is copied, and what requests do meanwhile, is in Wait.lean.

`file_wait_sem` lies in ordinary memory, so each process has its own; `fork` copies it with its value. The handler stays in place in children (3193-3195 reset other signals
only), and SIGUSR1 is never blocked. A signal that comes again before its handler has run is lost; the events here are runs of the handler.
-/

set_option autoImplicit false

namespace Nbd.Usr1

/-- Where the thread running `wait_file` is: not yet created; before `sem_wait` (1985); before `open` (1987); with the file open, before the copying loops (1993); past the switch
(2006-2007); `crashed`: the process has used a null pointer (undefined behaviour; other processes go on). -/
inductive Thread where
  | none
  | waiting
  | opening
  | opened
  | switched
  | crashed
deriving DecidableEq, Repr

/-- A process serving one session. `sem`: the value of its `file_wait_sem`; `map`: `copyonwrite_prepare` has run, so the diff file and `difmap` are there; `diff`: the diff file has its
name; `ended`: `finalize_client` has run. nbd-server.c 255, 1126-1129, 1974-2016 and 2142-2167. -/
structure Sess where
  sem : Nat
  thread : Thread := .none
  map : Bool := false
  diff : Bool := false
  ended : Bool := false
deriving DecidableEq, Repr

/-- The parent's semaphore, the sessions by number, and whether the exported file is there. nbd-server.c 255 and 1974-2016. -/
structure State where
  parent : Nat := 0
  sess : List Sess := []
  file : Bool := false
deriving DecidableEq, Repr

inductive Act where
  /-- the handler runs in the parent, or in the process of session `i` -/
  | sigParent
  | sig (i : Nat)
  /-- the exported file is put in place -/
  | file
  /-- a client connects: the parent forks -/
  | fork
  /-- session `i`: `setupexport` creates the thread (2031-2034); `copyonwrite_prepare` (2351-2354); `finalize_client` -/
  | setup (i : Nat)
  | prepare (i : Nat)
  | finish (i : Nat)
  /-- session `i`: the next step of `wait_file` -/
  | wait (i : Nat)
deriving DecidableEq, Repr

/-- 1984-2011: a step of `wait_file`. `sem_wait` blocks at 0. The copying (1993-2001) is one step here: without a map it uses a null pointer. (A descriptor 0 for the file, 1984, is left
out.) -/
def threadStep (file : Bool) (s : Sess) : Sess :=
  match s.thread with
  | .waiting => if 0 < s.sem then { s with sem := s.sem - 1, thread := .opening } else s
  | .opening => if file then { s with thread := .opened } else { s with thread := .waiting }
  | .opened => if s.map then { s with thread := .switched } else { s with thread := .crashed, ended := true }
  | .none | .switched | .crashed => s

/-- A change to session `i`, if there is one that has not ended. (Models no code of its own.) -/
def State.at (s : State) (i : Nat) (f : Sess → Sess) : State :=
  { s with sess := s.sess.modify i fun x => if x.ended then x else f x }

/-- One step. What cannot happen changes nothing. `finish`: 458-460 unlink the diff file of copy-on-write exports only, and the export waits, so it is not one (1015-1021). -/
def step (s : State) : Act → State
  | .sigParent => { s with parent := s.parent + 1 }
  | .sig i => s.at i fun x => { x with sem := x.sem + 1 }
  | .file => { s with file := true }
  | .fork => { s with sess := s.sess ++ [{ sem := s.parent }] }
  | .setup i => s.at i fun x => if x.thread = .none then { x with thread := .waiting } else x
  | .prepare i => s.at i fun x => if x.thread = .none then x else { x with map := true, diff := true }
  | .finish i => s.at i fun x => { x with ended := true }
  | .wait i => s.at i (threadStep s.file)

/-- Any interleaving of nbd-server.c 1126-1129, 1974-2016 and 2142-2167. -/
def run (acts : List Act) (s : State) : State := acts.foldl step s

end Nbd.Usr1
