import Verif.World
/-!
# The parent process: signals, children and descriptors

nbd-server.c 1082-1114 (the signal handlers and `killchild`), 3162-3201 (`spawn_child`), 3203-3240 (`socket_accept` and the parent's part of
`handle_modern_connection`), 3298-3338 (the parent's side of `handle_childname`), 3407-3537 (`serveloop`), with the kernel's part: processes and
their numbers, pending signals, `waitpid`, descriptors. The exports and their tables are in Parent.lean; here the answer to a child is not looked at.

Every system call of the parent is a step, and anything else may happen between two of them: children end, processes that have nothing to do
with the server come and go and may get any number that is free, signals arrive. Not modelled: the mode without `fork` (-d).
-/

set_option autoImplicit false

namespace Nbd.Loop

/-- The other end of a socket to a child: the child has sent nothing yet (or has got its answer); it has sent the name of an export and waits;
it has closed its end or ended, in both cases. nbd-server.c 2298-2320 on the side of the child. -/
inductive Peer where
  | idle
  | asked
  | gone
  | askedGone
deriving DecidableEq, Repr

/-- An entry of `childsocks` (253), with the number of the process at the other end (which the parent does not know). -/
structure Sock where
  fd : Nat
  pid : Nat
  peer : Peer
deriving DecidableEq, Repr

/-- A process forked by the parent that it has not waited for: whether it has ended, and whether it was sent SIGTERM.
nbd-server.c 1082-1107 and 3162-3200. -/
structure Child where
  pid : Nat
  ended : Bool := false
  termed : Bool := false
deriving DecidableEq, Repr

/-- Where the parent is. `reap`: before a call of `waitpid`; `removed p`: `waitpid` has returned `p` (3460-3476). `conns`: in the loop over the
listening sockets, with the number of connections to accept; `socks i`: in the loop over `childsocks`, at index `i`, with the sockets `pselect`
found ready. `exited`: it has called `exit`; `dead`: it was killed by SIGPIPE. -/
inductive Pc where
  | top
  | kill (rest : List Nat)
  | unlink
  | reap
  | removed (pid : Nat)
  | select
  | conns (n : Nat) (ready : List Nat)
  | socks (i : Nat) (ready : List Nat)
  | exited (code : Nat)
  | dead
deriving DecidableEq, Repr

/-- The parent and the part of the kernel it deals with. `term`, `chld`, `hup`: the flags set by the handlers (234-251); `termP`, `chldP`, `hupP`: signals
that are pending (they are blocked outside `pselect`). `table` is `children`. `used`: the descriptors open in the parent. `others`: processes that are
not children of the parent; `stray`: those of them it has sent a signal to. -/
structure State where
  pc : Pc := .top
  term : Bool := false
  chld : Bool := false
  hup : Bool := false
  termP : Bool := false
  chldP : Bool := false
  hupP : Bool := false
  table : List Nat := []
  childsocks : List Sock := []
  used : List Nat := []
  pidfile : Bool := true
  kids : List Child := []
  others : List Nat := []
  stray : List Nat := []
deriving DecidableEq, Repr

/-- What happens outside the parent. Around nbd-server.c 3407-3545. -/
inductive Env where
  | ends (pid : Nat)
  | asks (pid : Nat)
  | hangsUp (pid : Nat)
  | starts (pid : Nat)
  | stops (pid : Nat)
  | sigterm
  | sighup
deriving DecidableEq, Repr

/-- What the kernel may choose in a system call of the parent: which child `waitpid` returns; whether `pselect` is interrupted or what it finds ready;
whether `fork` works, and the number of the new process. For the calls of nbd-server.c 3162-3545. -/
inductive Answer where
  | none
  | waited (pid : Option Nat)
  | interrupted
  | ready (conns : Nat) (socks : List Nat)
  | forked (pid : Option Nat)
deriving DecidableEq, Repr

inductive Act where
  | env (e : Env)
  | own (a : Answer)
deriving DecidableEq, Repr

/-- The lowest descriptor that is free, which is the one a system call returns. (Kernel; for nbd-server.c 3162-3217.) -/
def leastFree (used : List Nat) : Nat := ((List.range (used.length + 1)).find? (fun n => decide (n ∉ used))).getD 0

/-- A new descriptor, below the limit of the process (RLIMIT_NOFILE). (Kernel; for nbd-server.c 3162-3217.) -/
def alloc (limit : Nat) (used : List Nat) : Option Nat :=
  if leastFree used < limit then some (leastFree used) else none

/-- The other end goes away. (The child; models no code of the parent.) -/
def Peer.leave : Peer → Peer
  | .idle => .gone
  | .asked => .askedGone
  | p => p

/-- A number no process has. A child that has ended keeps its number until it is waited for. (Kernel; for the `fork` of nbd-server.c 3162-3200.) -/
def State.free (s : State) (pid : Nat) : Prop := (∀ k ∈ s.kids, k.pid ≠ pid) ∧ pid ∉ s.others

instance (s : State) (pid : Nat) : Decidable (s.free pid) := by unfold State.free; infer_instance

/-- The kernel's part: what happens outside the parent. An event that cannot happen changes nothing. A child writes the name of an export once
(commit_client, 2303-2306), or closes its socket. -/
def envStep (s : State) : Env → State
  | .ends pid =>
    if ∃ k ∈ s.kids, k.pid = pid ∧ k.ended = false then
      { s with
        kids := s.kids.map fun k => if k.pid = pid then { k with ended := true } else k
        childsocks := s.childsocks.map fun c => if c.pid = pid then { c with peer := c.peer.leave } else c
        chldP := true }
    else s
  | .asks pid =>
    if ∃ k ∈ s.kids, k.pid = pid ∧ k.ended = false then
      { s with childsocks := s.childsocks.map fun c => if c.pid = pid ∧ c.peer = .idle then { c with peer := .asked } else c }
    else s
  | .hangsUp pid =>
    if ∃ k ∈ s.kids, k.pid = pid ∧ k.ended = false then
      { s with childsocks := s.childsocks.map fun c => if c.pid = pid ∧ c.peer = .idle then { c with peer := .gone } else c }
    else s
  | .starts pid => if s.free pid then { s with others := pid :: s.others } else s
  | .stops pid => { s with others := s.others.filter (· ≠ pid) }
  | .sigterm => { s with termP := true }
  | .sighup => { s with hupP := true }

/-- `kill(pid, SIGTERM)`: the process with that number gets it, if there is one. Called at nbd-server.c 1094-1107. -/
def sendTerm (s : State) (pid : Nat) : State :=
  { s with
    kids := s.kids.map fun k => if k.pid = pid then { k with termed := true } else k
    stray := if pid ∈ s.others then pid :: s.stray else s.stray }

/-- nbd-server.c 3212-3240 with 3162-3201: a connection is accepted, a socket pair made and a child forked. `socketpair` is not checked: if there are no two
descriptors left the array is used without having been written. -/
def accept (limit : Nat) (s : State) (fork : Option Nat) : Out State :=
  match alloc limit s.used with
  | none => .val s
  | some net =>
    match alloc limit (net :: s.used) with
    | none => .ub
    | some s0 =>
      match alloc limit (s0 :: net :: s.used) with
      | none => .ub
      | some s1 =>
        match fork with
        | none => .val s
        | some pid =>
          .val { s with
            table := pid :: s.table
            used := s1 :: s.used
            childsocks := s.childsocks ++ [⟨s1, pid, .idle⟩]
            kids := s.kids ++ [{ pid := pid }] }

/-- nbd-server.c 3298-3338 and 3525-3534 for one ready socket at index `i`: the answer is written, which is deadly if nobody can read it, or the socket is
closed and removed. The index goes on by one in either case. -/
def childname (s : State) (i : Nat) (ready : List Nat) (c : Sock) : State :=
  match c.peer with
  | .idle => { s with pc := .socks (i + 1) ready }
  | .asked => { s with pc := .socks (i + 1) ready, childsocks := s.childsocks.set i { c with peer := .idle } }
  | .askedGone => { s with pc := .dead }
  | .gone => { s with pc := .socks (i + 1) ready, childsocks := s.childsocks.eraseIdx i, used := s.used.filter (· ≠ c.fd) }

/-- nbd-server.c 3448-3536 `serveloop`, the next step of the parent. `FD_SET` of a descriptor from 1024 on writes outside the set. An answer the kernel cannot give
changes nothing. Simplification: in `socks` a socket that is ready has data or its end in it, and a name is read in one piece. -/
def ownStep (limit : Nat) (s : State) (a : Answer) : Out State :=
  match s.pc with
  | .top =>
    if s.term then .val { s with term := false, pc := .kill s.table }
    else if s.chld then .val { s with chld := false, pc := .reap }
    else .val { s with hup := false, pc := .select }
  | .kill [] => .val { s with pc := .unlink }
  | .kill (p :: rest) => .val { sendTerm s p with pc := .kill rest }
  | .unlink => .val { s with pidfile := false, pc := .exited 0 }
  | .reap =>
    match a with
    | .waited none =>
      if ∃ k ∈ s.kids, k.ended = true then .val s else .val { s with hup := false, pc := .select }
    | .waited (some pid) =>
      if ∃ k ∈ s.kids, k.pid = pid ∧ k.ended = true then
        .val { s with kids := s.kids.filter (fun k => k.pid ≠ pid), pc := .removed pid }
      else .val s
    | _ => .val s
  | .removed pid => .val { s with table := s.table.filter (· ≠ pid), pc := .reap }
  | .select =>
    if ∃ c ∈ s.childsocks, 1024 ≤ c.fd then .ub
    else
      match a with
      | .interrupted =>
        if s.termP ∨ s.chldP ∨ s.hupP then
          .val { s with
            term := s.term || s.termP, chld := s.chld || s.chldP, hup := s.hup || s.hupP
            termP := false, chldP := false, hupP := false, pc := .top }
        else .val s
      | .ready n fds =>
        if (0 < n ∨ fds ≠ []) ∧ ∀ fd ∈ fds, ∃ c ∈ s.childsocks, c.fd = fd ∧ c.peer ≠ .idle then .val { s with pc := .conns n fds }
        else .val s
      | _ => .val s
  | .conns 0 ready => .val { s with pc := .socks 0 ready }
  | .conns (n + 1) ready =>
    match a with
    | .forked none => accept limit { s with pc := .conns n ready } none
    | .forked (some pid) => if s.free pid then accept limit { s with pc := .conns n ready } (some pid) else .val s
    | _ => .val s
  | .socks i ready =>
    match s.childsocks[i]? with
    | none => .val { s with pc := .top }
    | some c => if c.fd ∈ ready then .val (childname s i ready c) else .val { s with pc := .socks (i + 1) ready }
  | .exited _ => .val s
  | .dead => .val s

/-- One step of the server and the world around it. nbd-server.c 3407-3545. -/
def step (limit : Nat) (s : State) : Act → Out State
  | .env e => .val (envStep s e)
  | .own a => ownStep limit s a

/-- nbd-server.c 3407-3545, any number of turns. -/
def run (limit : Nat) : List Act → State → Out State
  | [], s => .val s
  | a :: as, s =>
    match step limit s a with
    | .val s => run limit as s
    | .ub => .ub
    | .exit => .exit

/-- nbd-server.c 3753-3779 and 3407-3446: where the loop begins: no children yet, some descriptors (`used`) open, other processes about. Signals may already
have come. -/
def start (used others : List Nat) (termP hupP : Bool) : State := { used := used, others := others, termP := termP, hupP := hupP }

end Nbd.Loop
