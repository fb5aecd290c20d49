import Verif.World
/-!
# The end of a session

nbd-server.c 402-468 (`socket_write`, `cleanup_transactionlog`, `do_run`, `finalize_client`, `socket_closed_transmission`), 2316-2345 (the end of `commit_client`), 3287-3294,
3098-3149 (`mainloop_threaded`) and the replies of the worker threads (1313-1428, 2955-3003, 3088-3090: every one is written while `client->lock` is
held). What requests do is in other files; here a request is queued, worked on, answered. `g_thread_pool_free(tpool, FALSE, TRUE)` (GLib): the first call marks the
pool as ended and waits until no thread works on anything and the queue is empty; a later call returns at once.

The server ignores no signal, so a write to a connection the client has closed may kill the process (SIGPIPE), or fail.
-/

set_option autoImplicit false

namespace Nbd.Finish

/-- The steps of `finalize_client` after the pool has been freed, and the end of the process. nbd-server.c 452-480. -/
inductive Phase where
  | post
  | log
  | unlink
  | leave
deriving DecidableEq, Repr

/-- What the reading thread does: it negotiates; it reads requests; it waits for the pool; it is in `finalize_client` (`code` is the status it will end with).
nbd-server.c 3095-3152 and 452-480. -/
inductive Reader where
  | choosing
  | reading
  | freeing (code : Nat)
  | finishing (code : Nat) (p : Phase)
deriving DecidableEq, Repr

/-- How the process ended. The `exit` calls of nbd-server.c 363-410 and 464-480, and the return of 3095-3152. -/
inductive Fate where
  | exit (code : Nat)
  | signal
deriving DecidableEq, Repr

/-- One session. `queue`: requests no thread has taken yet; `busy`: threads that work on a request and do not hold the lock; `writing`: a thread holds the lock and writes a
reply; `hung`: a thread waits in `g_thread_pool_free` for itself, holding the lock; `worker`: a thread is in `finalize_client` after that call returned at once, holding the lock.
`pool`: it has not been freed. `closed`: the client has closed the connection, or it is broken. `pre`: successful runs of the prerun command. `posts`: for each run of the postrun command
the number of requests that were not finished when it began. `logOpen`, `diff`: the transaction log is open, the diff file of a copy-on-write export is there.
nbd-server.c 222-227 and 3095-3152. -/
structure State where
  reader : Reader := .choosing
  queue : Nat := 0
  busy : Nat := 0
  writing : Bool := false
  hung : Bool := false
  worker : Option Phase := none
  pool : Bool := true
  closed : Bool := false
  commit : Bool := false
  pre : Nat := 0
  posts : List Nat := []
  logOpen : Bool := false
  diff : Bool := false
  fate : Option Fate := none
deriving DecidableEq, Repr

/-- Requests received whose work or reply is still to be done. (Models no code of its own.) -/
def State.pending (s : State) : Nat := s.queue + s.busy + s.writing.toNat

/-- No thread of the pool does anything: the condition `g_thread_pool_free` waits for. Called at nbd-server.c 452-462. -/
def State.idle (s : State) : Bool := s.pending == 0 && !s.hung && s.worker.isNone

/-- The lock `client->lock` is free. nbd-server.c 222-227, nbdsrv.h 56-83. -/
def State.unlocked (s : State) : Bool := !s.writing && !s.hung && s.worker.isNone

inductive Act where
  /-- the client closes the connection, or it breaks -/
  | close
  /-- the client chooses an export; prerun succeeds; `setup`: whether `setupexport` and `copyonwrite_prepare` do -/
  | choose (setup : Bool)
  /-- the client sends NBD_OPT_ABORT -/
  | abort
  /-- the reading thread has read a request, NBD_CMD_DISC, or something without the magic number -/
  | request
  | disc
  | badMagic
  /-- the reading thread finds that the connection is closed -/
  | eof
  /-- the reading thread goes on: the pool is idle; the next part of `finalize_client` -/
  | freed
  | next
  /-- a thread takes a request; has done the work and gets the lock; has written the reply -/
  | take
  | lock
  | written
  /-- writing fails; writing kills the process -/
  | failed
  | sigpipe
  /-- a thread goes on in `finalize_client` -/
  | wnext
  /-- the process is killed from outside -/
  | kill
deriving DecidableEq, Repr

/-- One part of `finalize_client` (454-461): postrun, the log, the diff file; then `exit`. -/
def finalizeStep (s : State) (p : Phase) (code : Nat) (go : State → Phase → State) : State :=
  match p with
  | .post => go { s with posts := s.posts ++ [s.pending] } .log
  | .log => go { s with logOpen := false } .unlink
  | .unlink => go { s with diff := false } .leave
  | .leave => { s with fate := some (.exit code) }

/-- The reading thread enters `finalize_client`: `g_thread_pool_free`. nbd-server.c 452-462. -/
def freePool (s : State) (code : Nat) : State :=
  if s.pool then { s with pool := false, reader := .freeing code } else { s with reader := .finishing code .post }

/-- One step of the session. What cannot happen changes nothing. A request that comes when the pool has been freed is dropped (3149: the result of `g_thread_pool_push` is not looked at). `choose` (2335-2345): the log is opened, the prerun command has succeeded, from then on a closed connection leads to
`finalize_client`; with `setup` the session begins. Simplification: a second `choose` after one that failed is left out (the socket to the parent is closed then: see `commitClient` in
Nego.lean). -/
def step (s : State) (a : Act) : State :=
  if s.fate.isSome then s
  else
    match a with
    | .close => { s with closed := true }
    | .choose setup =>
      if s.reader = .choosing ∧ s.commit = false then
        { s with commit := true, pre := s.pre + 1, logOpen := true, diff := setup, reader := if setup then .reading else .choosing }
      else s
    | .abort => if s.reader = .choosing then { s with fate := some (.exit 1) } else s
    | .request => if s.reader = .reading ∧ s.pool = true then { s with queue := s.queue + 1 } else s
    | .disc => if s.reader = .reading then freePool s 0 else s
    | .badMagic => if s.reader = .reading then { s with fate := some (.exit 1) } else s
    | .eof =>
      if s.closed then
        if s.reader = .reading ∨ (s.reader = .choosing ∧ s.commit = true) then freePool s 1
        else if s.reader = .choosing then { s with fate := some (.exit 1) } else s
      else s
    | .freed =>
      match s.reader with
      | .freeing code => if s.idle = true then { s with reader := .finishing code .post } else s
      | _ => s
    | .next =>
      match s.reader with
      | .finishing code p => finalizeStep s p code (fun s p => { s with reader := .finishing code p })
      | _ => s
    | .take => if 0 < s.queue then { s with queue := s.queue - 1, busy := s.busy + 1 } else s
    | .lock => if 0 < s.busy ∧ s.unlocked = true then { s with busy := s.busy - 1, writing := true } else s
    | .written => { s with writing := false }
    | .failed =>
      if s.writing = true ∧ s.closed = true then
        if s.pool then { s with pool := false, writing := false, hung := true }
        else { s with writing := false, worker := some .post }
      else s
    | .sigpipe => if s.writing = true ∧ s.closed = true then { s with fate := some .signal } else s
    | .wnext =>
      match s.worker with
      | some p => finalizeStep s p 1 (fun s p => { s with worker := some p })
      | none => s
    | .kill => { s with fate := some .signal }

/-- Any interleaving of the threads of nbd-server.c 3095-3152. -/
def run (acts : List Act) (s : State) : State := acts.foldl step s

end Nbd.Finish
