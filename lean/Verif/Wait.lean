import Verif.Request
/-!
# Waiting for the exported file (`waitfile`)

With `waitfile = true` a session starts without the exported file: writes go to the diff file, and a second thread (`wait_file`) waits
for the file to appear, copies the saved blocks into it and then switches the session over. The request thread and the second thread
take turns; a request is one turn here (`C47_false_race` looks at what happens when it is not).
-/

set_option autoImplicit false

namespace Nbd

/-- What happened to one block in `commit_diff`. The ways out of one turn of nbd-server.c 1937-1972. -/
inductive Committed where
  | clean
  | moved
  | failed
deriving DecidableEq, Repr

/-- nbd-server.c 1943-1967: the body of the loop in `commit_diff` for block `i`, with `fh` the file that appeared. `DIFFPAGESIZE*i` is
computed as a C `int`, which overflows from block 2^19 on: undefined behaviour. -/
def commitPage (fh : Nat) (cl : Client) (w : World) (i : Nat) : Out (Client × World × Committed) :=
  if 2 ^ 31 ≤ i * DIFFPAGESIZE then .ub
  else
    match cl.difmap[i]? with
    | none => .ub
    | some m =>
      if m = NOPAGE then .val (cl, w, .clean)
      else
        match sysPread w (.fd cl.difffile) (diffOffset m 0) DIFFPAGESIZE with
        | (w, none) => .val (cl, w, .failed)
        | (w, some bs) =>
          if bs.length ≠ DIFFPAGESIZE then .val (cl, w, .failed)
          else
            match sysPwrite w (.fd fh) (i * DIFFPAGESIZE) bs with
            | (w, none) => .val (cl, w, .failed)
            | (w, some n) =>
              if n ≠ DIFFPAGESIZE then .val (cl, w, .failed)
              else .val ({ cl with difmap := cl.difmap.set i NOPAGE }, w, .moved)

/-- nbd-server.c 1939: `int pagecount = client->exportsize/DIFFPAGESIZE` (a quotient that does not fit wraps around; a negative number
means that the loop does not run). -/
def pagecount (cl : Client) : Nat :=
  let n := cl.ex.exportsize / DIFFPAGESIZE % 2 ^ 32
  if n < 2 ^ 31 then n else 0

/-- Where the thread running `wait_file` is (nbd-server.c 1974-2011): `absent` 1984-1988, waiting for the file; `commit false i d` in
the first loop 1993-1995, about to look at block `i` after finding `d` saved blocks in this pass, the lock being held for one block at
a time; `commit true i d` in the second loop 1999-2001, with the lock held throughout; `done` after 2007. -/
inductive WaitPc where
  | absent
  | commit (locked : Bool) (i dirty : Nat)
  | done
deriving DecidableEq, Repr

/-- A session that waits for its file. nbd-server.c 1974-2016. -/
structure Waiting where
  cl : Client
  w : World
  pc : WaitPc

/-- nbd-server.c 2003-2007: from now on the session uses the file that appeared. -/
def Client.switch (cl : Client) (fh : Nat) : Client :=
  { cl with ex := { cl.ex with files := [⟨fh, 0⟩] }, waiting := false }

/-- One step of the thread running `wait_file`, once the file is there. nbd-server.c 1937-2016. -/
def waitStep (fh : Nat) (s : Waiting) : Out Waiting :=
  match s.pc with
  | .absent => .val s
  | .done => .val s
  | .commit locked i d =>
    if i < pagecount s.cl then
      match commitPage fh s.cl s.w i with
      | .ub => .ub
      | .exit => .exit
      | .val (cl, w, .clean) => .val ⟨cl, w, .commit locked (i + 1) d⟩
      | .val (cl, w, .moved) => .val ⟨cl, w, .commit locked (i + 1) (d + 1)⟩
      | .val (cl, w, .failed) => .val ⟨cl, w, .commit locked 0 0⟩   -- break; dirtycount > 0, so once more
    else if d > 0 then .val { s with pc := .commit locked 0 0 }
    else if locked then .val ⟨s.cl.switch fh, s.w, .done⟩
    else .val { s with pc := .commit true 0 0 }

/-- What can happen to a waiting session. nbd-server.c 1974-2016 beside 3025-3152. -/
inductive WaitEv where
  | appear                        -- `open` in `wait_file` succeeds
  | commit                        -- one step of `wait_file`
  | request (bytes : List Byte)   -- the client sends these bytes and they are handled
deriving DecidableEq, Repr

/-- A sequence of events, until the switch at most: `none` if it cannot happen in this order (nothing appears twice; while `wait_file`
holds the lock, and after the switch, no request is handled here). `fh` is the descriptor `open` returns; the loop 1984 goes on if that
is 0. The second component is what is sent to the client. -/
def waitRun (e : Endian) (fh : Nat) : List WaitEv → Waiting → Option (Out (Waiting × List Byte))
  | [], s => some (.val (s, []))
  | .appear :: rest, s =>
    match s.pc with
    | .absent => waitRun e fh rest (if fh < 1 then s else { s with pc := .commit false 0 0 })
    | _ => none
  | .commit :: rest, s =>
    match s.pc with
    | .commit _ _ _ =>
      match waitStep fh s with
      | .ub => some .ub
      | .exit => some .exit
      | .val s => waitRun e fh rest s
    | _ => none
  | .request bytes :: rest, s =>
    match s.pc with
    | .done => none
    | .commit true _ _ => none
    | _ =>
      let run := mainloop e s.cl s.w bytes
      match run.ending with
      | .ub => some .ub
      | .exit => some .exit
      | _ =>
        match waitRun e fh rest { s with cl := run.cl, w := run.w } with
        | some (.val (s, out)) => some (.val (s, run.sent ++ out))
        | r => r

/-- nbd-server.c 1637-1692: what `expwrite` does after the test on 1634 has found that the session is still waiting. (The test is made
without the lock.) -/
def expwriteRest (cl : Client) (w : World) (a : Nat) (buf : List Byte) (fua : Bool) : Out (Client × World × Bool) :=
  match expwritePages (pageCount a buf.length) cl w (List.replicate DIFFPAGESIZE none) (a / DIFFPAGESIZE) a buf with
  | .ub => .ub
  | .exit => .exit
  | .val (cl, w, false) => .val (cl, w, false)
  | .val (cl, w, true) =>
    if has cl.ex.flags F_SYNC || fua then .val (cl, (sysFsync w (.fd cl.difffile)).1, true)
    else .val (cl, w, true)

end Nbd
