import Verif.Config
/-!
# The parent process: table of exports, connection limits, reloading and reference counts

nbd-server.c 781-783 (`serve_clear_element`), 2283-2315 (the part of `commit_client` that asks the parent), 3298-3401
(`handle_childname`, `get_index_by_servename`, `append_new_servers`), 3407-3537 (`serveloop`, the handling of SIGHUP and of the
children's sockets), 3907-3961 (`main` up to the table of exports); nbdsrv.c 315-332 (`serve_inc_ref`, `serve_dec_ref`).

`SERVER` structures are objects on a heap, named by their index, so that using one after it was freed is `Out.ub`.
-/

set_option autoImplicit false

namespace Nbd

/-- nbdsrv.h 31-51 `SERVER` with its counters. `freed` marks an object given back by `g_free`. Simplification: the counters
are not limited to 32 bits. -/
structure Obj where
  srv : Srv
  num : Int := 0
  ref : Int := 0
  freed : Bool := false
deriving DecidableEq, Repr

/-- The heap and `servers` (an array of pointers), and `genconf`. nbd-server.c 3219-3410. -/
structure Parent where
  heap : List Obj := []
  table : List Nat := []
  conf : GenConf := {}
deriving DecidableEq, Repr

/-- Following a pointer. (C; for the `SERVER*` of nbd-server.c 3298-3400.) -/
def deref (h : List Obj) (i : Nat) : Out Obj :=
  match h[i]? with
  | none => .ub
  | some o => if o.freed then .ub else .val o

/-- nbdsrv.c 317-322 `serve_inc_ref`. The mutex makes it one step. -/
def incRef (h : List Obj) (i : Nat) : Out (List Obj) :=
  match deref h i with
  | .val o => .val (h.set i { o with ref := o.ref + 1 })
  | .ub => .ub
  | .exit => .exit

/-- nbdsrv.c 324-332 `serve_dec_ref`. -/
def decRef (h : List Obj) (i : Nat) : Out (List Obj) :=
  match deref h i with
  | .val o => .val (h.set i { o with ref := o.ref - 1, freed := o.ref - 1 == 0 })
  | .ub => .ub
  | .exit => .exit

/-- nbd-server.c 3349-3361 `get_index_by_servename` (and the same loop in `handle_childname`, 3321-3332): the first entry with
the name. `strcmp` of a NULL name is undefined. Names are C strings: no NUL bytes. -/
def findName (h : List Obj) (name : List Byte) : List Nat → Out (Option Nat)
  | [] => .val none
  | i :: is =>
    match deref h i with
    | .val o =>
      match o.srv.servename with
      | none => .ub
      | some n => if n = name then .val (some i) else findName h name is
    | .ub => .ub
    | .exit => .exit

/-- nbd-server.c 3385-3394: the loop of `append_new_servers`; returns the heap and the table. -/
def appendLoop (h : List Obj) (table : List Nat) : List Nat → Out (List Obj × List Nat)
  | [] => .val (h, table)
  | i :: is =>
    match deref h i with
    | .val o =>
      match o.srv.servename with
      | none => appendLoop h table is
      | some n =>
        match findName h n table with
        | .val none =>
          match incRef h i with
          | .val h' => appendLoop h' (table ++ [i]) is
          | .ub => .ub
          | .exit => .exit
        | .val (some _) => appendLoop h table is
        | .ub => .ub
        | .exit => .exit
    | .ub => .ub
    | .exit => .exit

/-- `g_array_free(new_servers, TRUE)` with the clear function `serve_clear_element` (nbd-server.c 781-783 and 888). -/
def freeArray (h : List Obj) : List Nat → Out (List Obj)
  | [] => .val h
  | i :: is =>
    match decRef h i with
    | .val h' => freeArray h' is
    | .ub => .ub
    | .exit => .exit

/-- nbd-server.c 1036-1037: `parse_cfile` makes an object for every export, with one reference. -/
def newObjs (ss : List Srv) : List Obj := ss.map fun s => { srv := s, ref := 1 }

/-- nbd-server.c 3374-3401 `append_new_servers`: the number returned, whether `*gerror` is set, and the new state. Exports
parsed before an error was found are not kept on the heap. -/
def appendNewServers (b : Build) (disk : Disk) (p : Parent) : Out (Int × Bool × Parent) :=
  match parseCfile b disk (some p.conf) with
  | .err => .val (-1, true, p)
  | .null => .val (-1, false, p)
  | .ok ss conf e =>
    let news := (List.range ss.length).map (p.heap.length + ·)
    match appendLoop (p.heap ++ newObjs ss) p.table news with
    | .val (h, t) =>
      match freeArray h news with
      | .val h' => .val ((t.length : Int) - p.table.length, e, ⟨h', t, conf⟩)
      | .ub => .ub
      | .exit => .exit
    | .ub => .ub
    | .exit => .exit

/-- nbd-server.c 3471-3488: SIGHUP. `gerror->message` is read when -1 was returned. -/
def sighup (b : Build) (disk : Disk) (p : Parent) : Out Parent :=
  match appendNewServers b disk p with
  | .val (n, gerr, p') => if n = -1 ∧ gerr = false then .ub else .val p'
  | .ub => .ub
  | .exit => .exit

/-- nbd-server.c 3298-3338 `handle_childname`, once the name has been read: the answer and the new state. -/
def handleChildname (p : Parent) (name : List Byte) : Out (Byte × Parent) :=
  match findName p.heap name p.table with
  | .val none => .val (88, p)
  | .val (some i) =>
    match deref p.heap i with
    | .val o =>
      if o.srv.maxConn = 0 ∨ o.srv.maxConn > o.num then
        .val (89, { p with heap := p.heap.set i { o with num := o.num + 1 } })
      else .val (78, p)
    | .ub => .ub
    | .exit => .exit
  | .ub => .ub
  | .exit => .exit

/-- nbd-server.c 2303-2305: what the child sends: `strlen` in the host's byte order and the name. -/
def askBytes (e : Endian) (name : List Byte) : List Byte := store32 e (UInt32.ofNat name.length) ++ name

/-- nbd-server.c 3298-3320: what `handle_childname` makes of the bytes in the socket: `none` if it gives up (-1). Simplification:
`read` returns all four bytes of the length at once, and a missing rest of the name is left out. -/
def readName (e : Endian) (bs : List Byte) : Option (List Byte) :=
  if bs.length < 4 then none
  else
    let len := (load32 e (bs.take 4)).toNat
    if len ≥ 2 ^ 32 - 1 - 1 then none
    else some (cstr ((bs.drop 4).take len))

/-- nbd-server.c 3925-3961: the table the server starts with, if it starts with one. The export of the command line has one reference (581). -/
def startParent (res : CfileRes) (serve : Option Srv) : Option Parent :=
  match startServers res serve, res with
  | .table ss, .ok _ c _ => some { heap := newObjs ss, table := List.range ss.length, conf := c }
  | _, _ => none

/-! ## Connections

A history of the server: clients connect (a child is forked with a copy of the table), choose an export, and leave; in between the
configuration is reloaded. -/

/-- A child: the names it can choose (its copy of the table), and the answer of the parent once it has asked.
nbd-server.c 2298-2320 on the side of the child. -/
structure Kid where
  names : List (List Byte)
  asked : Option (List Byte × Byte) := none
deriving DecidableEq, Repr

/-- The parent, its children (`none`: gone), and the answers given so far (which only records what happened). nbd-server.c 3219-3545. -/
structure Sys where
  parent : Parent
  kids : List (Option Kid) := []
  log : List (List Byte × Byte) := []
deriving DecidableEq, Repr

/-- The names in a table. (A notion of the statements about nbd-server.c 3349-3400.) -/
def namesOf (p : Parent) : List (List Byte) :=
  p.table.filterMap fun i => (p.heap[i]?).bind fun o => o.srv.servename

/-- The events of a history. What nbd-server.c 3407-3545 reacts to. -/
inductive SysEv where
  | connect
  | ask (kid : Nat) (name : List Byte)
  | leave (kid : Nat)
  | reload (disk : Disk)

/-- One event. A child asks once, for a name in its copy of the table (nbd-server.c 2362-2398, 2556-2643 look the name up there
first). Simplification: a child that asks a second time (possible after NBD_OPT_GO was refused) is not here but in `commitClient`
(Nego.lean), where it is undefined behaviour because the socket has been closed. An event that cannot happen changes nothing. -/
def sysStep (b : Build) (s : Sys) : SysEv → Out Sys
  | .connect => .val { s with kids := s.kids ++ [some { names := namesOf s.parent }] }
  | .ask k name =>
    match s.kids[k]? with
    | some (some kid) =>
      if kid.asked = none ∧ name ∈ kid.names then
        match handleChildname s.parent name with
        | .val (a, p) => .val {
            parent := p
            kids := s.kids.set k (some { kid with asked := some (name, a) })
            log := s.log ++ [(name, a)] }
        | .ub => .ub
        | .exit => .exit
      else .val s
    | _ => .val s
  | .leave k => .val { s with kids := s.kids.set k none }
  | .reload disk =>
    match sighup b disk s.parent with
    | .val p => .val { s with parent := p }
    | .ub => .ub
    | .exit => .exit

/-- nbd-server.c 3407-3545, any number of turns. -/
def sysRun (b : Build) : List SysEv → Sys → Out Sys
  | [], s => .val s
  | e :: es, s =>
    match sysStep b s e with
    | .val s => sysRun b es s
    | .ub => .ub
    | .exit => .exit

end Nbd
