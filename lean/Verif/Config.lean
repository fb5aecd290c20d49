import Verif.Acl
/-!
# The server's configuration (`cmdline`, `dump_section`, `do_cfile_dir`, `parse_cfile`)

nbd-server.c 521-1071. GLib's key file parser is not modelled: a group of a configuration file is given by what the GLib
getters answer for every key. The two build options that `parse_cfile` looks at are the fields of `Build`.
-/

set_option autoImplicit false

namespace Nbd

/-- What `g_key_file_get_…` answers: `G_KEY_FILE_ERROR_KEY_NOT_FOUND`, another error, or a value. As used at nbd-server.c 917-960. -/
inductive KVal (α : Type) where
  | missing
  | bad
  | ok (a : α)
deriving DecidableEq, Repr

/-- One group of a key file. As read at nbd-server.c 895-1040. -/
structure KGroup where
  name : List Byte
  str : List Byte → KVal (List Byte)
  int : List Byte → KVal Int
  int64 : List Byte → KVal Int
  bool : List Byte → KVal Bool

/-- nbdsrv.h 20-26 `VIRT_STYLE`. -/
inductive Virt where
  | none
  | iplit
  | iphash
  | cidr
deriving DecidableEq, Repr

/-- nbdsrv.h 31-51 `SERVER`, without the counters; a NULL string is `none`. -/
structure Srv where
  exportname : Option (List Byte) := .none
  expected : Nat := 0
  listenaddr : Option (List Byte) := .none
  authname : Option (List Byte) := .none
  flags : Nat := 0
  virtstyle : Virt := .none
  cidrlen : Nat := 0
  prerun : Option (List Byte) := .none
  postrun : Option (List Byte) := .none
  servename : Option (List Byte) := .none
  maxConn : Int := 0
  transactionlog : Option (List Byte) := .none
  cowdir : Option (List Byte) := .none
deriving DecidableEq, Repr

/-- `#ifdef HAVE_SPLICE` and `#ifdef WITH_SDP`. As tested at nbd-server.c 806-1080. -/
structure Build where
  splice : Bool
  sdp : Bool

/-- The string fields of an export that `parse_cfile` sets (`virtstyle` is a local variable). nbdsrv.h 31-51 and nbd-server.c 812-841. -/
inductive SField where
  | exportname
  | authname
  | virtstyle
  | prerun
  | postrun
  | transactionlog
  | cowdir
  | listenaddr
deriving DecidableEq, Repr

/-- nbd-server.c 272-285 `PARAM`, for exports. `required` is TRUE only for a string. -/
inductive Param where
  | str (key : List Byte) (required : Bool) (f : SField)
  | offt (key : List Byte)
  | int (key : List Byte)
  | bool (key : List Byte) (flag : Nat)
deriving DecidableEq, Repr

/-- nbd-server.c 812-839: the table `lp`. `offt` sets `expected_size`, `int` sets `max_connections`. -/
def lp : List Param :=
  [.str (ascii "exportname") true .exportname,
   .str (ascii "authfile") false .authname,
   .offt (ascii "filesize"),
   .str (ascii "virtstyle") false .virtstyle,
   .str (ascii "prerun") false .prerun,
   .str (ascii "postrun") false .postrun,
   .str (ascii "transactionlog") false .transactionlog,
   .str (ascii "cowdir") false .cowdir,
   .bool (ascii "readonly") F_READONLY,
   .bool (ascii "multifile") F_MULTIFILE,
   .bool (ascii "treefiles") F_TREEFILES,
   .bool (ascii "copyonwrite") F_COPYONWRITE,
   .bool (ascii "waitfile") F_WAIT,
   .bool (ascii "sparse_cow") F_SPARSE,
   .bool (ascii "sdp") F_SDP,
   .bool (ascii "sync") F_SYNC,
   .bool (ascii "flush") F_FLUSH,
   .bool (ascii "fua") F_FUA,
   .bool (ascii "rotational") F_ROTATIONAL,
   .bool (ascii "temporary") F_TEMPORARY,
   .bool (ascii "trim") F_TRIM,
   .bool (ascii "datalog") F_DATALOG,
   .str (ascii "listenaddr") false .listenaddr,
   .int (ascii "maxconnections"),
   .bool (ascii "force_tls") F_FORCEDTLS,
   .bool (ascii "splice") F_SPLICE]

/-- The state of the loop over the table: `s` and `virtstyle`. nbd-server.c 806-811. -/
structure PState where
  s : Srv := {}
  virt : Option (List Byte) := .none

/-- `*((gchar**)p[j].target) = sval`. nbd-server.c 917-960. -/
def setField (st : PState) (f : SField) (v : List Byte) : PState :=
  match f with
  | .exportname => { st with s := { st.s with exportname := some v } }
  | .authname => { st with s := { st.s with authname := some v } }
  | .virtstyle => { st with virt := some v }
  | .prerun => { st with s := { st.s with prerun := some v } }
  | .postrun => { st with s := { st.s with postrun := some v } }
  | .transactionlog => { st with s := { st.s with transactionlog := some v } }
  | .cowdir => { st with s := { st.s with cowdir := some v } }
  | .listenaddr => { st with s := { st.s with listenaddr := some v } }

/-- `|= flagval` and `&= ~flagval`. nbd-server.c 917-960. -/
def putFlag (flags flag : Nat) (b : Bool) : Nat := if b then flags ||| flag else (flags ||| flag) ^^^ flag

/-- nbd-server.c 911-975: one parameter; `none` if the whole file is rejected. -/
def stepParam (g : KGroup) (st : PState) (p : Param) : Option PState :=
  match p with
  | .str key required f =>
    match g.str key with
    | .ok v => some (setField st f v)
    | .missing => if required then none else some st
    | .bad => none
  | .offt key =>
    match g.int64 key with
    | .ok v => some { st with s := { st.s with expected := (v % 2 ^ 64).toNat } }
    | .missing => some st
    | .bad => none
  | .int key =>
    match g.int key with
    | .ok v => some { st with s := { st.s with maxConn := v } }
    | .missing => some st
    | .bad => none
  | .bool key flag =>
    match g.bool key with
    | .ok v => some { st with s := { st.s with flags := putFlag st.s.flags flag v } }
    | .missing => some st
    | .bad => none

/-- nbd-server.c 911-975: the loop over the table. -/
def runParams (g : KGroup) : List Param → PState → Option PState
  | [], st => some st
  | p :: ps, st =>
    match stepParam g st p with
    | some st => runParams g ps st
    | none => none

/-- The value of a digit for `strtol`. For nbd-server.c 986. -/
def digitOf (b : Byte) : Nat :=
  if 48 ≤ b ∧ b ≤ 57 then b.toNat - 48
  else if 97 ≤ b ∧ b ≤ 122 then b.toNat - 87
  else if 65 ≤ b ∧ b ≤ 90 then b.toNat - 55
  else 99

/-- The value of the digits in front, in the given base. For nbd-server.c 986. -/
def digitsIn (base : Nat) : List Byte → Nat → Nat
  | [], acc => acc
  | b :: bs, acc => if digitOf b < base then digitsIn base bs (acc * base + digitOf b) else acc

/-- The digits after the sign, with base 0: `0x` hexadecimal, `0` octal, else decimal. For nbd-server.c 986. -/
def digits0 : List Byte → Nat
  | 48 :: x :: d :: ds =>
    if (x = 120 ∨ x = 88) ∧ digitOf d < 16 then digitsIn 16 (d :: ds) 0 else digitsIn 8 (x :: d :: ds) 0
  | 48 :: ds => digitsIn 8 ds 0
  | ds => digitsIn 10 ds 0

/-- C library `strtol(v, NULL, 0)`. Called at nbd-server.c 671 and 986. -/
def strtol0 (v : List Byte) : Int :=
  match v.dropWhile isSpace with
  | 45 :: ds => max (-(digits0 ds : Int)) (-2 ^ 63)
  | 43 :: ds => min (digits0 ds : Int) (2 ^ 63 - 1)
  | ds => min (digits0 ds : Int) (2 ^ 63 - 1)

/-- nbd-server.c 976-994: the style and `cidrlen` (a `uint8_t`); `none` if the file is rejected. -/
def virtOf : Option (List Byte) → Option (Virt × Nat)
  | .none => some (.iplit, 0)
  | some v =>
    if (ascii "none").isPrefixOf v then some (.none, 0)
    else if (ascii "ipliteral").isPrefixOf v then some (.iplit, 0)
    else if (ascii "iphash").isPrefixOf v then some (.iphash, 0)
    else if (ascii "cidrhash").isPrefixOf v then
      (if v.length < 10 then .none else some (.cidr, (strtol0 (v.drop 8) % 256).toNat))
    else .none

/-- nbd-server.c 1001-1032 and 1040-1046: the combinations that are rejected. -/
def refusedFlags (b : Build) (flags : Nat) : Bool :=
  (!b.splice && has flags F_SPLICE) ||
  (has flags F_COPYONWRITE && has flags F_SPLICE) ||
  (has flags F_COPYONWRITE && has flags F_WAIT) ||
  (has flags F_DATALOG && has flags F_SPLICE) ||
  (!b.sdp && has flags F_SDP)

/-- nbd-server.c 900-1047: a group that defines an export. The check of `oldstyle` (995-999) is in `parseCfile`: the flag
does not change after the [generic] group. Simplification: `servename` is set by the caller's group name before the SDP
check instead of being dropped with the whole array. -/
def parseExport (b : Build) (g : KGroup) : Option Srv :=
  match runParams g lp {} with
  | none => none
  | some st =>
    match virtOf st.virt with
    | none => none
    | some (v, c) =>
      if refusedFlags b st.s.flags then none
      else some { st.s with virtstyle := v, cidrlen := c, servename := some g.name }

/-- The loop over the groups that define exports. nbd-server.c 895-1040. -/
def parseExports (b : Build) : List KGroup → Option (List Srv)
  | [] => some []
  | g :: gs =>
    match parseExport b g with
    | none => none
    | some s =>
      match parseExports b gs with
      | none => none
      | some ss => some (s :: ss)

/-- nbd-server.c 289-301 `struct generic_conf`. -/
structure GenConf where
  user : Option (List Byte) := .none
  group : Option (List Byte) := .none
  modernaddr : Option (List Byte) := .none
  modernport : Option (List Byte) := .none
  unixsock : Option (List Byte) := .none
  certfile : Option (List Byte) := .none
  keyfile : Option (List Byte) := .none
  cacertfile : Option (List Byte) := .none
  tlsprio : Option (List Byte) := .none
  flags : Nat := 0
  threads : Int := 0
deriving DecidableEq, Repr

/-- nbd-server.c 195 `F_OLDSTYLE`. -/
def F_OLDSTYLE : Nat := 1
/-- nbd-server.c 196 `F_LIST`. -/
def F_LIST : Nat := 2
/-- nbd-server.c 198 `F_DUAL_LISTEN`. -/
def F_DUAL_LISTEN : Nat := 8

/-- The string fields of the [generic] group; `includedir` is a local variable. nbd-server.c 289-301 and 842-860. -/
inductive GField where
  | user
  | group
  | modernaddr
  | modernport
  | includedir
  | unixsock
  | certfile
  | keyfile
  | cacertfile
  | tlsprio
deriving DecidableEq, Repr

/-- nbd-server.c 272-285 `PARAM`, for the [generic] group (nothing is required). -/
inductive GParam where
  | str (key : List Byte) (f : GField)
  | threads (key : List Byte)
  | bool (key : List Byte) (flag : Nat)
deriving DecidableEq, Repr

/-- nbd-server.c 842-858: the table `gp`. -/
def gp : List GParam :=
  [.str (ascii "user") .user,
   .str (ascii "group") .group,
   .bool (ascii "oldstyle") F_OLDSTYLE,
   .str (ascii "listenaddr") .modernaddr,
   .str (ascii "port") .modernport,
   .str (ascii "includedir") .includedir,
   .bool (ascii "allowlist") F_LIST,
   .str (ascii "unixsock") .unixsock,
   .bool (ascii "duallisten") F_DUAL_LISTEN,
   .threads (ascii "max_threads"),
   .bool (ascii "force_tls") F_FORCEDTLS,
   .str (ascii "certfile") .certfile,
   .str (ascii "keyfile") .keyfile,
   .str (ascii "cacertfile") .cacertfile,
   .str (ascii "tlsprio") .tlsprio]

/-- `genconftmp` and `cfdir`. nbd-server.c 806-811. -/
structure GState where
  c : GenConf := {}
  cfdir : Option (List Byte) := .none
deriving DecidableEq, Repr

/-- `*((gchar**)p[j].target) = sval`. nbd-server.c 917-960. -/
def setGField (st : GState) (f : GField) (v : List Byte) : GState :=
  match f with
  | .user => { st with c := { st.c with user := some v } }
  | .group => { st with c := { st.c with group := some v } }
  | .modernaddr => { st with c := { st.c with modernaddr := some v } }
  | .modernport => { st with c := { st.c with modernport := some v } }
  | .includedir => { st with cfdir := some v }
  | .unixsock => { st with c := { st.c with unixsock := some v } }
  | .certfile => { st with c := { st.c with certfile := some v } }
  | .keyfile => { st with c := { st.c with keyfile := some v } }
  | .cacertfile => { st with c := { st.c with cacertfile := some v } }
  | .tlsprio => { st with c := { st.c with tlsprio := some v } }

/-- nbd-server.c 911-975: one parameter of the [generic] group. -/
def stepGParam (g : KGroup) (st : GState) (p : GParam) : Option GState :=
  match p with
  | .str key f =>
    match g.str key with
    | .ok v => some (setGField st f v)
    | .missing => some st
    | .bad => none
  | .threads key =>
    match g.int key with
    | .ok v => some { st with c := { st.c with threads := v } }
    | .missing => some st
    | .bad => none
  | .bool key flag =>
    match g.bool key with
    | .ok v => some { st with c := { st.c with flags := putFlag st.c.flags flag v } }
    | .missing => some st
    | .bad => none

/-- nbd-server.c 911-960 with the table `gp` (842-860). -/
def runGParams (g : KGroup) : List GParam → GState → Option GState
  | [], st => some st
  | p :: ps, st =>
    match stepGParam g st p with
    | some st => runGParams g ps st
    | none => none

/-- nbd-server.c 883: the priority string that is there before the caller's configuration is copied over it. -/
def tlsprioBuiltin : List Byte := ascii "NORMAL:+VERS-TLS-ALL:-VERS-TLS1.0:+VERS-TLS1.1:%SERVER_PRECEDENCE"

/-- nbd-server.c 881-890: `genconftmp` before the file is read; `genconf` is NULL for `none`. -/
def genStart (genconf : Option GenConf) : GenConf :=
  match genconf with
  | .none => { tlsprio := some tlsprioBuiltin }
  | some c => c

/-- An entry of the include directory: its name, whether it is a regular file (by `d_type`, or by `stat`, which may fail:
`none`), and its groups if GLib can load it. As seen at nbd-server.c 716-779. -/
structure DirEnt where
  name : List Byte
  regular : Option Bool
  groups : Option (List KGroup)

/-- nbd-server.c 751: does the name end in `.conf`? Simplification: for a name shorter than 5 bytes the code compares from
before the start of `d_name` (the preceding fields of `struct dirent`, of which `d_type` comes last and is not a letter or
a dot); here such a name just does not match. -/
def isConf (name : List Byte) : Bool := 5 ≤ name.length && (name.drop (name.length - 5) == ascii ".conf")

/-- nbd-server.c 729-767: the loop of `do_cfile_dir`. `none` is the error exit. Simplification: `stat` failing is the error
exit with `*e` not set, which the caller takes for an empty directory; it is treated as such by `cfileDir`. -/
def cfileLoop (b : Build) : List DirEnt → List Srv → Option (List Srv)
  | [], acc => some acc
  | d :: ds, acc =>
    match d.regular with
    | none => some []
    | some false => cfileLoop b ds acc
    | some true =>
      if isConf d.name then
        match d.groups with
        | none => none
        | some gs =>
          match parseExports b gs with
          | none => none
          | some ss => cfileLoop b ds (acc ++ ss)
      else cfileLoop b ds acc

/-- The result of `parse_cfile`. `ok servers conf err`: an array is returned; `err` says whether `*e` is set too. `err`:
NULL and `*e` is set. `null`: NULL and `*e` is not set. The ways out of nbd-server.c 806-1080. -/
inductive CfileRes where
  | ok (servers : List Srv) (conf : GenConf) (err : Bool)
  | err
  | null
deriving DecidableEq, Repr

/-- The configuration on disk: `none` if GLib cannot load the main file; its groups; the contents of a directory (`none` if it
cannot be opened or read). As read at nbd-server.c 716-1080. -/
structure Disk where
  main : Option (List KGroup)
  dir : List Byte → Option (List DirEnt)

/-- nbd-server.c 806-1071 `parse_cfile` with `expect_generic`. -/
def parseCfile (b : Build) (disk : Disk) (genconf : Option GenConf) : CfileRes :=
  match disk.main with
  | none => .ok [] (genconf.getD {}) true
  | some [] => .err
  | some (g :: gs) =>
    if g.name ≠ ascii "generic" then .err
    else
      match runGParams g gp ⟨genStart genconf, .none⟩ with
      | none => .err
      | some st =>
        if has st.c.flags F_OLDSTYLE then .null
        else
          match parseExports b gs with
          | none => .err
          | some ss =>
            match st.cfdir with
            | none => .ok ss st.c ss.isEmpty
            | some dir =>
              match disk.dir dir with
              | none => .err
              | some es =>
                match cfileLoop b es [] with
                | none => .err
                | some extra => .ok (ss ++ extra) st.c (ss ++ extra).isEmpty

/-! ## The command line -/

/-- One answer of `getopt_long`, with `optarg`. nbd-server.c 584. -/
inductive CmdOpt where
  | arg (v : List Byte)
  | readOnly
  | multiFile
  | copyOnWrite
  | noDaemon
  | dontFork
  | authFile (v : List Byte)
  | configFile (v : List Byte)
  | pidFile (v : List Byte)
  | output (v : List Byte)
  | maxConn (v : List Byte)
  | version
  | unknown
deriving DecidableEq, Repr

/-- C library `atoll`. Called at nbd-server.c 626. -/
def atoll (v : List Byte) : Int :=
  match v.dropWhile isSpace with
  | 45 :: ds => max (-(digitsVal ds 0 : Int)) (-2 ^ 63)
  | 43 :: ds => min (digitsVal ds 0 : Int) (2 ^ 63 - 1)
  | ds => min (digitsVal ds 0 : Int) (2 ^ 63 - 1)

/-- `es <<= 10` on a 64-bit `off_t`: undefined if the value is negative or the result does not fit. -/
def shl10 (es : Int) : Out Int := if es < 0 ∨ es * 1024 ≥ 2 ^ 63 then .ub else .val (es * 1024)

/-- nbd-server.c 620-637: the size argument, as stored in the unsigned `expected_size`. An empty argument is read out of bounds. -/
def sizeArg (v : List Byte) : Out Nat :=
  match v.getLast? with
  | none => .ub
  | some suffix =>
    let k := suffix = 107 ∨ suffix = 75
    let m := suffix = 109 ∨ suffix = 77
    let es := atoll (if k ∨ m then v.dropLast else v)
    let r : Out Int :=
      if m then (match shl10 es with
        | .val es => shl10 es
        | .ub => .ub
        | .exit => .exit)
      else if k then shl10 es
      else .val es
    match r with
    | .val es => .val (es % 2 ^ 64).toNat
    | .ub => .ub
    | .exit => .exit

/-- GLib `g_strsplit(v, sep, 2)`: the text before the first separator and the text after it, if there is one. Called at nbd-server.c 591-600. -/
def split2 (sep : Byte) (v : List Byte) : List Byte × Option (List Byte) :=
  match v.dropWhile (· ≠ sep) with
  | [] => (v, .none)
  | _ :: r => (v.takeWhile (· ≠ sep), some r)

/-- nbd-server.c 589-611: the listening address and port. -/
def addrPort (v : List Byte) : Option (List Byte) × List Byte :=
  let ap := if v.count 58 ≤ 1 then (match split2 58 v with
      | (_, .none) => split2 64 v
      | ap => ap)
    else split2 64 v
  match ap with
  | (a, some p) => (some a, p)
  | (p, .none) => (.none, p)

/-- The local variables of `cmdline` and the globals it sets. nbd-server.c 552-583. -/
structure CmdState where
  serve : Srv := {}
  nonspecial : Nat := 0
  conf : GenConf := {}
  nodaemon : Bool := false
  dontfork : Bool := false
  configFile : List Byte := []
  section_ : Option (List Byte) := .none
deriving DecidableEq, Repr

/-- nbd-server.c 586-678: one option; `Out.exit` when the process ends. For an empty first argument `g_strsplit` answers a
vector of one NULL, and `addr_port[1]` is behind its end. -/
def cmdStep (st : CmdState) : CmdOpt → Out CmdState
  | .arg v =>
    match st.nonspecial with
    | 0 =>
      if v = [] then .ub
      else .val { st with nonspecial := 1, conf := { st.conf with modernaddr := (addrPort v).1, modernport := some (addrPort v).2 } }
    | 1 => if v.head? ≠ some 47 then .exit else .val { st with nonspecial := 2, serve := { st.serve with exportname := some v } }
    | 2 =>
      match sizeArg v with
      | .val n => .val { st with nonspecial := 3, serve := { st.serve with expected := n } }
      | .ub => .ub
      | .exit => .exit
    | n + 3 => .val { st with nonspecial := n + 4 }
  | .readOnly => .val { st with serve := { st.serve with flags := st.serve.flags ||| F_READONLY } }
  | .multiFile => .val { st with serve := { st.serve with flags := st.serve.flags ||| F_MULTIFILE } }
  | .copyOnWrite => .val { st with serve := { st.serve with flags := st.serve.flags ||| F_COPYONWRITE } }
  | .noDaemon => .val { st with nodaemon := true }
  | .dontFork => .val { st with nodaemon := true, dontfork := true }
  | .authFile v => .val { st with serve := { st.serve with authname := some v } }
  | .configFile v => .val { st with configFile := v }
  | .pidFile _ => .val st
  | .output v => .val { st with section_ := some v }
  | .maxConn v => .val { st with serve := { st.serve with maxConn := (strtol0 v + 2 ^ 31) % 2 ^ 32 - 2 ^ 31 } }
  | .version => .exit
  | .unknown => .exit

/-- nbd-server.c 584-680. -/
def cmdLoop : List CmdOpt → CmdState → Out CmdState
  | [], st => .val st
  | o :: os, st =>
    match cmdStep st o with
    | .val st => cmdLoop os st
    | .ub => .ub
    | .exit => .exit

/-- nbd-server.c 202 `default_authname` (the directory is chosen when building). -/
def defaultAuth : List Byte := ascii "/etc/nbd-server/allow"

/-- nbd-server.c 521-544 `dump_section`: the lines printed after the header, as key and value. `%s` of the NULL `listenaddr` prints
`(null)`. -/
def dumpSection (s : Srv) (digits : Int → List Byte) : List (List Byte × List Byte) :=
  [(ascii "exportname", s.exportname.getD (ascii "(null)")), (ascii "listenaddr", s.listenaddr.getD (ascii "(null)"))] ++
  (if has s.flags F_READONLY then [(ascii "readonly", ascii "true")] else []) ++
  (if has s.flags F_MULTIFILE then [(ascii "multifile", ascii "true")] else []) ++
  (if has s.flags F_TREEFILES then [(ascii "treefiles", ascii "true")] else []) ++
  (if has s.flags F_COPYONWRITE then [(ascii "copyonwrite", ascii "true")] else []) ++
  (if s.expected ≠ 0 then
    [(ascii "filesize", digits (if s.expected < 2 ^ 63 then (s.expected : Int) else (s.expected : Int) - 2 ^ 64))] else []) ++
  (match s.authname with
    | some a => [(ascii "authfile", a)]
    | .none => [])

/-- How `cmdline` ends. The ways out of nbd-server.c 552-698. -/
inductive CmdEnd where
  | run (serve : Option Srv) (st : CmdState)
  | printed (sect : List Byte) (lines : List (List Byte × List Byte))
  | exited
  | ub

/-- nbd-server.c 552-698 `cmdline`; `digits` is `printf("%lld")`. No arguments at all behave like no options. -/
def cmdline (digits : Int → List Byte) (opts : List CmdOpt) : CmdEnd :=
  match cmdLoop opts { serve := { authname := some defaultAuth, virtstyle := .iplit } } with
  | .ub => .ub
  | .exit => .exited
  | .val st =>
    let serve := if st.nonspecial < 2 then .none else some { st.serve with servename := some [] }
    match st.section_ with
    | .none => .run serve st
    | some sect =>
      match serve with
      | .none => .exited
      | some s => .printed sect (dumpSection s digits)

/-- How `main` goes on: it quits, or it runs with a table of exports, or it runs with `servers` NULL. nbd-server.c 3907-3990. -/
inductive Start where
  | quit
  | noTable
  | table (ss : List Srv)
deriving DecidableEq, Repr

/-- nbd-server.c 3925-3961: the exports the server starts with. `g_array_append_val` on the NULL array of a failed `parse_cfile` is
refused by GLib, and the server then runs without a table: every client's process, and the parent at the next SIGHUP, reads
through the NULL pointer. -/
def startServers (res : CfileRes) (serve : Option Srv) : Start :=
  match res, serve with
  | .ok ss _ _, some s => .table (ss ++ [s])
  | .ok [] _ _, .none => .quit
  | .ok (s :: ss) _ _, .none => .table (s :: ss)
  | _, some _ => .noTable
  | _, .none => .quit

end Nbd
