import Verif.CliMain
import Verif.Config
/-!
# nbd-client: `main`

nbd-client.c 218-363, 831-915 and 926-1373, with GnuTLS compiled in. The command line is what `getopt_long_only` makes of it: a list
of options in the order given. The rest of the world answers every call; its answers may depend on everything that was done before.
-/

set_option autoImplicit false

namespace Nbd

/-- nbd-client.c 917-924, 945-977: the options. `arg` is an argument that is not an option. -/
inductive CliOpt where
  | arg (v : List Byte)
  | blockSize (v : List Byte)
  | size (v : List Byte)
  | check (v : List Byte)
  | connections (v : List Byte)
  | disconnect (v : List Byte)
  | noOptgo
  | help
  | identifier (v : List Byte)
  | list
  | noNetlink
  | mark
  | nofork
  | name (v : List Byte)
  | persist
  | preinit
  | readonly
  | swap
  | timeout (v : List Byte)
  | unix
  | version
  | tls
  | cert (v : List Byte)
  | key (v : List Byte)
  | cacert (v : List Byte)
  | tlshost (v : List Byte)
  | priority (v : List Byte)
  | unknown
deriving DecidableEq, Repr

/-- The variables of `main` after some of the options; `cl` is `*cur_client`, except for `dev`, which may be null. nbd-client.c 926-986. -/
structure CliState where
  cl : TabClient
  dev : Option (List Byte)
  port : List Byte
  nonspecial : Nat
  cont : Bool
  nofork : Bool
  list : Bool
  netlink : Bool
  ident : Option (List Byte)
  disc : Bool
deriving DecidableEq, Repr

/-- How a part of the program ends. `running`: it has not ended after the steps that were looked at. The ways out of nbd-client.c 926-1372. -/
inductive CliR (α : Type) where
  | val (a : α)
  | exit (status : Nat)
  | ub
  | running
deriving DecidableEq, Repr

/-- The conversion of a `long` to an `int`. As in the casts of nbd-client.c 1034, 1050 and 1100. -/
def wrapInt (x : Int) : Int := (x + 2 ^ 31) % 2 ^ 32 - 2 ^ 31

/-- C library `strtoull(v, NULL, 0)`. Called at nbd-client.c 1041. -/
def strtoull0 (v : List Byte) : Nat :=
  match v.dropWhile isSpace with
  | 45 :: ds => if digits0 ds ≤ 2 ^ 64 - 1 then (2 ^ 64 - digits0 ds) % 2 ^ 64 else 2 ^ 64 - 1
  | 43 :: ds => min (digits0 ds) (2 ^ 64 - 1)
  | ds => min (digits0 ds) (2 ^ 64 - 1)

/-- What one option leads to. nbd-client.c 989-1108. -/
inductive CliStepR where
  | go (st : CliState)
  | exit (status : Nat)
  | check (dev : List Byte)

/-- nbd-client.c 1026-1033: the block size. -/
def cliBlockSize (st : CliState) (v : List Byte) : CliStepR :=
  let bs := wrapInt (strtol0 v)
  if bs = 0 ∨ bs % 512 ≠ 0 then .exit 1 else .go { st with cl := { st.cl with bs := bs } }

/-- nbd-client.c 1099-1102: the timeout. -/
def cliTimeout (st : CliState) (v : List Byte) : CliStepR :=
  .go { st with cl := { st.cl with timeout := wrapInt (strtol0 v) } }

/-- nbd-client.c 988-1140: one option. `nl` is `HAVE_NETLINK`. -/
def cliStep (nl : Bool) (st : CliState) : CliOpt → CliStepR
  | .arg v =>
    if (61 : Byte) ∈ v then
      if (ascii "bs=").isPrefixOf v then cliBlockSize st (v.drop 3)
      else if (ascii "timeout=").isPrefixOf v then cliTimeout st (v.drop 8)
      else .exit 1
    else
      match st.nonspecial with
      | 0 => .go { st with cl := { st.cl with hostn := some v }, nonspecial := 1 }
      | 1 =>
        if strtol0 v = 0 then .go { st with dev := some v, nonspecial := 3 }
        else .go { st with port := v, nonspecial := 2 }
      | 2 => .go { st with dev := some v, nonspecial := 3 }
      | _ => .exit 1
  | .blockSize v => cliBlockSize st v
  | .size v => if strtoull0 v = 0 then .exit 1 else .go { st with cl := { st.cl with forceSize := strtoull0 v } }
  | .check v => .check v
  | .connections v => .go { st with cl := { st.cl with nconn := wrapInt (strtol0 v) } }
  | .disconnect v => .go { st with disc := true, dev := some v }
  | .noOptgo => .go { st with cl := { st.cl with noOptgo := true } }
  | .help => .exit 0
  | .identifier v => if nl then .go { st with ident := some v } else .exit 1
  | .list => .go { st with list := true, dev := some [] }
  | .noNetlink => if nl then .go { st with netlink := false } else .exit 1
  | .mark => .go st
  | .nofork => .go { st with nofork := true }
  | .name v => .go { st with cl := { st.cl with name := some v } }
  | .persist => .go { st with cont := true }
  | .preinit => .go { st with cl := { st.cl with preinit := true } }
  | .readonly => .go { st with cl := { st.cl with forceRo := true } }
  | .swap => .go { st with cl := { st.cl with swap := true } }
  | .timeout v => cliTimeout st v
  | .unix => .go { st with cl := { st.cl with unix := true } }
  | .version => .exit 0
  | .tls => .go { st with cl := { st.cl with tls := true } }
  | .cert v => .go { st with cl := { st.cl with cert := some v } }
  | .key v => .go { st with cl := { st.cl with key := some v } }
  | .cacert v => .go { st with cl := { st.cl with cacert := some v } }
  | .tlshost v => .go { st with cl := { st.cl with tlshostn := some v } }
  | .priority v => .go { st with cl := { st.cl with priority := some v } }
  | .unknown => .exit 1

/-- nbd-client.c 988-1140: the loop over the options. -/
def cliLoop (nl : Bool) : List CliOpt → CliState → CliStepR
  | [], st => .go st
  | o :: os, st =>
    match cliStep nl st o with
    | .go st => cliLoop nl os st
    | .exit n => .exit n
    | .check d => .check d

/-- nbd-client.c 927-943, 984-987: before the options. -/
def cliStart (nl : Bool) : CliState :=
  ⟨{ tabBlank [] with port := some (ascii "10809") }, none, ascii "10809", 0, false, false, false, nl, none, false⟩

/-- nbd-client.c 1145: does the argument look like a device? -/
def looksLikeDev (h : List Byte) : Bool := (ascii "nbd").isPrefixOf h || (ascii "/dev/nbd").isPrefixOf h

/-- nbd-client.c 1171-1201: after the device table. The remainder in 1196 is one of 64-bit unsigned numbers; dividing by 0 crashes. -/
def cliSettle (st : CliState) : CliR CliState :=
  let c := st.cl
  let c := if c.key.isSome && c.cert.isNone then { c with cert := c.key } else c
  let c := if c.cert.isSome || c.key.isSome || c.cacert.isSome || c.tlshostn.isSome then { c with tls := true } else c
  if c.preinit && c.tls then .exit 1
  else if c.preinit && c.forceSize = 0 then .exit 1
  else
    let c := if c.tlshostn.isNone && c.hostn.isSome && !c.unix then { c with tlshostn := c.hostn } else c
    if !st.netlink && st.ident.isSome then .exit 1
    else if c.bs = 0 then .ub
    else if c.forceSize % toU64 c.bs ≠ 0 then .exit 1
    else
      let c := { c with name := some (c.name.getD []) }
      .val { st with cl := c, nofork := st.nofork || st.netlink }

/-- nbd-client.c 1142-1201: checking the settings; `table` is the contents of nbdtab. -/
def cliReady (table : Option (List Byte)) (st : CliState) : CliR CliState :=
  match st.cl.hostn with
  | none => .exit 1
  | some h =>
    if (st.cl.name.isNone || st.dev.isNone) && !st.list then
      if looksLikeDev h then
        match getFromConfig { st.cl with dev := h } table with
        | none => .exit 1
        | some c => cliSettle { st with cl := c, dev := some c.dev }
      else if !st.netlink then .exit 1
      else cliSettle st
    else cliSettle st

/-! ### The world -/

/-- What nbd-client does that can be seen from outside. The system calls and messages of nbd-client.c 926-1372. -/
inductive CliEv where
  /-- `getaddrinfo` -/
  | lookup (host : List Byte) (port : Option (List Byte))
  /-- `connect` to the address -/
  | connect (a : Nat) (ok : Bool)
  /-- `connect` to the Unix socket -/
  | connectUnix (path : List Byte) (ok : Bool)
  /-- the device is opened -/
  | openDev (dev : List Byte)
  /-- a negotiation for this export begins -/
  | nego (name : List Byte) (tls noOptgo list : Bool)
  /-- NBD_SET_BLKSIZE, NBD_SET_SIZE_BLOCKS, NBD_SET_FLAGS, BLKROSET -/
  | device (d : Device) (bs : Int)
  /-- NBD_SET_TIMEOUT -/
  | timeout (t : Int)
  /-- NBD_SET_SOCK with the connection made last -/
  | sock
  /-- `mlockall` and the oom score -/
  | lock
  /-- NBD_CMD_CONNECT -/
  | netlink (index : Option Nat) (socks : Nat) (size : Nat) (bs : Int) (flags : Nat) (timeout : Int) (ident : Option (List Byte))
  /-- NBD_CMD_DISCONNECT -/
  | netlinkDisc (index : Nat)
  /-- NBD_DISCONNECT -/
  | ioctlDisc (dev : List Byte)
  /-- NBD_CLEAR_SOCK -/
  | clearSock
  | daemon
  /-- NBD_DO_IT, which returns when the connection is lost -/
  | doIt
  | sleep
  /-- what is written to standard output (by -c) -/
  | print (text : List Byte)
deriving DecidableEq, Repr

/-- How a negotiation ends. The ways out of nbd-client.c 559-762. -/
inductive NegoEnd where
  | ready (size flags : Nat)
  | exits (status : Nat)
deriving DecidableEq, Repr

/-- How NBD_DO_IT returns: `badr` is -1 with `EBADR` (somebody disconnected the device), `lost` is -1 with another error. nbd-client.c 1324. -/
inductive DoIt where
  | badr
  | lost
  | returned
deriving DecidableEq, Repr

/-- The answer to reading a file in `/sys`. nbd-client.c 260-291. -/
inductive SysFile where
  | absent
  | unopenable
  | unreadable
  | text (bs : List Byte)
deriving DecidableEq, Repr

/-- The answers of the world, given what was done before. For nbd-client.c 926-1372. -/
structure CliOs where
  /-- addresses of a host -/
  resolve : List CliEv → Option (List Nat)
  socketOk : List CliEv → Bool
  connectOk : List CliEv → Nat → Bool
  unixOk : List CliEv → Bool
  openOk : List CliEv → Bool
  nego : List CliEv → NegoEnd
  /-- bits in an `unsigned long` -/
  W : Nat
  /-- block sizes the kernel accepts -/
  blkOk : Int → Bool
  timeoutOk : List CliEv → Bool
  sockOk : List CliEv → Bool
  netlinkOk : List CliEv → Bool
  daemonOk : List CliEv → Bool
  discOk : List CliEv → Bool
  doIt : List CliEv → DoIt
  sys : List Byte → SysFile

/-- What was done, and the result. Models no code of its own. -/
abbrev CliRes (α : Type) : Type := List CliEv × CliR α

/-- nbd-client.c 318-328: the loop over the addresses. A closed socket makes no event. -/
def tryAddrs (os : CliOs) : List Nat → List CliEv → List CliEv × Bool
  | [], log => (log, false)
  | a :: as, log =>
    if !os.socketOk log then tryAddrs os as log
    else if os.connectOk log a then (log ++ [.connect a true], true)
    else tryAddrs os as (log ++ [.connect a false])

/-- nbd-client.c 293-336 `opennet`. -/
def openNet (os : CliOs) (c : TabClient) (log : List CliEv) : List CliEv × Bool :=
  let log := log ++ [.lookup (c.hostn.getD []) c.port]
  match os.resolve log with
  | none => (log, false)
  | some as => tryAddrs os as log

/-- nbd-client.c 338-363 `openunix`; `sun_path` has 108 bytes. -/
def openUnixSock (os : CliOs) (c : TabClient) (log : List CliEv) : List CliEv × Bool :=
  let path := c.hostn.getD []
  if 108 ≤ path.length then (log, false)
  else if !os.socketOk log then (log, false)
  else (log ++ [.connectUnix path (os.unixOk log)], os.unixOk log)

/-- nbd-client.c 1223-1226, 1338-1341. -/
def openSock (os : CliOs) (c : TabClient) (log : List CliEv) : List CliEv × Bool :=
  if c.unix then openUnixSock os c log else openNet os c log

/-- nbd-client.c 831-837 `set_timeout`. -/
def setTimeout (os : CliOs) (t : Int) (log : List CliEv) : CliRes Unit :=
  if t = 0 then (log, .val ())
  else if !os.timeoutOk log then (log, .exit 1)
  else (log ++ [.timeout t], .val ())

/-- nbd-client.c 839-851 `finish_sock`. -/
def finishSock (os : CliOs) (swap : Bool) (log : List CliEv) : CliRes Unit :=
  if !os.sockOk log then (log, .exit 1)
  else (log ++ (if swap then [.sock, .lock] else [.sock]), .val ())

/-- nbd-client.c 794-829 `setsizes`, as `Nbd.setsizes`. -/
def setDevice (os : CliOs) (size : Nat) (bs : Int) (flags : Nat) (log : List CliEv) : CliRes Unit :=
  match setsizes os.W os.blkOk size bs flags with
  | .val d => (log ++ [.device d bs], .val ())
  | .exit => (log, .exit 1)
  | .ub => (log, .ub)

/-- nbd-client.c 1354-1358: the device gets its sizes, its timeout and its connection. -/
def setUp (os : CliOs) (c : TabClient) (size flags : Nat) (log : List CliEv) : CliRes Unit :=
  match setDevice os size c.bs flags log with
  | (log, .val ()) =>
    match setTimeout os c.timeout log with
    | (log, .val ()) => finishSock os c.swap log
    | r => r
  | r => r

/-- nbd-client.c 559-762 `negotiate`, which is modelled in `Verif.CliNego`; here only how it ends. With -l it does not return
(680-683). -/
def negoWith (os : CliOs) (st : CliState) (log : List CliEv) : CliRes (Nat × Nat) :=
  let log := log ++ [.nego (st.cl.name.getD []) st.cl.tls st.cl.noOptgo st.list]
  match os.nego log with
  | .ready size flags => (log, if st.list then .exit 0 else .val (size, flags))
  | .exits n => (log, .exit n)

/-- nbd-client.c 1222-1235: a connection, its size and flags; `cur` are `cur_client->size64` and `flags` before. -/
def connectOne (os : CliOs) (st : CliState) (cur : Nat × Nat) (log : List CliEv) : CliRes (Nat × Nat) :=
  match openSock os st.cl log with
  | (log, false) => (log, .exit 1)
  | (log, true) =>
    match (if st.cl.preinit then (log, .val cur) else negoWith os st log : CliRes (Nat × Nat)) with
    | (log, .val (size, flags)) =>
      (log, .val (if st.cl.forceSize ≠ 0 then st.cl.forceSize else size, if st.cl.forceRo then flags ||| 2 else flags))
    | r => r

/-- nbd-client.c 1222-1256: the loop over the connections; `first` is `i == 0`, `n` how many there are still to make. With -l (and
without negotiation) `nbd` was never set: `ub`. -/
def connectAll (os : CliOs) (st : CliState) : Nat → Bool → Nat × Nat → List CliEv → CliRes (Nat × Nat)
  | 0, _, cur, log => (log, .val cur)
  | n + 1, first, cur, log =>
    match connectOne os st cur log with
    | (log, .val (size, flags)) =>
      if st.netlink then connectAll os st n false (size, flags) log
      else if st.list then (log, .ub)
      else
        match (if first then setUp os st.cl size flags log else finishSock os st.cl.swap log : CliRes Unit) with
        | (log, .val ()) => connectAll os st n false (size, flags) log
        | (log, .exit n) => (log, .exit n)
        | (log, .ub) => (log, .ub)
        | (log, .running) => (log, .running)
    | r => r

/-- C library `sscanf(dev, "/dev/nbd%d", &index)`. Called at nbd-client.c 226 and 1260. -/
def netlinkIndex (dev : List Byte) : Option Int :=
  if netlinkDevOk dev then some (strtolInt ((dev.drop 8).dropWhile isSpace)) else none

/-- nbd-client.c 1258-1267. -/
def netlinkMain (os : CliOs) (st : CliState) (cur : Nat × Nat) (log : List CliEv) : CliRes Unit :=
  let index : Option Int := match st.dev with
    | none => some (-1)
    | some d => netlinkIndex d
  match index with
  | none => (log, .exit 1)
  | some i =>
    let log := log ++ [.netlink (if 0 ≤ i then some i.toNat else none) st.cl.nconn.toNat cur.1 st.cl.bs cur.2 st.cl.timeout st.ident]
    (log, .exit (if os.netlinkOk log then 0 else 1))

/-- nbd-client.c 1337-1345: trying to connect until it works, at most `n` times. -/
def retry (os : CliOs) (c : TabClient) : Nat → List CliEv → CliRes Unit
  | 0, log => (log, .running)
  | n + 1, log =>
    match openSock os c log with
    | (log, true) => (log, .val ())
    | (log, false) => retry os c n (log ++ [.sleep])

/-- nbd-client.c 1332-1360: a new connection for the device; `cur` is `cur_client->size64`. -/
def again (os : CliOs) (st : CliState) (n : Nat) (cur : Nat) (log : List CliEv) : CliRes Nat :=
  match retry os st.cl n log with
  | (log, .val ()) =>
    if !os.openOk log then (log, .exit 1)
    else
      match negoWith os st (log ++ [.openDev (st.dev.getD [])]) with
      | (log, .val (size, flags)) =>
        if cur ≠ size then (log, .exit 1)
        else
          match setUp os st.cl size flags log with
          | (log, .val ()) => (log, .val size)
          | (log, .exit n) => (log, .exit n)
          | (log, .ub) => (log, .ub)
          | (log, .running) => (log, .running)
      | (log, .exit n) => (log, .exit n)
      | (log, .ub) => (log, .ub)
      | (log, .running) => (log, .running)
  | (log, .exit n) => (log, .exit n)
  | (log, .ub) => (log, .ub)
  | (log, .running) => (log, .running)

/-- nbd-client.c 1280-1372: waiting until the connection is lost, and what then; at most `n` times, each with at most `n` attempts to
connect. If no connection was made before, `sock` was never set when 1336 closes it: `ub`. (The process that opens the device once,
1290-1320, is not modelled.) -/
def attend (os : CliOs) (st : CliState) : Nat → Nat → List CliEv → CliRes Unit
  | 0, _, log => (log, .running)
  | n + 1, cur, log =>
    let log := log ++ [.doIt]
    match os.doIt log with
    | .badr => (log ++ [.clearSock], .exit 0)
    | .returned => (log ++ [.clearSock], .exit 0)
    | .lost =>
      if st.cont then
        if st.cl.nconn ≤ 0 then (log, .ub)
        else
        match again os st (n + 1) cur log with
        | (log, .val size) => attend os st n size log
        | (log, .exit n) => (log, .exit n)
        | (log, .ub) => (log, .ub)
        | (log, .running) => (log, .running)
      else (log ++ [.clearSock], .exit 0)

/-- nbd-client.c 1203-1372: connecting. (With `nconn ≤ 0` no connection is made; 1213 `malloc` of a negative number fails.)
With -l and no connection, `nbd` was never set: `ub`. -/
def cliConnect (os : CliOs) (n : Nat) (st : CliState) (log : List CliEv) : CliRes Unit :=
  if !st.list && !st.netlink && !os.openOk log then (log, .exit 1)
  else
    let log := if !st.list && !st.netlink then log ++ [.openDev (st.dev.getD [])] else log
    if st.netlink && decide (st.cl.nconn < 0) then (log, .exit 1)
    else
      match connectAll os st st.cl.nconn.toNat true (0, 0) log with
      | (log, .val cur) =>
        if st.netlink then netlinkMain os st cur log
        else if st.list then (log, .ub)
        else if !st.nofork && !os.daemonOk log then (log, .exit 1)
        else attend os st n cur.1 (if st.nofork then log else log ++ [.daemon])
      | (log, .exit n) => (log, .exit n)
      | (log, .ub) => (log, .ub)
      | (log, .running) => (log, .running)

/-- nbd-client.c 218-247 `netlink_disconnect` and 902-915 `disconnect`. -/
def cliDisconnect (os : CliOs) (netlink : Bool) (dev : List Byte) (log : List CliEv) : CliRes Unit :=
  if netlink then
    match netlinkIndex dev with
    | none => (log, .exit 1)
    | some i =>
      if i < 0 then (log, .exit 1)
      else
        let log := log ++ [.netlinkDisc i.toNat]
        (log, .exit (if os.discOk log then 0 else 1))
  else if !os.openOk log then (log, .exit 1)
  else
    let log := log ++ [.openDev dev, .ioctlDisc dev]
    if !os.discOk log then (log, .exit 1)
    else
      let log := log ++ [.clearSock]
      (log, .exit (if os.discOk log then 0 else 1))

/-- nbd-client.c 266-273: the name after the last `/`, up to the first `p`. -/
def blockName (dev : List Byte) : List Byte :=
  (if (47 : Byte) ∈ dev then (dev.reverse.takeWhile (· ≠ 47)).reverse else dev).takeWhile (· ≠ 112)

/-- nbd-client.c 260-291 `check_conn`, when called by -c. The name of the file is cut off after 255 bytes, and so is its text. -/
def checkConn (os : CliOs) (dev : List Byte) (log : List CliEv) : CliRes Unit :=
  match os.sys ((ascii "/sys/block/" ++ blockName dev ++ ascii "/pid").take 255) with
  | .absent => (log, .exit 1)
  | .unopenable => (log, .exit 2)
  | .unreadable => (log, .exit 2)
  | .text bs => (log ++ [.print (cstr (bs.take 255) ++ [10])], .exit 0)

/-- nbd-client.c 926-1373 `main`; `n` bounds the number of times a lost connection is replaced, and of attempts each time. -/
def cliMain (nl : Bool) (os : CliOs) (table : Option (List Byte)) (n : Nat) (opts : List CliOpt) : CliRes Unit :=
  match cliLoop nl opts (cliStart nl) with
  | .exit s => ([], .exit s)
  | .check d => checkConn os d []
  | .go st =>
    if st.disc then cliDisconnect os st.netlink (st.dev.getD []) []
    else
      match cliReady table st with
      | .val st => cliConnect os n st []
      | .exit s => ([], .exit s)
      | .ub => ([], .ub)
      | .running => ([], .running)

end Nbd
