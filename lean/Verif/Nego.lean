import Verif.Exp
import Verif.Wire
/-!
# The server's side of the option negotiation

nbd-server.c 1795-1815 (`send_reply`), 2169-2195 (`send_export_info`), 2283-2643 (`commit_client`
and the option handlers) and 2652-2765 (`negotiate`).

The peer's bytes are one list per phase: `inp` is what the peer still has to say (and then closes
the connection), `tlsIn` what it says inside TLS once a handshake succeeded (`none`: the handshake
fails). Sending always succeeds: a failed send ends the process, so the bytes sent up to it are a
prefix of the bytes the model sends.
-/

set_option autoImplicit false

namespace Nbd

/-! cliserv.h 71, 100-119, 122-126, 129; cliserv.c 13-14; nbd-server.c 190, 195-198;
nbd.h 51-59. -/
/-- cliserv.h 71 `INIT_PASSWD`. -/
def INIT_PASSWD : List Byte := [78, 66, 68, 77, 65, 71, 73, 67]
/-- cliserv.c 13 `opts_magic`. -/
def OPTS_MAGIC : UInt64 := 0x49484156454F5054
/-- cliserv.c 14 `rep_magic`. -/
def REP_MAGIC : UInt64 := 0x3e889045565a9
/-- cliserv.h 100 `NBD_OPT_EXPORT_NAME`. -/
def OPT_EXPORT_NAME : Nat := 1
/-- cliserv.h 101 `NBD_OPT_ABORT`. -/
def OPT_ABORT : Nat := 2
/-- cliserv.h 102 `NBD_OPT_LIST`. -/
def OPT_LIST : Nat := 3
/-- cliserv.h 103 `NBD_OPT_STARTTLS`. -/
def OPT_STARTTLS : Nat := 5
/-- cliserv.h 104 `NBD_OPT_INFO`. -/
def OPT_INFO : Nat := 6
/-- cliserv.h 105 `NBD_OPT_GO`. -/
def OPT_GO : Nat := 7
/-- cliserv.h 106 `NBD_OPT_STRUCTURED_REPLY`. -/
def OPT_STRUCTURED_REPLY : Nat := 8
/-- cliserv.h 109 `NBD_REP_ACK`. -/
def REP_ACK : UInt32 := 1
/-- cliserv.h 110 `NBD_REP_SERVER`. -/
def REP_SERVER : UInt32 := 2
/-- cliserv.h 111 `NBD_REP_INFO`. -/
def REP_INFO : UInt32 := 3
/-- cliserv.h 113 `NBD_REP_ERR_UNSUP`. -/
def REP_ERR_UNSUP : UInt32 := 0x80000001
/-- cliserv.h 114 `NBD_REP_ERR_POLICY`. -/
def REP_ERR_POLICY : UInt32 := 0x80000002
/-- cliserv.h 115 `NBD_REP_ERR_INVALID`. -/
def REP_ERR_INVALID : UInt32 := 0x80000003
/-- cliserv.h 117 `NBD_REP_ERR_TLS_REQD`. -/
def REP_ERR_TLS_REQD : UInt32 := 0x80000005
/-- cliserv.h 118 `NBD_REP_ERR_UNKNOWN`. -/
def REP_ERR_UNKNOWN : UInt32 := 0x80000006
/-- cliserv.h 122 `NBD_FLAG_FIXED_NEWSTYLE`. -/
def GFLAG_FIXED_NEWSTYLE : UInt16 := 1
/-- cliserv.h 123 `NBD_FLAG_NO_ZEROES`. -/
def GFLAG_NO_ZEROES : UInt16 := 2
/-- cliserv.h 126 `NBD_FLAG_C_NO_ZEROES`. -/
def C_NO_ZEROES : Nat := 2
/-- cliserv.h 129 `NBD_INFO_EXPORT`. -/
def INFO_EXPORT : Nat := 0
/-- nbd-server.c 190 `OFFT_MAX`. -/
def OFFT_MAX : Nat := 2 ^ 63 - 1
/-- nbd.h 51 `NBD_FLAG_HAS_FLAGS`. -/
def FLAG_HAS_FLAGS : Nat := 1
/-- nbd.h 52 `NBD_FLAG_READ_ONLY`. -/
def FLAG_READ_ONLY : Nat := 2
/-- nbd.h 53 `NBD_FLAG_SEND_FLUSH`. -/
def FLAG_SEND_FLUSH : Nat := 4
/-- nbd.h 54 `NBD_FLAG_SEND_FUA`. -/
def FLAG_SEND_FUA : Nat := 8
/-- nbd.h 55 `NBD_FLAG_ROTATIONAL`. -/
def FLAG_ROTATIONAL : Nat := 16
/-- nbd.h 56 `NBD_FLAG_SEND_TRIM`. -/
def FLAG_SEND_TRIM : Nat := 32
/-- nbd.h 57 `NBD_FLAG_SEND_WRITE_ZEROES`. -/
def FLAG_SEND_WRITE_ZEROES : Nat := 64
/-- nbd.h 58 `NBD_FLAG_SEND_DF`. -/
def FLAG_SEND_DF : Nat := 128
/-- nbd.h 59 `NBD_FLAG_CAN_MULTI_CONN`. -/
def FLAG_CAN_MULTI_CONN : Nat := 256

/-- nbdsrv.h `SERVER`, the part negotiation uses; `id` stands for the identity of the object. -/
structure SrvExport where
  id : Nat
  name : List Byte
  flags : Nat
  expected : Nat
deriving DecidableEq, Repr

/-- The configuration of the process: `glob_flags`, whether a TLS key file is configured,
`dontfork`. nbd-server.c 178, 184 and 289-301. -/
structure NConf where
  forcedTls : Bool
  list : Bool
  keyfile : Bool
  dontfork : Bool
deriving DecidableEq, Repr

/-- What the outside world answers during one `commit_client`: the parent's answer about the connection limit, the results of `set_peername`,
`authorized_client`, the prerun script, thread creation, diff file creation, the backing files
that exist; and what a failed `setupexport` leaves behind. nbd-server.c 2283-2360. -/
structure Attempt where
  acl : Option Byte
  peerOk : Bool
  authorized : Bool
  prerunOk : Bool
  threadOk : Bool
  diffOk : Bool
  exportname : List Char
  probes : List ProbeFile
  leftSize : Nat
  leftRo : Bool

/-- Everything from outside: the answers during the `n`-th commit to a given export, whether a
`malloc` of `n` bytes succeeds. For nbd-server.c 2283-2765. -/
structure NEnv where
  attempt : Nat → SrvExport → Attempt
  malloc : Nat → Bool

/-- How negotiation ends: `serving` (the client is returned and served), `closed` (`NULL`
returned, the connection is closed), `exited` (the process ends itself), `ub` (undefined
behaviour), `running` (more options to come). The ways out of nbd-server.c 2652-2765. -/
inductive NEnd where
  | serving
  | closed
  | exited
  | ub
  | running
deriving DecidableEq, Repr

/-- nbdsrv.h `CLIENT` during negotiation, together with the two streams, the list of exports
(whose flags `setupexport` may change), `glob_flags & F_NO_ZEROES` and the number of commits so
far (the first one closes `commsocket`). -/
structure NState where
  inp : List Byte
  tlsIn : Option (List Byte)
  plainOut : List Byte
  tlsOut : List Byte
  tls : Bool
  structured : Bool
  exportsize : Nat
  server : Option SrvExport
  ex : Option Export
  servers : List SrvExport
  noZeroes : Bool
  commits : Nat

/-- A step of negotiation: goes on with a value, or ends. Models no code of its own. -/
inductive NRes (α : Type) where
  | ok (a : α) (s : NState)
  | stop (e : NEnd) (s : NState)

/-- Code that runs during negotiation. Models no code of its own. -/
def NM (α : Type) : Type := NState → NRes α

namespace NM

/-- Sequencing. Models no code of its own. -/
def bind {α β : Type} (m : NM α) (f : α → NM β) : NM β := fun s =>
  match m s with
  | .ok a s => f a s
  | .stop e s => .stop e s

instance : Monad NM where
  pure a := fun s => .ok a s
  bind := bind

/-- End of the negotiation. Models no code of its own. -/
def stop {α : Type} (e : NEnd) : NM α := fun s => .stop e s

/-- The current state. Models no code of its own. -/
def get : NM NState := fun s => .ok s s

/-- Change of state. Models no code of its own. -/
def modify (f : NState → NState) : NM Unit := fun s => .ok () (f s)

end NM

/-- nbd-server.c 363-370 `socket_read` (exact by `Props.C16_receive`); when the peer has closed the
connection the process ends (`socket_closed_negotiate`). -/
def recv (n : Nat) : NM (List Byte) := fun s =>
  if s.inp.length < n then .stop .exited s
  else .ok (s.inp.take n) { s with inp := s.inp.drop n }

/-- nbd-server.c 402-408 `socket_write`. -/
def send (bs : List Byte) : NM Unit := fun s =>
  .ok () (if s.tls then { s with tlsOut := s.tlsOut ++ bs } else { s with plainOut := s.plainOut ++ bs })

/-- nbd-server.c 379-386 `consume` (exact by `Props.C16_consume`). -/
def skip (n : Nat) : NM Unit := fun s =>
  if s.inp.length < n then .stop .exited s else .ok () { s with inp := s.inp.drop n }

/-- Reading a 16- or 32-bit number in network byte order. -/
def recv16 (e : Endian) : NM Nat := do return (ntohs e (load16 e (← recv 2))).toNat
/-- A `uint32_t` in network order, read as at nbd-server.c 363-377 and 2674. -/
def recv32 (e : Endian) : NM Nat := do return (ntohl e (load32 e (← recv 4))).toNat

/-- nbd-server.c 393-400 `consume_len`. -/
def consumeLen (e : Endian) : NM Unit := do skip (← recv32 e)

/-- A text as bytes. Models no code of its own. -/
def ascii (s : String) : List Byte := s.toList.map fun c => UInt8.ofNat c.toNat

/-- The C string at the start of a buffer: everything before the first NUL. (C strings, as at nbd-server.c 2376-2390 and 2623.) -/
def cstr (bs : List Byte) : List Byte := bs.takeWhile (· ≠ 0)

/-- nbd-server.c 1795-1815 `send_reply`: header with declared length `size`, then the data. -/
def sendReplyN (e : Endian) (opt : Nat) (type : UInt32) (size : Nat) (data : List Byte) : NM Unit :=
  send (store64 e (ntohll e REP_MAGIC) ++ store32 e (ntohl e (UInt32.ofNat opt)) ++
    store32 e (ntohl e type) ++ store32 e (ntohl e (UInt32.ofNat size)) ++ data)

/-- `send_reply` where the declared length is the length of the data. nbd-server.c 1795-1815. -/
def sendReply (e : Endian) (opt : Nat) (type : UInt32) (data : List Byte) : NM Unit :=
  sendReplyN e opt type data.length data

/-- nbd-server.c 2171-2187: the transmission flags. -/
def exportFlags (flags : Nat) (structured : Bool) : Nat :=
  FLAG_HAS_FLAGS ||| FLAG_SEND_WRITE_ZEROES
    ||| (if has flags F_READONLY then FLAG_READ_ONLY else 0)
    ||| (if has flags F_FLUSH then FLAG_SEND_FLUSH else 0)
    ||| (if has flags F_FUA then FLAG_SEND_FUA else 0)
    ||| (if has flags F_ROTATIONAL then FLAG_ROTATIONAL else 0)
    ||| (if has flags F_TRIM then FLAG_SEND_TRIM else 0)
    ||| (if !has flags F_COPYONWRITE then FLAG_CAN_MULTI_CONN else 0)
    ||| (if structured then FLAG_SEND_DF else 0)

/-- nbd-server.c 2169-2195 `send_export_info`. -/
def sendExportInfo (e : Endian) (sv : SrvExport) (maybeZeroes : Bool) : NM Unit := do
  let s ← NM.get
  send (store64 e (ntohll e (UInt64.ofNat s.exportsize)))
  send (store16 e (ntohs e (UInt16.ofNat (exportFlags sv.flags s.structured))))
  if !s.noZeroes && maybeZeroes then send (List.replicate 124 0)

/-- Nbd-server.c 2063-2066: `setupexport` found the file not writable. -/
def markRo (id : Nat) (servers : List SrvExport) : List SrvExport :=
  servers.map fun x => if x.id = id then { x with flags := x.flags ||| F_AUTOREADONLY ||| F_READONLY } else x

/-- nbd-server.c 2283-2360 `commit_client`; `none` is the return value `false`, otherwise the
export as it is after `setupexport`. A second commit of the same process talks to the closed
`commsocket` and uses an uninitialised answer; so does one whose parent does not answer.
Simplification: initialising the two locks succeeds. -/
def commitClient (env : NEnv) (cf : NConf) (sv : SrvExport) : NM (Option SrvExport) := do
  let s ← NM.get
  let at' := env.attempt s.commits sv
  NM.modify fun s => { s with server := some sv, exportsize := OFFT_MAX, commits := s.commits + 1 }
  if !cf.dontfork && (s.commits ≠ 0 || at'.acl = none) then NM.stop .ub
  if !cf.dontfork && (at'.acl = some 78 || at'.acl = some 88) then return none
  if !at'.peerOk then return none
  if !at'.authorized then return none
  if !at'.prerunOk then return none
  if has sv.flags F_WAIT && !at'.threadOk then
    NM.modify fun s => { s with exportsize := sv.expected }
    return none
  match setupExport sv.flags sv.expected at'.exportname at'.probes with
  | none =>
    NM.modify fun s => { s with
      exportsize := at'.leftSize
      servers := if at'.leftRo then markRo sv.id s.servers else s.servers }
    return none
  | some ex =>
    NM.modify fun s => { s with
      exportsize := ex.exportsize
      ex := some ex
      server := some { sv with flags := ex.flags }
      servers := if ex.flags ≠ sv.flags then markRo sv.id s.servers else s.servers }
    if (has ex.flags F_COPYONWRITE || has ex.flags F_WAIT) && !at'.diffOk then NM.stop .exited
    return some { sv with flags := ex.flags }

/-- nbd-server.c 2381-2385: is the export shown to this client? -/
def visible (tls : Bool) (sv : SrvExport) : Bool := !(has sv.flags F_FORCEDTLS && !tls)

/-- nbd-server.c 2362-2398 `handle_export_name` and the code around its call in `negotiate`. -/
def handleExportName (e : Endian) (env : NEnv) (cf : NConf) : NM Unit := do
  let namelen ← recv32 e
  if namelen > 4096 then NM.stop .closed
  let name := cstr (← recv namelen)
  let s ← NM.get
  match s.servers.find? (fun sv => visible s.tls sv && sv.name == name) with
  | none => NM.stop .exited
  | some sv =>
    match ← commitClient env cf sv with
    | none => NM.stop .closed
    | some sv =>
      sendExportInfo e sv true
      NM.stop .serving

/-- nbd-server.c 2416-2426: the records of the list reply. A name that does not fit the 1024-byte
buffer makes `send_reply` read past it. -/
def sendList (e : Endian) (tls : Bool) : List SrvExport → NM Unit
  | [] => pure ()
  | sv :: rest => do
    if visible tls sv then
      if sv.name.length > 1020 then NM.stop .ub
      sendReply e OPT_LIST REP_SERVER (store32 e (ntohl e (UInt32.ofNat sv.name.length)) ++ sv.name)
    sendList e tls rest

/-- nbd-server.c 2400-2428 `handle_list`. A nonzero length is complained about but the data is not
skipped. -/
def handleList (e : Endian) (cf : NConf) : NM Unit := do
  let len ← recv32 e
  if len ≠ 0 then
    sendReply e OPT_LIST REP_ERR_INVALID (ascii "NBD_OPT_LIST with nonzero data length is not a valid request")
  if !cf.list then
    sendReply e OPT_LIST REP_ERR_POLICY (ascii "Listing of exports denied by server configuration")
  else
    let s ← NM.get
    sendList e s.tls s.servers
    sendReply e OPT_LIST REP_ACK []

/-- nbd-server.c 2469-2527 `handle_starttls` and 2741-2742. The length is an `int` in host byte
order: when it is not zero the payload is skipped (a negative value becomes a huge `size_t`) and the
connection closed. -/
def handleStarttls (e : Endian) : NM Unit := do
  let len := load e (← recv 4)
  if len ≠ 0 then
    skip (if len < 2 ^ 31 then len else 2 ^ 64 - 2 ^ 32 + len)
    sendReply e OPT_STARTTLS REP_ERR_INVALID (ascii "Sending a STARTTLS command with data is invalid")
    NM.stop .closed
  sendReply e OPT_STARTTLS REP_ACK []
  let s ← NM.get
  match s.tlsIn with
  | none => NM.stop .closed
  | some inp =>
    NM.modify fun s => { s with tls := true, inp := inp, tlsIn := none, server := none, structured := false }

/-- nbd-server.c 2533-2551 `handle_structured_reply`. -/
def handleStructuredReply (e : Endian) : NM Unit := do
  let len ← recv32 e
  if len ≠ 0 then
    sendReply e OPT_STRUCTURED_REPLY REP_ERR_INVALID
      (ascii "NBD_OPT_STRUCTURED_REPLY with nonzero data length is not a valid request")
    skip len
  else
    let s ← NM.get
    if s.structured then
      sendReply e OPT_STRUCTURED_REPLY REP_ERR_INVALID
        (ascii "NBD_OPT_STRUCTURED_REPLY has already been called")
    else
      NM.modify fun s => { s with structured := true }
      sendReply e OPT_STRUCTURED_REPLY REP_ACK []

/-- nbd-server.c 2588-2598: the last visible export of that name, and the error to report if there
is none. -/
def infoLookup (tls : Bool) (name : List Byte) : List SrvExport → Option SrvExport → UInt32 × List Byte →
    Option SrvExport × UInt32 × List Byte
  | [], found, err => (found, err)
  | sv :: rest, found, err =>
    if sv.name == name then
      if visible tls sv then infoLookup tls name rest (some sv) err
      else infoLookup tls name rest found (REP_ERR_TLS_REQD, ascii "TLS is required for that export")
    else infoLookup tls name rest found err

/-- nbd-server.c 2617-2621, 2630-2633: one export information reply; `request` are the two bytes
naming the kind of information. -/
def sendInfo (e : Endian) (opt : Nat) (sv : SrvExport) (request : List Byte) : NM Unit := do
  sendReplyN e opt REP_INFO 12 []
  send request
  sendExportInfo e sv false

/-- nbd-server.c 2613-2628: the information requests; the result is `sent_export`. -/
def infoRequests (e : Endian) (opt : Nat) (sv : SrvExport) : Nat → Bool → NM Bool
  | 0, sent => pure sent
  | n + 1, sent => do
    let request ← recv 2
    if (ntohs e (load16 e request)).toNat = INFO_EXPORT then
      sendInfo e opt sv request
      infoRequests e opt sv n true
    else infoRequests e opt sv n sent

/-- nbd-server.c 2569-2573: a name longer than the option allows; the payload is skipped, but the
handler goes on. `len - 6` is computed in 32 bits, `len - 4` in 64. -/
def infoCheckLen (e : Endian) (opt len namelen : Nat) : NM Unit :=
  if namelen > (len + 2 ^ 32 - 6) % 2 ^ 32 then do
    sendReply e opt REP_ERR_INVALID
      (ascii "An OPT_INFO request cannot be smaller than the length of the name + 6")
    skip ((len + 2 ^ 64 - 4) % 2 ^ 64)
  else pure ()

/-- nbd-server.c 2574-2577: a name longer than 4096; as above. -/
def infoCheckName (e : Endian) (opt namelen : Nat) : NM Unit :=
  if namelen > 4096 then do
    sendReply e opt REP_ERR_INVALID (ascii "The name for this OPT_INFO request is too long")
    skip namelen
  else pure ()

/-- nbd-server.c 2578-2587: reading the name. `namelen + 1` is computed in 32 bits, so `namelen =
2^32-1` allocates nothing and the terminating NUL is written 4 GiB past it. `none`: no memory. -/
def infoName (e : Endian) (env : NEnv) (opt namelen : Nat) : NM (Option (List Byte)) :=
  if namelen > 0 then
    if env.malloc ((namelen + 1) % 2 ^ 32) then
      if namelen + 1 = 2 ^ 32 then NM.stop .ub
      else do return some (cstr (← recv namelen))
    else do
      sendReply e opt REP_ERR_UNKNOWN (ascii "nbd server out of memory")
      return none
  else pure (some [])

/-- nbd-server.c 2556-2643 `handle_info` and 2746-2748: with GO, success ends negotiation. -/
def handleInfo (e : Endian) (env : NEnv) (cf : NConf) (opt : Nat) : NM Unit := do
  let len ← recv32 e
  let namelen ← recv32 e
  infoCheckLen e opt len namelen
  infoCheckName e opt namelen
  match ← infoName e env opt namelen with
  | none => pure ()
  | some name =>
    let s ← NM.get
    let n ← recv16 e
    match infoLookup s.tls name s.servers none (REP_ERR_UNKNOWN, ascii "Export unknown") with
    | (none, type, text) =>
      skip (2 * n)
      sendReply e opt type text
    | (some sv, _) =>
      if opt = OPT_GO then
        match ← commitClient env cf sv with
        | none =>
          skip (2 * n)
          sendReply e opt REP_ERR_POLICY (ascii "Access denied by server configuration")
        | some sv =>
          if !(← infoRequests e opt sv n false) then
            sendInfo e opt sv (store16 e (ntohs e (UInt16.ofNat INFO_EXPORT)))
          sendReply e opt REP_ACK []
          NM.stop .serving
      else
        if !(← infoRequests e opt sv n false) then
          sendInfo e opt sv (store16 e (ntohs e (UInt16.ofNat INFO_EXPORT)))
        sendReply e opt REP_ACK []

/-- nbd-server.c 2716-2757: the `switch` over the option. -/
def dispatch (e : Endian) (env : NEnv) (cf : NConf) (opt : Nat) : NM Unit := do
  if opt = OPT_EXPORT_NAME then handleExportName e env cf
  else if opt = OPT_LIST then handleList e cf
  else if opt = OPT_ABORT then NM.stop .closed
  else if opt = OPT_STARTTLS then
    let s ← NM.get
    if s.tls then
      consumeLen e
      sendReply e opt REP_ERR_INVALID (ascii "Invalid STARTTLS request: TLS has already been negotiated!")
    else if !cf.keyfile then
      consumeLen e
      sendReply e opt REP_ERR_POLICY (ascii "TLS not allowed on this server")
    else handleStarttls e
  else if opt = OPT_GO ∨ opt = OPT_INFO then handleInfo e env cf opt
  else if opt = OPT_STRUCTURED_REPLY then handleStructuredReply e
  else
    consumeLen e
    sendReply e opt REP_ERR_UNSUP (ascii "The given option is unknown to this server implementation")

/-- nbd-server.c 2687-2758: one turn of the option loop. -/
def oneOption (e : Endian) (env : NEnv) (cf : NConf) : NM Unit := do
  let magic := ntohll e (load64 e (← recv 8))
  if magic ≠ OPTS_MAGIC then NM.stop .closed
  let opt ← recv32 e
  let s ← NM.get
  if !s.tls && cf.forcedTls && opt ≠ OPT_STARTTLS then
    if opt = OPT_EXPORT_NAME then NM.stop .closed
    if opt = OPT_ABORT then NM.stop .closed
    consumeLen e
    sendReply e opt REP_ERR_TLS_REQD (ascii "TLS is required on this server")
  else dispatch e env cf opt

/-- nbd-server.c 2687-2758: the option loop, for `n` options; `running` if it is not over then. -/
def optionLoop (e : Endian) (env : NEnv) (cf : NConf) : Nat → NM Unit
  | 0 => NM.stop .running
  | n + 1 => do
    oneOption e env cf
    optionLoop e env cf n

/-- nbd-server.c 2652-2686: greeting and client flags. -/
def greet (e : Endian) : NM Unit := do
  send INIT_PASSWD
  send (store64 e (ntohll e OPTS_MAGIC))
  send (store16 e (ntohs e (GFLAG_FIXED_NEWSTYLE ||| GFLAG_NO_ZEROES)))
  let cflags ← recv32 e
  if has cflags C_NO_ZEROES then NM.modify fun s => { s with noZeroes := true }

/-- nbd-server.c 2652-2765 `negotiate`, up to `n` options. -/
def negotiate (e : Endian) (env : NEnv) (cf : NConf) (n : Nat) : NM Unit := do
  greet e
  optionLoop e env cf n

/-- nbd-server.c 2658-2669: a new connection. `noZeroes` is what earlier clients of the same process
left in `glob_flags` (always `false` unless `dontfork`). -/
def NState.fresh (servers : List SrvExport) (noZeroes : Bool) (inp : List Byte)
    (tlsIn : Option (List Byte)) : NState :=
  ⟨inp, tlsIn, [], [], false, false, 0, none, none, servers, noZeroes, 0⟩

/-- Negotiation on a new connection: how it ends and the final state. nbd-server.c 2652-2765 `negotiate`, on the connection of 3219-3296. -/
def session (e : Endian) (env : NEnv) (cf : NConf) (n : Nat) (servers : List SrvExport)
    (noZeroes : Bool) (inp : List Byte) (tlsIn : Option (List Byte)) : NEnd × NState :=
  match negotiate e env cf n (.fresh servers noZeroes inp tlsIn) with
  | .ok _ s => (.running, s)
  | .stop r s => (r, s)

/-- nbd-server.c 2142-2167 `copyonwrite_prepare` and the client that is served: the transmission
phase (`Verif.Request`) starts in this state. -/
def NState.client (s : NState) (difffile : Nat) : Option Client :=
  s.ex.map fun ex =>
    { ex := ex, waiting := has ex.flags F_WAIT,
      difmap := List.replicate (ex.exportsize / DIFFPAGESIZE) NOPAGE, difffilelen := 0,
      difffile := difffile, diffpos := 0, structured := s.structured, tls := s.tls }

end Nbd
