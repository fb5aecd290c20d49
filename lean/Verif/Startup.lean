import Verif.Config
import Verif.Nego
/-!
# Starting the server

nbd-server.c 3587-3870 and 3963-3988: `open_unix`, `open_modern`, `setup_servers`, `daemonize`, `dousers` and the end of `main`, from the
point where the configuration has been read.
-/

set_option autoImplicit false

namespace Nbd

/-- NBD_DEFAULT_PORT (cliserv.h 96). -/
def defaultPort : List Byte := ascii "10809"

/-- Tested at nbd-server.c 3688. -/
def EADDRINUSE : Nat := 98

/-- What a socket can listen on. As opened by nbd-server.c 3583-3728. -/
inductive SockAddr where
  | unix (path : List Byte)
  | inet (host port : List Byte)
deriving DecidableEq, Repr

/-- How the calls that make one listening socket end: the first that fails, or none. The calls of nbd-server.c 3550-3728. -/
inductive ListenTry where
  | noSocket
  | noOption
  | bindErr (errno : Nat)
  | listenErr
  | done
deriving DecidableEq, Repr

/-- What an open descriptor of the server refers to: what it was given when it was started, or /dev/null. As changed by nbd-server.c 3786-3841. -/
inductive FdObj where
  | given (n : Nat)
  | null
deriving DecidableEq, Repr

/-- The answers of the operating system and the C library. `resolve name port` is `getaddrinfo`; `attempt socks a` is what happens when a
process listening on `socks` tries to listen on `a`; `childPid` is the process that `fork` makes the `n`-th time. For nbd-server.c 3550-4000. -/
structure Os where
  resolve : List Byte → List Byte → Option (List SockAddr)
  attempt : List SockAddr → SockAddr → ListenTry
  group : List Byte → Option Nat
  user : List Byte → Option Nat
  setgidOk : Nat → Bool
  setgroupsOk : Bool
  setuidOk : Nat → Bool
  forkOk : Nat → Bool
  childPid : Nat → Nat
  setsidOk : Bool
  chdirOk : Bool
  nullOk : Bool
  pidFileOk : Bool
  sigactionOk : Bool

/-- The server process. `status`: the exit status that whoever started the server has seen, if it has seen one. nbd-server.c 3730-4000. -/
structure Proc where
  pid : Nat
  uid : Nat
  gid : Nat
  groups : List Nat
  listening : List SockAddr
  fds : List (Option FdObj)
  pidFile : Option (List Byte × Nat)
  status : Option Nat
deriving DecidableEq, Repr

/-- How starting ends. `exited n`: the server has ended, and whoever started it sees status `n`. `serving`: `serveloop` is called.
`inetd`: `negotiate(0, …)` is called. The ways out of nbd-server.c 3907-4000. -/
inductive StartEnd where
  | exited (status : Nat)
  | serving (p : Proc)
  | inetd (p : Proc)
deriving DecidableEq, Repr

/-- `exit(EXIT_FAILURE)`; a daemon's status is seen by nobody. Called throughout nbd-server.c 3730-4000, through cliserv.c 75-85. -/
def Proc.fails (p : Proc) : StartEnd := .exited (p.status.getD 1)

/-- GLib `g_strsplit_set(s, ", \t", -1)`, for a text that is not empty. Called at nbd-server.c 3640. -/
def splitSet : List Byte → List (List Byte)
  | [] => [[]]
  | b :: bs =>
    if b = 44 ∨ b = 32 ∨ b = 9 then [] :: splitSet bs
    else
      match splitSet bs with
      | [] => [[b]]
      | p :: ps => (b :: p) :: ps

/-- nbd-server.c 3664-3705: the addresses one name stands for; `none` is `goto out`. (A socket that could not be bound because the
address is in use stays open: that is not in the model.) -/
def openList (os : Os) : List SockAddr → List SockAddr → Option (List SockAddr)
  | [], socks => some socks
  | a :: rest, socks =>
    match os.attempt socks a with
    | .done => openList os rest (socks ++ [a])
    | .bindErr e => if e = EADDRINUSE ∧ socks ≠ [] then openList os rest socks else none
    | _ => none

/-- nbd-server.c 3642-3712: the loop of `open_modern` over the pieces of the list of addresses. A name that is not resolved is an error
only if it is the last piece and there is no socket yet. -/
def openModernLoop (os : Os) (port : List Byte) : List (List Byte) → List SockAddr → Option (List SockAddr)
  | [], socks => some socks
  | piece :: rest, socks =>
    if piece = [] then openModernLoop os port rest socks
    else
      match os.resolve piece port with
      | none => if rest = [] ∧ socks = [] then none else openModernLoop os port rest socks
      | some l =>
        match openList os l socks with
        | none => none
        | some socks => openModernLoop os port rest socks

/-- nbd-server.c 3624-3728 `open_modern`. -/
def openModern (os : Os) (addr port : Option (List Byte)) (socks : List SockAddr) : Option (List SockAddr) :=
  let l := match addr with
    | none => ascii "::, 0.0.0.0"
    | some [] => ascii "::, 0.0.0.0"
    | some a => a
  openModernLoop os (port.getD defaultPort) (splitSet l) socks

/-- nbd-server.c 3587-3622 `open_unix`; the path is cut to what fits into `sun_path`. -/
def openUnix (os : Os) (path : List Byte) (socks : List SockAddr) : Option (List SockAddr) :=
  match os.attempt socks (.unix (path.take 107)) with
  | .done => some (socks ++ [.unix (path.take 107)])
  | _ => none

/-- nbd-server.c 3730-3790 `setup_servers`; `none` is `exit(EXIT_FAILURE)`. -/
def setupServers (os : Os) (conf : GenConf) (p : Proc) : Option Proc :=
  match (match conf.unixsock with
    | none => some p.listening
    | some path => openUnix os path p.listening) with
  | none => none
  | some socks =>
    match (if has conf.flags F_DUAL_LISTEN || conf.unixsock.isNone then openModern os conf.modernaddr conf.modernport socks
      else some socks) with
    | none => none
    | some socks => if os.sigactionOk then some { p with listening := socks } else none

/-- nbd-server.c 3843-3870 `dousers`; `none` is `err`. `setuid` and `setgid` change all of the process's IDs: the model has one of each. -/
def dousers (os : Os) (user group : Option (List Byte)) (p : Proc) : Option Proc :=
  match (match group with
    | none => some p
    | some g =>
      match os.group g with
      | none => none
      | some id => if os.setgidOk id then some { p with gid := id } else none) with
  | none => none
  | some p =>
    match user with
    | none => some p
    | some u =>
      match os.user u with
      | none => none
      | some id =>
        if !os.setgroupsOk then none
        else
          let p := { p with groups := [] }
          if os.setuidOk id then some { p with uid := id } else none

/-- The descriptor the next `open` returns. (Kernel; for nbd-server.c 3786-3841.) -/
def lowestFd (fds : List (Option FdObj)) : Nat := fds.findIdx (· = none)

/-- `dup2(old, new)`, with `new` open; `none` if `old` is not open. Called at nbd-server.c 3807-3813. -/
def dup2 (fds : List (Option FdObj)) (old new : Nat) : Option (List (Option FdObj)) :=
  match fds[old]? with
  | some (some o) => some (fds.set new (some o))
  | _ => none

/-- nbd-server.c 3797-3838 `daemonize`; `pidfname` is what `-p` set. The arguments of the `dup2` calls are in the code's order. -/
def daemonize (os : Os) (pidfname : List Byte) (p : Proc) : StartEnd ⊕ Proc :=
  if !os.forkOk 0 then .inl p.fails
  else
    let p := { p with pid := os.childPid 0, status := some 0 }
    if !os.setsidOk then .inl p.fails
    else if !os.chdirOk then .inl p.fails
    else
      let pidfname := if pidfname = [] then ascii "/var/run/nbd-server.pid" else pidfname
      if !os.nullOk then .inl p.fails
      else
        let newfd := lowestFd p.fds
        let fds := (p.fds ++ [none]).set newfd (some .null)
        match dup2 fds 0 newfd with
        | none => .inl p.fails
        | some fds =>
          match dup2 fds 1 newfd with
          | none => .inl p.fails
          | some fds =>
            match dup2 fds 2 newfd with
            | none => .inl p.fails
            | some fds =>
              if !os.forkOk 1 then .inl p.fails
              else
                let p := { p with pid := os.childPid 1, fds := fds }
                .inr (if os.pidFileOk then { p with pidFile := some (pidfname, p.pid) } else p)

/-- nbd-server.c 641-644: the argument of `-p` is cut to what fits into `pidfname`. -/
def pidfnameOf (opts : List CmdOpt) : List Byte :=
  opts.foldl (fun name o => match o with
    | .pidFile v => v.take 255
    | _ => name) []

/-- nbd-server.c 3963-3988: the rest of `main`. GnuTLS is initialised in between. -/
def start (os : Os) (conf : GenConf) (nodaemon : Bool) (pidfname : List Byte) (p : Proc) : StartEnd :=
  match (if nodaemon then .inr p else daemonize os pidfname p) with
  | .inl e => e
  | .inr p =>
    match setupServers os conf p with
    | none => p.fails
    | some p =>
      match dousers os conf.user conf.group p with
      | none => p.fails
      | some p => if conf.modernport = some (ascii "0") then .inetd p else .serving p

/-- nbd-server.c 2304-2312 and 254 in a server run by inetd without `-d`: `commsocket` was never set, so it is 0, which is the client's
connection. `commit_client` sends the name of the export there, takes the next byte of the client for the parent's answer, and closes
it; `set_peername` then finds no connection. (What is sent before that is not in the model.) -/
def inetdEnv (env : NEnv) (cf : NConf) : NEnv :=
  if cf.dontfork then env
  else { env with attempt := fun k sv => { env.attempt k sv with peerOk := false } }

/-- nbd-server.c 3979: negotiation on standard input. -/
def inetdSession (e : Endian) (env : NEnv) (cf : NConf) (n : Nat) (servers : List SrvExport) (inp : List Byte)
    (tlsIn : Option (List Byte)) : NEnd × NState :=
  session e (inetdEnv env cf) cf n servers false inp tlsIn

end Nbd
