import Verif.Config
import Verif.Tree
/-!
# File names that depend on the client: `set_peername`, `copyonwrite_prepare`, `do_run`

nbd-server.c 441-462, 1829-1935, 1984-1988, 2142-2167, 2319-2353. Strings are lists of bytes without NUL.
-/

set_option autoImplicit false

namespace Nbd

/-- What `getpeername` stores after the address family (netinet/in.h `sockaddr_in`, `sockaddr_in6`; `port`, `flow` and `scope` have 2, 4
and 4 bytes), or a Unix socket. -/
inductive Peer where
  | unix
  | inet (port addr : List Byte)
  | inet6 (port flow addr scope : List Byte)
deriving DecidableEq, Repr

/-- `printf("%d", n)` for a number that is not negative. As used at nbd-server.c 1829-1935. -/
def decText (n : Nat) : List Byte := if n < 10 then [UInt8.ofNat (48 + n)] else decText (n / 10) ++ [UInt8.ofNat (48 + n % 10)]
termination_by n
decreasing_by omega

/-- `getnameinfo(…, NI_NUMERICHOST)` for an IPv4 address. Called at nbd-server.c 1854 and 1915. -/
def dotted (a : List Byte) : List Byte := (a.map fun b => decText b.toNat).intersperse [46] |>.flatten

/-- `getnameinfo(…, NI_NUMERICHOST)`; `v6` gives the text of an IPv6 address and scope (C library). Called at nbd-server.c 1854 and 1915. -/
def hostText (v6 : List Byte → List Byte → List Byte) : Peer → List Byte
  | .unix => ascii "unix"
  | .inet _ a => dotted a
  | .inet6 _ _ a s => v6 a s

/-- nbd-server.c 1871-1873: an IPv4-mapped address is shown as an IPv4 address. -/
def stripMapped (t : List Byte) : List Byte := if (ascii "::ffff:").isPrefixOf t then t.drop 7 else t

/-- nbd-server.c 1835-1873: `peername`. -/
def peerName (v6 : List Byte → List Byte → List Byte) (p : Peer) : List Byte := stripMapped (hostText v6 p)

/-- nbd-server.c 1908-1914: the loop that masks `n` bytes from `addrptr` on; `i` bits were done before. -/
def maskFrom (cidrlen : Nat) : Nat → Nat → List Byte → List Byte
  | 0, _, bs => bs
  | _ + 1, _, [] => []
  | n + 1, i, b :: bs => (b &&& getmaskbyte (cidrlen - i)) :: maskFrom cidrlen n (i + 8) bs

/-- nbd-server.c 1894-1914: `netaddr` after masking. `addrptr` starts at `sa_data`, the byte after the address family, which is where the port is. The
number of bytes masked is that of the address. -/
def maskedPeer (cidrlen : Nat) : Peer → Peer
  | .unix => .unix
  | .inet port a =>
    let d := maskFrom cidrlen 4 0 (port ++ a)
    .inet (d.take 2) (d.drop 2)
  | .inet6 port flow a scope =>
    let d := maskFrom cidrlen 16 0 (port ++ flow ++ a ++ scope)
    .inet6 (d.take 2) ((d.drop 2).take 4) ((d.drop 6).take 16) (d.drop 22)

/-- Text put before the rest of what `printf` writes. (For the `g_strdup_printf` of nbd-server.c 1829-1935.) -/
def prepend (t : List Byte) : Out (List Byte) → Out (List Byte)
  | .val u => .val (t ++ u)
  | .ub => .ub
  | .exit => .exit

/-- GLib `g_strdup_printf(fmt, arg)` for a string argument (as called at nbd-server.c 446, 1892 and 1920). A directive that asks for another argument,
or for one of another type, is undefined behaviour. Simplification: so are flags, widths and precisions. -/
def printfS : List Byte → Option (List Byte) → Out (List Byte)
  | [], _ => .val []
  | [b], _ => if b = 37 then .ub else .val [b]
  | b :: c :: rest, arg =>
    if b = 37 then
      if c = 37 then prepend [37] (printfS rest arg)
      else if c = 115 then
        match arg with
        | none => .ub
        | some a => prepend a (printfS rest none)
      else .ub
    else prepend [b] (printfS (c :: rest) arg)

/-- nbd-server.c 1829-1935 `set_peername`: `client->exportname` (`none` is NULL, which it was before) and `client->clientname`. The calls of
the C library that find out the address are assumed to work here; when they fail the client is refused (`Attempt.peerOk`). `getaddrinfo` is
assumed to say for a numeric address the family it has. -/
def setPeername (v6 : List Byte → List Byte → List Byte) (style : Virt) (cidrlen : Nat) (template : List Byte) (p : Peer) :
    Out (Option (List Byte) × List Byte) :=
  let name := peerName v6 p
  match style with
  | .none => .val (some template, name)
  | .iphash => .val (none, name.map fun b => if b = 46 then 47 else b)
  | .iplit =>
    match printfS template (some name) with
    | .val f => .val (some f, name)
    | .ub => .ub
    | .exit => .exit
  | .cidr =>
    let tmp := if p = .unix then name else hostText v6 (maskedPeer cidrlen p) ++ [47] ++ name
    match printfS template (some tmp) with
    | .val f => .val (some f, name)
    | .ub => .ub
    | .exit => .exit

/-- C library `dirname` (libgen.h): the result, and what is left in the buffer, which is changed in place. -/
def dirnameOf (p : List Byte) : List Byte × List Byte :=
  let cut (q : List Byte) : List Byte × List Byte :=   -- `q`: the reversed path up to the last slash that counts
    let r := q.dropWhile (· = 47)
    let d := if r = [] then (if q.length = 2 then [47, 47] else [47]) else r.reverse
    (d, d)
  if 47 ∉ p then ([46], p)
  else
    let t := p.reverse.dropWhile (· = 47)
    if t = [] then cut p.reverse
    else if 47 ∉ t then ([46], p)
    else cut (t.dropWhile (· ≠ 47))

/-- C library `basename` (libgen.h): the result, and what is left in the buffer (slashes at the end are cut off). -/
def basenameOf (p : List Byte) : List Byte × List Byte :=
  if p = [] then ([46], [])
  else if 47 ∉ p then (p, p)
  else
    let t := p.reverse.dropWhile (· = 47)
    if t = [] then ([47], p)
    else ((t.takeWhile (· ≠ 47)).reverse, t.reverse)

/-- nbd-server.c 2146-2153: the name of the diff file and what `client->exportname` is afterwards. -/
def diffName (cowdir : Option (List Byte)) (exportname : Option (List Byte)) (clientname : List Byte) (pid : Nat) :
    List Byte × Option (List Byte) :=
  match exportname with
  | none => ((cowdir.getD [46]) ++ [47] ++ [46] ++ [45] ++ clientname ++ [45] ++ decText pid ++ ascii ".diff", none)
  | some f =>
    let (dir, f) := match cowdir with
      | some d => (d, f)
      | none => dirnameOf f
    let (base, f) := basenameOf f
    (dir ++ [47] ++ base ++ [45] ++ clientname ++ [45] ++ decText pid ++ ascii ".diff", some f)

/-- nbd-server.c 441-450 `do_run`: the command given to `system`, if there is one. A NULL file name is printed as `(null)`. -/
def runCommand (command : Option (List Byte)) (file : Option (List Byte)) : Out (Option (List Byte)) :=
  match command with
  | none => .val none
  | some [] => .val none
  | some c =>
    match printfS c (some (file.getD (ascii "(null)"))) with
    | .val t => .val (some t)
    | .ub => .ub
    | .exit => .exit

/-- What becomes of the names of one session. nbd-server.c 1829-1935 and 2283-2360. -/
structure SessionNames where
  /-- the command run before the export is opened -/
  prerun : Option (List Byte)
  /-- the file opened by `setupexport` (for a tree export: the name of the tree), or by `wait_file` -/
  opened : Option (List Byte)
  /-- the diff file -/
  diff : Option (List Byte)
  /-- where `get_filepos` looks for the blocks of a tree export -/
  served : Option (List Byte)
  /-- the command run at the end -/
  postrun : Option (List Byte)
deriving DecidableEq, Repr

/-- nbd-server.c 2319-2353 (`commit_client`) and 454 (`finalize_client`): `set_peername`, the prerun command, `setupexport`, `copyonwrite_prepare` for
copy-on-write exports and awaited files, later the postrun command. Simplifications: not both of the last two flags (`parse_cfile` refuses that), and an
export without a file name (`parse_cfile` refuses that too) is undefined behaviour. `wait_file` (1986) opens the name in the configuration. -/
def sessionNames (v6 : List Byte → List Byte → List Byte) (s : Srv) (p : Peer) (pid : Nat) : Out SessionNames :=
  match s.exportname with
  | none => .ub
  | some template =>
  match setPeername v6 s.virtstyle s.cidrlen template p with
  | .ub => .ub
  | .exit => .exit
  | .val (file, client) =>
    match runCommand s.prerun file with
    | .ub => .ub
    | .exit => .exit
    | .val pre =>
      let d := diffName s.cowdir file client pid
      let paged := has s.flags F_COPYONWRITE || has s.flags F_WAIT
      let served := if paged then d.2 else file
      match runCommand s.postrun served with
      | .ub => .ub
      | .exit => .exit
      | .val post => .val ⟨pre, if has s.flags F_WAIT then some template else file, if paged then some d.1 else none, served, post⟩

end Nbd
