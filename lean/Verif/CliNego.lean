import Verif.Nego
import Verif.ErrText
/-!
# The client's side of the option negotiation

nbd-client.c 365-762: `send_request`, `send_info_request`, `read_reply`, `ask_list`, `parse_sizes`,
`send_opt_exportname` and `negotiate`.

`inp` is what the server still has to say before it closes the connection, `tlsIn` what it says inside
TLS (nothing, if the handshake fails). Simplifications: sending succeeds and memory suffices; the plain `read`
calls of the STARTTLS reply and of `ask_list` return all the bytes asked for, if the server sends them.
Using memory outside a buffer is `CEnd.ub`; using a variable or a part of a buffer that was never set is
`CEnd.garbage`.
-/

set_option autoImplicit false

namespace Nbd

/-- What the client was asked to do: `cur_client->name`, `no_optgo` (`-g`), `tls`, `NBDC_DO_LIST` (`-l`).
nbdclt.h 4-27, and `opts` of nbd-client.c 926-. -/
structure CliConf where
  name : List Byte
  noOptgo : Bool
  tls : Bool
  list : Bool
deriving DecidableEq, Repr

/-- How it ends: `ready` with a size and flags, `listed` (with what was printed), `failed` (the client exits with
an error), `ub`, `garbage`; `running` is not an end. The ways out of nbd-client.c 559-762. -/
inductive CEnd where
  | ready (size flags : Nat)
  | listed
  | failed
  | ub
  | garbage
  | running
deriving DecidableEq, Repr

/-- The client while it negotiates: the streams, `cur_client->size64`, `*flags` and the names printed. -/
structure CState where
  inp : List Byte
  tlsIn : List Byte
  plainOut : List Byte
  tlsOut : List Byte
  tls : Bool
  size : Nat
  flags : Nat
  printed : List (List Byte)
deriving DecidableEq, Repr

/-- A step: goes on with a value, or ends. Models no code of its own. -/
inductive CRes (α : Type) where
  | ok (a : α) (s : CState)
  | stop (r : CEnd) (s : CState)

/-- Code of the client. Models no code of its own. -/
def CM (α : Type) : Type := CState → CRes α

namespace CM

/-- Sequencing. Models no code of its own. -/
def bind {α β : Type} (m : CM α) (f : α → CM β) : CM β := fun s =>
  match m s with
  | .ok a s => f a s
  | .stop r s => .stop r s

instance : Monad CM where
  pure a := fun s => .ok a s
  bind := bind

/-- The client ends. Models no code of its own. -/
def stop {α : Type} (r : CEnd) : CM α := fun s => .stop r s

/-- The current state. Models no code of its own. -/
def get : CM CState := fun s => .ok s s

/-- Change of state. Models no code of its own. -/
def modify (f : CState → CState) : CM Unit := fun s => .ok () (f s)

end CM

/-- cliserv.c 119-138 `readit` (exact by `Props.C16_receive`): what there is, at most `n` bytes; fewer if the server
closed the connection, which makes `readit` return -1. -/
def cread (n : Nat) : CM (List Byte) := fun s => .ok (s.inp.take n) { s with inp := s.inp.drop n }

/-- cliserv.c 148-165 `writeit`. -/
def csend (bs : List Byte) : CM Unit := fun s =>
  .ok () (if s.tls then { s with tlsOut := s.tlsOut ++ bs } else { s with plainOut := s.plainOut ++ bs })

/-- A read into a variable that is then used although it may not have been filled.
nbd-client.c 559-762 reads this way, through `readit` of cliserv.c 119-146. -/
def creadFull (n : Nat) : CM (List Byte) := do
  let bs ← cread n
  if bs.length < n then CM.stop .garbage else return bs

/-- nbd-client.c 365-383 `send_request`, with the data given (`datasize` and `data` agree). -/
def csendRequest (e : Endian) (opt : Nat) (size : Nat) (data : List Byte) : CM Unit :=
  csend (store64 e (ntohll e OPTS_MAGIC) ++ store32 e (ntohl e (UInt32.ofNat opt)) ++
    store32 e (ntohl e (UInt32.ofNat size)) ++ data)

/-- nbd-client.c 385-396 `send_info_request` without information requests, as it is called in 692. -/
def csendInfo (e : Endian) (opt : Nat) (name : List Byte) : CM Unit := do
  csendRequest e opt (4 + name.length + 2 + 0 * 2) []
  csend (store32 e (ntohl e (UInt32.ofNat name.length)))
  csend name
  csend (store16 e (ntohs e 0))

/-- nbd-client.c 398-404: a reply; `data` is the part of the declared `datasize` bytes that was received. -/
structure CReply where
  type : Nat
  datasize : Nat
  data : List Byte

/-- nbd-client.c 406-435 `read_reply`: data is read (into memory allocated for it) only if there are fewer than
4096 bytes of it, and a short read goes unnoticed. 694-697: no reply is an error. The option is not looked at. -/
def readReply (e : Endian) : CM CReply := do
  let h ← cread 20
  if h.length < 20 then CM.stop .failed
  if ntohll e (load64 e (h.take 8)) ≠ REP_MAGIC then CM.stop .failed
  let type := (ntohl e (load32 e ((h.drop 12).take 4))).toNat
  let size := (ntohl e (load32 e ((h.drop 16).take 4))).toNat
  if 0 < size ∧ size < 4096 then
    let d ← cread size
    return ⟨type, size, d⟩
  else return ⟨type, size, []⟩

/-- nbd-client.c 530-544 `parse_sizes`. -/
def parseSizes (e : Endian) (b : List Byte) : CM Unit :=
  CM.modify fun s => { s with
    size := (ntohll e (load64 e (b.take 8))).toNat
    flags := (ntohs e (load16 e ((b.drop 8).take 2))).toNat }

/-- nbd-client.c 546-557 `send_opt_exportname`; `gz` is `global_flags & NBD_FLAG_NO_ZEROES`. When the server closes
the connection and `no_optgo` is set, the buffer is used although it was not filled. -/
def csendExportName (e : Endian) (c : CliConf) (gz : Bool) : CM Unit := do
  csendRequest e OPT_EXPORT_NAME c.name.length c.name
  let b ← cread 10
  if b.length < 10 then CM.stop (if c.noOptgo then .garbage else .failed)
  parseSizes e b
  if !gz then
    let _ ← cread 124
  let s ← CM.get
  CM.stop (.ready s.size s.flags)

/-- cliserv.c 82-85 `err`: report the error and exit. -/
def cerr {α : Type} (errm errh text : List Byte) : CM α :=
  match errNonfatal text errm errh with
  | .ub => CM.stop .ub
  | _ => CM.stop .failed

/-- nbd-client.c 708-712 and 719-723: a NUL is written to the last byte of the data, the text is put into a
buffer of 1024 bytes, and the result is used as a message. -/
def cerrSaid {α : Type} (errm errh what : List Byte) (r : CReply) : CM α :=
  if r.datasize = 0 then CM.stop .failed
  else if 4096 ≤ r.datasize then CM.stop .ub
  else
    let text := r.data.take (r.datasize - 1)
    if text.length < r.datasize - 1 ∧ (0 : Byte) ∉ text then CM.stop .garbage
    else cerr errm errh ((what ++ cstr text).take 1023)

def msgPolicy : List Byte := ascii "Connection not allowed by server policy. Server said: "
def msgUnknown : List Byte := ascii "Unknown error returned by server. Server said: "

/-- nbd-client.c 693-760: one turn of the loop over the replies to GO. -/
def goStep (e : Endian) (c : CliConf) (gz : Bool) (errm errh : List Byte) : CM Bool := do
  let r ← readReply e
  if has r.type 0x80000000 then
    if r.type = REP_ERR_UNSUP.toNat then
      csendExportName e c gz
      return true
    else if r.type = REP_ERR_POLICY.toNat then cerrSaid errm errh msgPolicy r
    else cerrSaid errm errh msgUnknown r
  else if r.type = REP_INFO.toNat then
    if r.data.length < 2 then CM.stop (if 2 ≤ r.datasize ∧ r.datasize < 4096 then .garbage else .ub)
    else if (ntohs e (load16 e (r.data.take 2))).toNat = INFO_EXPORT then
      if r.data.length < 12 then CM.stop (if 12 ≤ r.datasize then .garbage else .ub)
      else
        parseSizes e (r.data.drop 2)
        return false
    else return false
  else return r.type = REP_ACK.toNat

/-- nbd-client.c 693-760: the loop. Every turn reads at least 20 bytes or ends, so `n` more than the bytes there are
is never reached. -/
def goLoop (e : Endian) (c : CliConf) (gz : Bool) (errm errh : List Byte) : Nat → CM Unit
  | 0 => CM.stop .running
  | n + 1 => do
    if ← goStep e c gz errm errh then
      let s ← CM.get
      CM.stop (.ready s.size s.flags)
    goLoop e c gz errm errh n

/-- A read of `n` bytes to the start of a buffer of `cap` bytes, and a NUL after them. nbd-client.c 437-526. -/
def creadStr (cap n : Nat) : CM (List Byte) := if cap ≤ n then CM.stop .ub else cread n

/-- nbd-client.c 511-521: the description of an export (not printed in the model, which records only names). -/
def listDescr (left : Nat) : CM Unit :=
  if 1024 ≤ left then CM.stop .failed
  else do
    let _ ← creadStr 1024 left

/-- nbd-client.c 498-524: the name and description of one export. -/
def listName (len lenn : Nat) : CM Unit :=
  if 1024 ≤ lenn then CM.stop .failed
  else do
    let name ← creadStr 1024 lenn
    CM.modify fun s => { s with printed := s.printed ++ [cstr name] }
    let left := (len + 2 ^ 33 - lenn - 4) % 2 ^ 32
    if 0 < left then listDescr left

/-- nbd-client.c 493-524: one export. -/
def listEntry (e : Endian) (len : Nat) : CM Unit := do
  let l ← creadFull 4
  listName len (ntohl e (load32 e l)).toNat

/-- nbd-client.c 470-487: an error; its text is read if it fits. -/
def listError (len : Nat) : CM Unit :=
  if 0 < len ∧ len < 1024 then do
    let _ ← creadStr 1024 len
    CM.stop .failed
  else CM.stop .failed

/-- nbd-client.c 450-526: one turn of the loop of `ask_list`; `true` at the end of the list. -/
def listStep (e : Endian) : CM Bool := do
  let m ← creadFull 8
  let _ ← creadFull 4
  let t ← creadFull 4
  let l ← creadFull 4
  let type := (ntohl e (load32 e t)).toNat
  if ntohll e (load64 e m) ≠ REP_MAGIC then CM.stop .failed
  if has type 0x80000000 then listError (ntohl e (load32 e l)).toNat
  if type = REP_ACK.toNat then return true
  if type ≠ REP_SERVER.toNat then CM.stop .failed
  listEntry e (ntohl e (load32 e l)).toNat
  return false

/-- nbd-client.c 450-526: the loop. -/
def listLoop (e : Endian) : Nat → CM Unit
  | 0 => CM.stop .running
  | n + 1 => do
    if ← listStep e then
      csendRequest e OPT_ABORT 0 []
      CM.stop .listed
    listLoop e n

/-- nbd-client.c 600-621 and 671-676: the reply to STARTTLS; from here on everything goes through the TLS
session. -/
def cliSecure (e : Endian) : CM Unit := do
  let m ← creadFull 8
  if ntohll e (load64 e m) ≠ REP_MAGIC then CM.stop .failed
  let o ← creadFull 4
  if (ntohl e (load32 e o)).toNat ≠ OPT_STARTTLS then CM.stop .failed
  let t ← creadFull 4
  if ntohl e (load32 e t) ≠ REP_ACK then CM.stop .failed
  let l ← creadFull 4
  if ntohl e (load32 e l) ≠ 0 then CM.stop .failed
  CM.modify fun s => { s with tls := true, inp := s.tlsIn, tlsIn := [] }

/-- nbd-client.c 598-676: STARTTLS. -/
def cliStarttls (e : Endian) : CM Unit := do
  csendRequest e OPT_STARTTLS 0 []
  cliSecure e

/-- cliserv.c 19: `cliserv_magic`. -/
def CLISERV_MAGIC : UInt64 := 0x00420281861253

/-- nbd-client.c 567-594: the greeting; the result says whether the server set the no-zeroes flag. A magic number
that is neither the expected one nor the old one is accepted. -/
def cliGreet (e : Endian) (c : CliConf) : CM Bool := do
  let p ← cread 8
  if p ≠ INIT_PASSWD then CM.stop .failed
  let m ← creadFull 8
  if ntohll e (load64 e m) = CLISERV_MAGIC then CM.stop .failed
  let f ← creadFull 2
  let g := ntohs e (load16 e f)
  if c.list ∧ g &&& GFLAG_FIXED_NEWSTYLE ≠ GFLAG_FIXED_NEWSTYLE then CM.stop .failed
  let gz := has g.toNat GFLAG_NO_ZEROES.toNat
  csend (store32 e (ntohl e (if gz then 1 ||| 2 else 1)))
  return gz

/-- nbd-client.c 680-762: what is done after the greeting (and STARTTLS). -/
def cliAsk (e : Endian) (c : CliConf) (errm errh : List Byte) (gz : Bool) : CM Unit := do
  let s ← CM.get
  if c.list then
    csendRequest e OPT_LIST 0 []
    listLoop e (s.inp.length + 1)
  else if c.noOptgo then csendExportName e c gz
  else
    csendInfo e OPT_GO c.name
    goLoop e c gz errm errh (s.inp.length + 1)

/-- nbd-client.c 559-762 `negotiate`. `errm` and `errh` are the texts of the current `errno` and `h_errno`. -/
def cliNegotiate (e : Endian) (c : CliConf) (errm errh : List Byte) : CM Unit := do
  let gz ← cliGreet e c
  if c.tls then cliStarttls e
  cliAsk e c errm errh gz

/-- Negotiation with a server that says `inp` (and `tlsIn` inside TLS): how it ends, and the final state. nbd-client.c 559-762 `negotiate`. -/
def cliRun (e : Endian) (c : CliConf) (errm errh : List Byte) (inp tlsIn : List Byte) : CEnd × CState :=
  match cliNegotiate e c errm errh ⟨inp, tlsIn, [], [], false, 0, 0, []⟩ with
  | .ok _ s => (.running, s)
  | .stop r s => (r, s)

end Nbd
