import Verif.Bytes
import Verif.Store
/-!
# Specification vocabulary: the NBD transmission-phase wire format

Written from the protocol, in terms of big-endian integers only. Nothing here refers to the
model of the code.
-/

namespace Nbd.Spec

/-- The meaning of a 28-byte request header. -/
structure Request where
  magic : Nat
  type : Nat
  cookie : List Byte
  start : Nat
  len : Nat
deriving DecidableEq, Repr

/-- Every field fits its slot. -/
structure Request.Fits (r : Request) : Prop where
  magic : r.magic < 2 ^ 32
  type : r.type < 2 ^ 32
  cookie : r.cookie.length = 8
  start : r.start < 2 ^ 64
  len : r.len < 2 ^ 32

/-- Big-endian layout of a request header. -/
def Request.encode (r : Request) : List Byte :=
  toBE 4 r.magic ++ toBE 4 r.type ++ r.cookie ++ toBE 8 r.start ++ toBE 4 r.len

/-- The header a 28-byte string stands for. -/
def Request.decode (bs : List Byte) : Request where
  magic := beVal (bs.take 4)
  type := beVal ((bs.drop 4).take 4)
  cookie := (bs.drop 8).take 8
  start := beVal ((bs.drop 16).take 8)
  len := beVal ((bs.drop 24).take 4)

/-- What a server can send in the transmission phase. -/
inductive Reply where
  /-- simple reply; `data` is the payload of a successful read -/
  | simple (error : Nat) (cookie : List Byte) (data : List Byte)
  /-- structured reply chunk -/
  | chunk (flags type : Nat) (cookie : List Byte) (payload : List Byte)
deriving DecidableEq, Repr

/-- Big-endian layout of a reply. -/
def Reply.encode : Reply → List Byte
  | .simple err cookie data => toBE 4 0x67446698 ++ toBE 4 err ++ cookie ++ data
  | .chunk flags type cookie payload =>
    toBE 4 0x668e33ef ++ toBE 2 flags ++ toBE 2 type ++ cookie ++ toBE 4 payload.length ++ payload

/-- The cookie a reply carries. -/
def Reply.cookie : Reply → List Byte
  | .simple _ c _ => c
  | .chunk _ _ c _ => c

/-- Is this the last message of an answer? (a simple reply, or a chunk flagged DONE) -/
def Reply.final : Reply → Bool
  | .simple .. => true
  | .chunk flags .. => flags % 2 == 1

/-- The error code carried by a reply (for error chunks: the first four payload bytes). -/
def Reply.error : Reply → Nat
  | .simple err _ _ => err
  | .chunk _ type _ payload => if type ≥ 32768 then beVal (payload.take 4) else 0

/-- A structured offset/data chunk. -/
def dataChunk (cookie : List Byte) (offset : Nat) (data : List Byte) : Reply :=
  .chunk 0 1 cookie (toBE 8 offset ++ data)

/-- The terminating empty chunk. -/
def doneChunk (cookie : List Byte) : Reply := .chunk 1 0 cookie []

/-- `Tiles start cs data`: the pieces `cs` (offset, bytes), none empty and none too long for a
chunk's length field, follow one another without gap or overlap from offset `start` and together
are `data`. -/
inductive Tiles : Nat → List (Nat × List Byte) → List Byte → Prop where
  | nil (start : Nat) : Tiles start [] []
  | cons (start : Nat) (bs : List Byte) (cs : List (Nat × List Byte)) (data : List Byte)
      (hne : bs ≠ []) (hmax : bs.length + 8 < 2 ^ 32) (h : Tiles (start + bs.length) cs data) :
      Tiles start ((start, bs) :: cs) (bs ++ data)

/-- A complete answer to one request: every message carries the request's cookie and exactly
the last one is final. -/
structure Answer (cookie : List Byte) (rs : List Reply) : Prop where
  cookie : ∀ r ∈ rs, r.cookie = cookie
  final : ∃ init last, rs = init ++ [last] ∧ last.final = true ∧ ∀ r ∈ init, r.final = false

/-- A successful answer to a read of `data` at `start`: one simple reply with the data, or
offset/data chunks that tile the data followed by an empty final chunk. -/
inductive ReadAnswer (cookie : List Byte) (start : Nat) (data : List Byte) : Bool → List Reply → Prop where
  | simple : ReadAnswer cookie start data false [.simple 0 cookie data]
  | structured (cs : List (Nat × List Byte)) (h : Tiles start cs data) :
      ReadAnswer cookie start data true
        (cs.map (fun x => dataChunk cookie x.1 x.2) ++ [doneChunk cookie])

/-- An answer that ends with error number `err`. -/
def ErrorAnswer (cookie : List Byte) (rs : List Reply) (err : Nat) : Prop :=
  Answer cookie rs ∧ (rs.getLast?).map Reply.error = some err

/-- A failed answer to a read: an error, possibly preceded by data chunks that tile a prefix of
the data (structured replies only). -/
inductive ReadFailure (cookie : List Byte) (start : Nat) (data : List Byte) : Bool → List Reply → Prop where
  | simple (err : Nat) (he : err ∈ [1, 5, 12, 22, 28]) :
      ReadFailure cookie start data false [.simple err cookie []]
  | structured (n err : Nat) (cs : List (Nat × List Byte)) (h : Tiles start cs (data.take n))
      (he : err ∈ [1, 5, 12, 22, 28]) (msg : List Byte) (hmsg : msg.length < 2 ^ 16) :
      ReadFailure cookie start data true
        (cs.map (fun x => dataChunk cookie x.1 x.2) ++ [.chunk 1 32769 cookie (toBE 4 err ++ msg)])

/-! ### A flat array answering requests -/

/-- One request, as far as its meaning goes: command number, offset, length and, for a write,
its payload. -/
structure Cmd where
  code : Nat
  cookie : List Byte
  start : Nat
  len : Nat
  data : List Byte

/-- The protocol's error numbers. -/
def errnos : List Nat := [1, 5, 12, 22, 28]

/-- How a server whose store is the flat array `f` of `size` bytes may answer a command, and what
the array is afterwards. A failed write may have stored a prefix; a trim may zero any part of its
range; nothing else may change. A command may be refused only with a reason: it is unknown, it
would write and the export is read-only, or its range is not inside the export. `framing` lists
the permitted framings of read replies (`true`: structured). -/
inductive FlatStep (size : Nat) (ro : Bool) (framing : List Bool) (f : Flat) (c : Cmd) : List Reply → Flat → Prop where
  | read (rs : List Reply) (hc : c.code = 0) (hr : c.start + c.len ≤ size) (m : Bool)
      (hm : m ∈ framing) (h : ReadAnswer c.cookie c.start (f.read c.start c.len) m rs) :
      FlatStep size ro framing f c rs f
  | readFails (rs : List Reply) (hc : c.code = 0) (hr : c.start + c.len ≤ size) (m : Bool)
      (hm : m ∈ framing) (h : ReadFailure c.cookie c.start (f.read c.start c.len) m rs) :
      FlatStep size ro framing f c rs f
  | write (hc : c.code = 1) (hw : ro = false) (hr : c.start + c.len ≤ size) :
      FlatStep size ro framing f c [.simple 0 c.cookie []] (f.write c.start c.data)
  | writeFails (hc : c.code = 1) (hw : ro = false) (hr : c.start + c.len ≤ size) (err n : Nat) (he : err ∈ errnos) :
      FlatStep size ro framing f c [.simple err c.cookie []] (f.write c.start (c.data.take n))
  | zeroes (hc : c.code = 6) (hw : ro = false) (hr : c.start + c.len ≤ size) :
      FlatStep size ro framing f c [.simple 0 c.cookie []] (f.write c.start (Flat.zeros c.len))
  | zeroesFails (hc : c.code = 6) (hw : ro = false) (hr : c.start + c.len ≤ size) (err n : Nat) (he : err ∈ errnos)
      (hn : n ≤ c.len) :
      FlatStep size ro framing f c [.simple err c.cookie []] (f.write c.start (Flat.zeros n))
  | flush (hc : c.code = 3) (err : Nat) (he : err = 0 ∨ err ∈ errnos) :
      FlatStep size ro framing f c [.simple err c.cookie []] f
  | trim (hc : c.code = 4) (hw : ro = false) (hr : c.start + c.len ≤ size) (g : Flat)
      (hin : ∀ i, c.start ≤ i → i < c.start + c.len → g i = f i ∨ g i = 0)
      (hout : ∀ i, i < c.start ∨ c.start + c.len ≤ i → g i = f i) :
      FlatStep size ro framing f c [.simple 0 c.cookie []] g
  | refused (err : Nat) (he : err ∈ errnos)
      (why : c.code ∉ [0, 1, 3, 4, 6] ∨ (c.code ∈ [1, 4, 6] ∧ ro = true) ∨
        (c.code ∈ [0, 1, 4, 6] ∧ size < c.start + c.len)) :
      FlatStep size ro framing f c [.simple err c.cookie []] f

/-- A sequence of commands. -/
inductive FlatRun (size : Nat) (ro : Bool) (framing : List Bool) :
    Flat → List Cmd → List Reply → Flat → Prop where
  | nil (f : Flat) : FlatRun size ro framing f [] [] f
  | cons (f g k : Flat) (c : Cmd) (rs : List Reply) (cs : List Cmd) (rest : List Reply)
      (h1 : FlatStep size ro framing f c rs g) (h2 : FlatRun size ro framing g cs rest k) :
      FlatRun size ro framing f (c :: cs) (rs ++ rest) k

/-- `Answers cookies rs`: the replies `rs` are one complete answer per cookie, in order, and
nothing else. -/
inductive Answers : List (List Byte) → List Reply → Prop where
  | nil : Answers [] []
  | cons (c : List Byte) (cs : List (List Byte)) (r rest : List Reply)
      (h1 : Answer c r) (h2 : Answers cs rest) : Answers (c :: cs) (r ++ rest)

/-! ### What a client sends -/

/-- A request together with the payload that follows it. -/
structure Sent where
  req : Request
  data : List Byte
deriving DecidableEq, Repr

/-- A well-formed request other than "disconnect". -/
structure Sent.Ok (s : Sent) : Prop where
  fits : s.req.Fits
  magic : s.req.magic = 0x25609513
  notDisc : s.req.type ≠ 2
  data : s.data.length = if s.req.type % 65536 = 1 then s.req.len else 0

/-- The bytes of a request. -/
def Sent.encode (s : Sent) : List Byte := s.req.encode ++ s.data

/-- The meaning of a request: the low 16 bits of the type are the command, the rest are flags;
flags other than FUA and NO_HOLE make it a command the array does not know. -/
def Sent.cmd (s : Sent) : Cmd where
  code := if s.req.type < 262144 then s.req.type % 65536 else 65535
  cookie := s.req.cookie
  start := s.req.start
  len := s.req.len
  data := s.data

/-- The bytes on the wire. -/
def wire (rs : List Reply) : List Byte := (rs.map Reply.encode).flatten

/-! ### A client-side parser for replies, independent of the encoder -/

/-- Read one reply from the wire. `simpleLen` is the number of data bytes that follow a
successful simple reply (the length of the read being answered, 0 for other commands). -/
def Reply.parse (simpleLen : Nat) (bs : List Byte) : Option (Reply × List Byte) :=
  if bs.length < 16 then none
  else if beVal (bs.take 4) = 0x67446698 then
    let err := beVal ((bs.drop 4).take 4)
    let cookie := (bs.drop 8).take 8
    let n := if err = 0 then simpleLen else 0
    if (bs.drop 16).length < n then none
    else some (.simple err cookie ((bs.drop 16).take n), (bs.drop 16).drop n)
  else if beVal (bs.take 4) = 0x668e33ef then
    if bs.length < 20 then none
    else
      let n := beVal ((bs.drop 16).take 4)
      if (bs.drop 20).length < n then none
      else some (.chunk (beVal ((bs.drop 4).take 2)) (beVal ((bs.drop 6).take 2))
        ((bs.drop 8).take 8) ((bs.drop 20).take n), (bs.drop 20).drop n)
  else none

/-- Read replies until the bytes run out; `none` if they do not end at a reply boundary. `fuel`
bounds the number of replies. -/
def parseReplies (simpleLen : Nat) : Nat → List Byte → Option (List Reply)
  | 0, bs => if bs = [] then some [] else none
  | fuel + 1, bs =>
    if bs = [] then some []
    else
      match Reply.parse simpleLen bs with
      | none => none
      | some (r, rest) => (parseReplies simpleLen fuel rest).map (r :: ·)

/-- Put the offset/data chunks of an answer back together: each must start where the previous one
ended; the first non-data chunk ends the data. -/
def reassemble (start : Nat) : List Reply → Option (List Byte)
  | [] => some []
  | .chunk _ 1 _ payload :: rs =>
    if payload.length < 8 ∨ beVal (payload.take 8) ≠ start then none
    else (reassemble (start + (payload.length - 8)) rs).map (payload.drop 8 ++ ·)
  | _ :: _ => some []

end Nbd.Spec
