import Verif.RingLemmas
/-!
# The TLS proxy loop of the client (`crypto-gnutls.c` 358-628 `tlssession_mainloop`)

The handshake is assumed done. The environment's part of each turn of the loop is a `Turn`; the
`EINTR` retry loops are folded into it. The TLS library is modelled as far as its interface goes:
`gnutls_record_send` either takes a prefix of the data, or keeps a prefix (`again`), in which case
the next call must be `gnutls_record_send(NULL, 0)`, which completes it; calling it with NULL when
nothing is kept is an error (GNUTLS_E_INVALID_REQUEST).
-/

set_option autoImplicit false

namespace Nbd

/-- `BUF_SIZE` and `BUF_HWM`, crypto-gnutls.c 67-68. -/
def BUF_SIZE : Nat := 64 * 1024
/-- crypto-gnutls.c 68 `BUF_HWM`. -/
def BUF_HWM : Nat := BUF_SIZE * 3 / 4

/-- The state of the loop, with the bytes exchanged so far (`plainIn` read from the plain socket,
`cryptOut` handed to the TLS layer, `cryptIn` received from it, `plainOut` written to the plain
socket) and the bytes kept by the TLS library after a would-block (`kept`). crypto-gnutls.c 358-575. -/
structure Proxy where
  p2c : Ring
  c2p : Ring
  wrInt : Bool
  plainEOF : Bool
  cryptEOF : Bool
  kept : List Byte
  plainIn : List Byte
  cryptOut : List Byte
  cryptIn : List Byte
  plainOut : List Byte

/-- Result of a read from the plain socket. Called in crypto-gnutls.c 358-575. -/
inductive PRead where
  | got (b : Byte) (bs : List Byte)
  | eof
  | err
/-- Result of a write to the plain socket: at most `k` bytes, or an error. Called in crypto-gnutls.c 358-575. -/
inductive PWrite where
  | put (k : Nat)
  | err
/-- Result of `gnutls_record_recv`. Called in crypto-gnutls.c 358-575. -/
inductive TRecv where
  | got (b : Byte) (bs : List Byte)
  | eof
  | again
  | err
/-- Result of `gnutls_record_send`; at most `k + 1` bytes taken or kept. Called in crypto-gnutls.c 358-575. -/
inductive TSend where
  | ok (k : Nat)
  | again (k : Nat)
  | err

/-- The environment's choices for one turn: whether the TLS layer holds undelivered plain text,
which descriptors `select` reports, the results of the calls, and when the quit function says so. One turn of the loop of crypto-gnutls.c 358-575. -/
structure Turn where
  buffered : Bool
  plainR : Bool
  plainW : Bool
  cryptR : Bool
  cryptW : Bool
  rd : PRead
  wr : PWrite
  rc : TRecv
  sd : TSend
  quit : Nat → Bool

/-- How the loop was left. The ways out of crypto-gnutls.c 358-575. -/
inductive PEnd where
  | quit
  | plainDone   -- 413-419: plain side closed, everything passed on
  | cryptDone   -- 431-437: TLS side closed, everything passed on
  | bothEof     -- the loop condition
  | error
  | hang        -- an endless loop in the buffer code
  | running     -- not left yet
deriving DecidableEq, Repr

/-- 463-495: read from the plain socket. -/
def Proxy.readPlain (p : Proxy) (t : Turn) : Proxy × Option PEnd :=
  let (b, _, len) := p.p2c.writeSpan
  let p := { p with p2c := b }
  if len > 0 then
    if t.quit 2 then (p, some .quit)
    else match t.rd with
    | .err => (p, some .error)
    | .eof => ({ p with plainEOF := true }, none)
    | .got c cs =>
      let bs := (c :: cs).take len
      match p.p2c.put bs with
      | none => (p, some .hang)
      | some b => ({ p with p2c := b, plainIn := p.plainIn ++ bs }, none)
  else (p, none)

/-- 497-524: write to the plain socket. -/
def Proxy.writePlain (p : Proxy) (t : Turn) : Proxy × Option PEnd :=
  let (_, len) := p.c2p.readSpan
  if len > 0 then
    if t.quit 3 then (p, some .quit)
    else match t.wr with
    | .err => (p, some .error)
    | .put k =>
      match p.c2p.take (min k len) with
      | none => (p, some .hang)
      | some (bs, b) => ({ p with c2p := b, plainOut := p.plainOut ++ bs }, none)
  else (p, none)

/-- 526-563: receive from the TLS layer. `GNUTLS_E_AGAIN` reaches `bufDoneWrite` with a negative
count, which does nothing. -/
def Proxy.recvCrypt (p : Proxy) (t : Turn) : Proxy × Option PEnd :=
  let (b, _, len) := p.c2p.writeSpan
  let p := { p with c2p := b }
  if len > 0 then
    if t.quit 4 then (p, some .quit)
    else match t.rc with
    | .err => (p, some .error)
    | .again => (p, none)
    | .eof => ({ p with cryptEOF := true }, none)
    | .got c cs =>
      let bs := (c :: cs).take len
      match p.c2p.put bs with
      | none => (p, some .hang)
      | some b => ({ p with c2p := b, cryptIn := p.cryptIn ++ bs }, none)
  else (p, none)

/-- 565-610: send to the TLS layer. `tls_wr_interrupted` is set and never cleared. -/
def Proxy.sendCrypt (p : Proxy) (t : Turn) : Proxy × Option PEnd :=
  let (off, len) := p.p2c.readSpan
  if len > 0 then
    if t.quit 5 then (p, some .quit)
    else if p.wrInt then
      if p.kept = [] then (p, some .error)
      else match t.sd with
      | .err => (p, some .error)
      | .again _ => (p, none)
      | .ok _ =>
        match p.p2c.doneRead p.kept.length with
        | none => (p, some .hang)
        | some b => ({ p with p2c := b, kept := [], cryptOut := p.cryptOut ++ p.kept }, none)
    else match t.sd with
      | .err => (p, some .error)
      | .again k => ({ p with wrInt := true, kept := p.p2c.buf.read off (min (k + 1) len) }, none)
      | .ok k =>
        match p.p2c.take (min (k + 1) len) with
        | none => (p, some .hang)
        | some (bs, b) => ({ p with p2c := b, cryptOut := p.cryptOut ++ bs }, none)
  else (p, none)

/-- Run a step only if its condition holds and the loop was not left. (Models no code of its own.) -/
def Proxy.guarded (c : Bool) (f : Proxy → Turn → Proxy × Option PEnd) (t : Turn)
    (s : Proxy × Option PEnd) : Proxy × Option PEnd :=
  match s with
  | (p, some e) => (p, some e)
  | (p, none) => if c then f p t else (p, none)

/-- 402-611: one turn of the loop; the descriptor sets are computed first (409-449). -/
def Proxy.turn (p : Proxy) (t : Turn) : Proxy × Option PEnd :=
  if p.plainEOF && p.cryptEOF then (p, some .bothEof)
  else if t.quit 0 then (p, some .quit)
  else if p.plainEOF && p.p2c.isEmpty && !p.wrInt then ({ p with cryptEOF := true }, some .plainDone)
  else if p.cryptEOF && p.c2p.isEmpty && !t.buffered then ({ p with plainEOF := true }, some .cryptDone)
  else
    let plainW := !p.plainEOF && !p.c2p.isEmpty && t.plainW
    let plainR := !p.plainEOF && !p.p2c.overHwm && t.plainR
    let cryptW := !p.cryptEOF && (!p.p2c.isEmpty || p.wrInt) && t.cryptW
    let cryptR := !p.cryptEOF && !p.c2p.overHwm && t.cryptR
    if t.quit 1 then (p, some .quit)
    else
      guarded cryptW Proxy.sendCrypt t
        (guarded (cryptR || t.buffered) Proxy.recvCrypt t
          (guarded plainW Proxy.writePlain t
            (guarded plainR Proxy.readPlain t (p, none))))

/-- The loop. crypto-gnutls.c 358-575 `tlssession_mainloop`. -/
def Proxy.run (p : Proxy) : List Turn → Proxy × PEnd
  | [] => (p, .running)
  | t :: ts =>
    match p.turn t with
    | (p, some e) => (p, e)
    | (p, none) => p.run ts

/-- crypto-gnutls.c 368-369: the start of the loop. -/
def Proxy.start : Proxy :=
  ⟨Ring.new BUF_SIZE BUF_HWM, Ring.new BUF_SIZE BUF_HWM, false, false, false, [], [], [], [], []⟩

end Nbd
