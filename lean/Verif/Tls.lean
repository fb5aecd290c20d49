import Verif.CliNego
import Verif.CliRun
import Verif.Config
/-!
# Who is at the other end of a TLS session

crypto-gnutls.c 121-346 (`verify_certificate_callback`, `tlssession_new`), 358-388 (the handshake), nbd-client.c 598-676 (the client's use
of it), nbd-server.c 2430-2528 (`verify_cert`, `handle_starttls`).

GnuTLS itself is not modelled: what it finds out about certificates, files and priority strings is given by a `Gnu`, and the peer by a
`TlsPeer`. Simplifications: calls that can fail only for want of memory succeed; the peer completes its part of the handshake or does not
(`agrees`), which does not depend on this side's certificate.
-/

set_option autoImplicit false

namespace Nbd

/-- What GnuTLS answers. A file name that is `none` is a null pointer. As called by crypto-gnutls.c 127-340 and nbd-server.c 2431-2531. -/
structure Gnu where
  /-- `gnutls_certificate_set_x509_trust_file` -/
  trustFile : Option (List Byte) → Int
  /-- `gnutls_certificate_set_x509_key_file`, of the certificate and the key -/
  keyFile : Option (List Byte) → List Byte → Int
  /-- `gnutls_priority_init`, `gnutls_priority_set_direct` -/
  priority : Option (List Byte) → Int
  /-- `gnutls_certificate_verify_peers2`, with the authorities in the file: an error, or the status (0 if nothing is wrong with the
  certificates) -/
  verify : Option (List Byte) → List (List Byte) → Option Nat
  /-- `gnutls_x509_crt_import` succeeds -/
  parses : List Byte → Bool
  /-- `gnutls_x509_crt_check_hostname` -/
  names : List Byte → List Byte → Bool
  /-- `gnutls_x509_crt_get_activation_time` -/
  activation : List Byte → Int
  /-- `gnutls_x509_crt_get_expiration_time` -/
  expiration : List Byte → Int
  /-- is the verify function called also if the peer sent no certificate at all? -/
  callsWithout : Bool

/-- The other end: the certificates it shows, its own first; whether they are X.509 certificates; whether it does its part of the
handshake. -/
structure TlsPeer where
  chain : List (List Byte)
  x509 : Bool
  agrees : Bool
deriving DecidableEq, Repr

/-- gnutls.h `GNUTLS_E_CERTIFICATE_ERROR`. -/
def CERT_ERROR : Int := -43

/-- crypto-gnutls.c 126-207 `verify_certificate_callback`, of a session with these authorities and this host name. -/
def verifyCallback (g : Gnu) (ca : Option (List Byte)) (host : Option (List Byte)) (p : TlsPeer) : Int :=
  match g.verify ca p.chain with
  | none => CERT_ERROR
  | some status =>
    if status ≠ 0 then CERT_ERROR
    else if !p.x509 then CERT_ERROR
    else
      match p.chain with
      | [] => CERT_ERROR
      | leaf :: _ =>
        if !g.parses leaf then CERT_ERROR
        else
          match host with
          | some (b :: bs) => if !g.names leaf (b :: bs) then CERT_ERROR else 0
          | _ => 0

/-- `gnutls_handshake`: `cb` is the verify function, if there is one. Called at crypto-gnutls.c 127-340 and nbd-server.c 2448-2531. -/
def handshake (g : Gnu) (cb : Option (TlsPeer → Int)) (p : TlsPeer) : Bool :=
  match cb with
  | none => p.agrees
  | some f => if p.chain = [] ∧ g.callsWithout = false then p.agrees else p.agrees && f p == 0

/-- crypto-gnutls.c 57-66 `struct tlssession`, what matters here: the authorities and whether they are used to check the peer, the
host name, the own certificate and key. -/
structure TlsSession where
  checks : Bool
  ca : Option (List Byte)
  host : Option (List Byte)
  own : Option (List Byte × List Byte)
deriving DecidableEq, Repr

/-- crypto-gnutls.c 47. -/
def CLI_PRIORITY : List Byte := ascii "NORMAL:-VERS-TLS-ALL:+VERS-TLS1.2"

/-- crypto-gnutls.c 251-253: the certificate defaults to the key; without a key there is none. -/
def ownFiles (key cert : Option (List Byte)) : Option (List Byte × List Byte) :=
  match key with
  | none => none
  | some k => some (cert.getD k, k)

/-- crypto-gnutls.c 255-270: can the own certificate be used, if there is one? -/
def ownOk (g : Gnu) : Option (List Byte × List Byte) → Bool
  | none => true
  | some (c, k) => decide (0 ≤ g.keyFile (some c) k)

/-- crypto-gnutls.c 209-340 `tlssession_new` for a client. -/
def tlsSessionNew (g : Gnu) (key cert ca host prio : Option (List Byte)) (insecure : Bool) : Option TlsSession :=
  if ca.isSome ∧ g.trustFile ca < 0 then none
  else if !ownOk g (ownFiles key cert) then none
  else if g.priority (some (prio.getD CLI_PRIORITY)) < 0 then none
  else some ⟨ca.isSome && !insecure, ca, host, ownFiles key cert⟩

/-- crypto-gnutls.c 380-386: the handshake of a session made so. -/
def TlsSession.shake (g : Gnu) (s : TlsSession) (p : TlsPeer) : Bool :=
  handshake g (if s.checks then some (verifyCallback g s.ca s.host) else none) p

/-- nbd-client.c 624-645: the session that nbd-client makes with its settings. -/
def cliSession (g : Gnu) (c : TabClient) : Option TlsSession :=
  tlsSessionNew g c.key c.cert c.cacert c.tlshostn c.priority (c.cacert.isNone || c.tlshostn.isNone)

/-- The settings as `negotiate` uses them. nbdclt.h 4-27. -/
def TabClient.conf (c : TabClient) (list : Bool) : CliConf := ⟨c.name.getD [], c.noOptgo, c.tls, list⟩

/-- Is a TLS session with this server established? crypto-gnutls.c 127-340 as used by nbd-client.c 600-680. -/
def cliSecured (g : Gnu) (c : TabClient) (p : TlsPeer) : Bool :=
  match cliSession g c with
  | none => false
  | some s => s.shake g p

/-- nbd-client.c 559-762 `negotiate`, with the part that decides about TLS (622-676). The handshake is made by another process, so the
client notices a failed one only by the end of the stream it reads. -/
def cliNegotiateTls (g : Gnu) (e : Endian) (c : TabClient) (list : Bool) (errm errh : List Byte) : CM Unit := do
  let gz ← cliGreet e (c.conf list)
  if c.tls then
    cliStarttls e
    if (cliSession g c).isNone then CM.stop .failed
  cliAsk e (c.conf list) errm errh gz

/-- nbd-client negotiates with the server `p`, that says `inp` in the clear and, if the TLS session is established, `tlsIn` inside
it: how it ends, the final state, and what reaches the server through the TLS session. nbd-client.c 559-762. -/
def cliTlsRun (g : Gnu) (e : Endian) (c : TabClient) (list : Bool) (errm errh : List Byte) (p : TlsPeer) (inp tlsIn : List Byte) :
    CEnd × CState × List Byte :=
  let secured := cliSecured g c p
  match cliNegotiateTls g e c list errm errh ⟨inp, if secured then tlsIn else [], [], [], false, 0, 0, []⟩ with
  | .ok _ s => (.running, s, if secured then s.tlsOut else [])
  | .stop r s => (r, s, if secured then s.tlsOut else [])

/-- nbd-client.c 926-1201: the settings with which the options make nbd-client connect, and whether it is to list exports; `none` if it
does not get so far. -/
def cliSettings (nl : Bool) (table : Option (List Byte)) (opts : List CliOpt) : Option (TabClient × Bool) :=
  match cliLoop nl opts (cliStart nl) with
  | .go st =>
    if st.disc then none
    else
      match cliReady table st with
      | .val st => some (st.cl, st.list)
      | _ => none
  | _ => none

/-- nbd-server.c 2431-2467 `verify_cert`. -/
def verifyCert (g : Gnu) (ca : Option (List Byte)) (now : Int) (p : TlsPeer) : Int :=
  match g.verify ca p.chain with
  | none => CERT_ERROR
  | some status =>
    if status ≠ 0 ∨ p.x509 = false then CERT_ERROR
    else
      match p.chain with
      | [] => CERT_ERROR
      | leaf :: _ =>
        if !g.parses leaf then CERT_ERROR
        else if g.activation leaf > now then CERT_ERROR
        else if g.expiration leaf < now then CERT_ERROR
        else 0

/-- nbd-server.c 2488-2513: does `handle_starttls` establish a TLS session with the client? `none`, if the key file is not even
configured, is not reached (2729). -/
def srvSecured (g : Gnu) (gc : GenConf) (now : Int) (p : TlsPeer) : Bool :=
  match gc.keyfile with
  | none => false
  | some k =>
    if g.trustFile gc.cacertfile < 0 then false
    else if g.keyFile gc.certfile k < 0 then false
    else if g.priority gc.tlsprio < 0 then false
    else handshake g (some (verifyCert g gc.cacertfile now)) p

/-- The part of the configuration that negotiation looks at (nbd-server.c 2687, 2411, 2729, 3932). -/
def GenConf.nconf (gc : GenConf) (dontfork : Bool) : NConf :=
  ⟨has gc.flags F_FORCEDTLS, has gc.flags F_LIST, gc.keyfile.isSome, dontfork⟩

/-- A connection to a server with this configuration: the client says `inp` in the clear and, if the TLS session is established, `i`
inside it. nbd-server.c 2652-2765 with 2431-2531. -/
def srvTlsRun (g : Gnu) (e : Endian) (env : NEnv) (gc : GenConf) (dontfork : Bool) (now : Int) (n : Nat) (svs : List SrvExport)
    (nz : Bool) (p : TlsPeer) (inp i : List Byte) : NEnd × NState :=
  session e env (gc.nconf dontfork) n svs nz inp (if srvSecured g gc now p then some i else none)

end Nbd
