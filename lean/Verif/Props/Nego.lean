import Verif.NegoExact
import Verif.Props.Store
/-!
# Properties of the option negotiation

C24-C26, C28-C31, C36, C37, C54, C55. `session e env cf n svs nz inp tlsIn` is the negotiation on a new
connection: configuration `cf`, exports `svs`, a peer that says `inp` (and `tlsIn` inside TLS), at most `n`
options. `oneOption` is one turn of the option loop from any state.
-/

set_option autoImplicit false

namespace Nbd.Spec

/-- What the server says first: `NBDMAGIC`, `IHAVEOPT`, handshake flags 3 (fixed newstyle, no zeroes). -/
def greeting : List Byte :=
  [78, 66, 68, 77, 65, 71, 73, 67] ++ [73, 72, 65, 86, 69, 79, 80, 84] ++ [0, 3]

/-- The export requires TLS. -/
def TlsOnly (sv : SrvExport) : Prop := has sv.flags F_FORCEDTLS = true

instance (sv : SrvExport) : Decidable (TlsOnly sv) := by unfold TlsOnly; infer_instance

/-- The export a client asking for `name` means: it may see it, and no other has that name. -/
structure Named (tls : Bool) (svs : List SrvExport) (name : List Byte) (sv : SrvExport) : Prop where
  mem : sv ∈ svs
  called : sv.name = name
  shown : tls = true ∨ ¬ TlsOnly sv
  unique : ∀ x ∈ svs, x.name = name → x = sv

/-- Transmission flags that say exactly what the configuration `flags` and the reply mode call for. -/
structure Mirrors (flags : Nat) (structured : Bool) (fl : Nat) : Prop where
  has_flags : fl.testBit 0 = true
  read_only : fl.testBit 1 = has flags F_READONLY
  flush : fl.testBit 2 = has flags F_FLUSH
  fua : fl.testBit 3 = has flags F_FUA
  rotational : fl.testBit 4 = has flags F_ROTATIONAL
  trim : fl.testBit 5 = has flags F_TRIM
  write_zeroes : fl.testBit 6 = true
  df : fl.testBit 7 = structured
  multi_conn : fl.testBit 8 = !has flags F_COPYONWRITE
  none_else : ∀ i, 9 ≤ i → fl.testBit i = false

/-- Options whose payload has the form the protocol prescribes (or that the server does not know). -/
inductive WellFormed : Nat → List Byte → Prop
  | list : WellFormed 3 []
  | starttls : WellFormed 5 []
  | info (opt : Nat) (name : List Byte) (requests : List Nat) (ho : opt = 6 ∨ opt = 7)
      (hn : name.length ≤ 4096) (hl : requests.length < 2 ^ 16) (hr : ∀ r ∈ requests, r < 2 ^ 16) :
      WellFormed opt (infoData name requests)
  | structured (data : List Byte) : data.length < 2 ^ 32 → WellFormed 8 data
  | unknown (opt : Nat) (data : List Byte) : opt < 2 ^ 32 → opt ∉ [1, 2, 3, 5, 6, 7, 8] →
      data.length < 2 ^ 32 → WellFormed opt data

end Nbd.Spec

namespace Nbd.Props

open Nbd Nbd.Spec Nbd.NM

/-! ### Helpers -/

theorem visible_iff (tls : Bool) (sv : SrvExport) : visible tls sv = true ↔ tls = true ∨ ¬ TlsOnly sv := by
  unfold visible TlsOnly
  cases tls <;> cases has sv.flags F_FORCEDTLS <;> decide

theorem filter_visible_false (svs : List SrvExport) :
    svs.filter (visible false) = svs.filter (fun sv => ¬ TlsOnly sv) := by
  apply List.filter_congr
  intro sv _
  unfold visible TlsOnly
  rcases Bool.eq_false_or_eq_true (has sv.flags F_FORCEDTLS) with h | h <;> simp [h]

theorem find_named {tls : Bool} {svs : List SrvExport} {name : List Byte} {sv : SrvExport}
    (h : Named tls svs name sv) : svs.find? (fun x => visible tls x && x.name == name) = some sv := by
  have hp : (visible tls sv && sv.name == name) = true := by
    rw [(visible_iff tls sv).mpr h.shown, h.called]; simp
  cases hf : svs.find? (fun x => visible tls x && x.name == name) with
  | none => exact absurd hp (List.find?_eq_none.mp hf sv h.mem)
  | some x =>
    have h1 := List.find?_some hf
    have h2 := List.mem_of_find?_eq_some hf
    simp only [Bool.and_eq_true, beq_iff_eq] at h1
    rw [h.unique x h2 h1.2]

theorem last_named {tls : Bool} {svs : List SrvExport} {name : List Byte} {sv : SrvExport}
    (h : Named tls svs name sv) : lastVisible tls name svs = some sv := by
  unfold lastVisible
  exact find_named ⟨by simpa using h.mem, h.called, h.shown, fun x hx => h.unique x (by simpa using hx)⟩

theorem session_eq (e : Endian) (env : NEnv) (cf : NConf) (n : Nat) (svs : List SrvExport)
    (nz : Bool) (inp : List Byte) (tlsIn : Option (List Byte)) :
    (session e env cf n svs nz inp tlsIn).2 = (negotiate e env cf n (.fresh svs nz inp tlsIn)).state := by
  unfold session
  cases negotiate e env cf n (.fresh svs nz inp tlsIn) <;> rfl

theorem seen_session {e : Endian} {env : NEnv} {cf : NConf} {n : Nat} {svs svs' : List SrvExport}
    {nz : Bool} {inp : List Byte} {tlsIn : Option (List Byte)}
    (h : SameSeen (negotiate e env cf n (.fresh svs nz inp tlsIn)) (negotiate e env cf n (.fresh svs' nz inp tlsIn))) :
    (session e env cf n svs' nz inp tlsIn).2.plainOut = (session e env cf n svs nz inp tlsIn).2.plainOut ∧
    (session e env cf n svs' nz inp tlsIn).2.tls = (session e env cf n svs nz inp tlsIn).2.tls ∧
    ((session e env cf n svs nz inp tlsIn).2.tls = false →
      (session e env cf n svs' nz inp tlsIn).1 = (session e env cf n svs nz inp tlsIn).1 ∧
      (session e env cf n svs' nz inp tlsIn).2.server = (session e env cf n svs nz inp tlsIn).2.server ∧
      (session e env cf n svs' nz inp tlsIn).2.exportsize = (session e env cf n svs nz inp tlsIn).2.exportsize) := by
  refine ⟨by rw [session_eq, session_eq]; exact h.plainOut, by rw [session_eq, session_eq]; exact h.tls, fun ht => ?_⟩
  rw [session_eq] at ht
  obtain ⟨h1, h2, h3, h4, h5, h6⟩ := h.rest ht
  refine ⟨?_, by rw [session_eq, session_eq]; exact h2, by rw [session_eq, session_eq]; exact h1⟩
  unfold session
  cases hq : negotiate e env cf n (.fresh svs nz inp tlsIn) with
  | ok a s => obtain ⟨t, ht⟩ := h6 a s hq; rw [ht]
  | stop r s => obtain ⟨t, ht⟩ := h5 r s hq; rw [ht]

/-- A loop that stops at its first option. -/
theorem loop_stop {e : Endian} {env : NEnv} {cf : NConf} {n : Nat} {s s' : NState} {r : NEnd}
    (h : oneOption e env cf s = .stop r s') : optionLoop e env cf (n + 1) s = .stop r s' := by
  show (oneOption e env cf >>= fun _ => optionLoop e env cf n) s = _
  rw [bind_stop h]

theorem loop_ok {e : Endian} {env : NEnv} {cf : NConf} {n : Nat} {s s' : NState}
    (h : oneOption e env cf s = .ok () s') : optionLoop e env cf (n + 1) s = optionLoop e env cf n s' := by
  show (oneOption e env cf >>= fun _ => optionLoop e env cf n) s = _
  rw [bind_ok h]

/-- A session starts with the greeting and the client's flags. -/
theorem session_start (e : Endian) (env : NEnv) (cf : NConf) (n : Nat) (svs : List SrvExport) (nz : Bool)
    (cflags : Nat) (hc : cflags < 2 ^ 32) (rest : List Byte) (tlsIn : Option (List Byte)) :
    session e env cf n svs nz (toBE 4 cflags ++ rest) tlsIn
      = match optionLoop e env cf n { NState.fresh svs (nz || has cflags 2) rest tlsIn with plainOut := greeting } with
        | .ok _ s => (.running, s)
        | .stop r s => (r, s) := by
  unfold session negotiate
  rw [bind_ok (greet_exact (rest := rest) e cflags hc rfl)]
  rfl

/-- Negotiation on a new connection has got as far as `s`: the greeting is over and some options have been
handled. -/
inductive Reached (e : Endian) (env : NEnv) (cf : NConf) (svs : List SrvExport) (nz : Bool) (inp : List Byte)
    (tlsIn : Option (List Byte)) : NState → Prop
  | start {s : NState} : greet e (.fresh svs nz inp tlsIn) = .ok () s → Reached e env cf svs nz inp tlsIn s
  | option {s s' : NState} : Reached e env cf svs nz inp tlsIn s → oneOption e env cf s = .ok () s' →
      Reached e env cf svs nz inp tlsIn s'

/-- States that are reached are states of sessions. -/
theorem reached_session {e : Endian} {env : NEnv} {cf : NConf} {svs : List SrvExport} {nz : Bool} {inp : List Byte}
    {tlsIn : Option (List Byte)} {s : NState} (h : Reached e env cf svs nz inp tlsIn s) :
    ∃ n, session e env cf n svs nz inp tlsIn = (.running, s) ∧
      ∀ m, negotiate e env cf (n + m) (.fresh svs nz inp tlsIn) = optionLoop e env cf m s := by
  induction h with
  | @start s hs =>
    refine ⟨0, ?_, fun m => ?_⟩
    · unfold session negotiate; rw [bind_ok hs]; rfl
    · unfold negotiate; rw [bind_ok hs, Nat.zero_add]
  | @option s s' _ hs ih =>
    obtain ⟨n, _, h2⟩ := ih
    refine ⟨n + 1, ?_, fun m => ?_⟩
    · unfold session; rw [h2 1, loop_ok hs]; rfl
    · rw [show n + 1 + m = n + (m + 1) from by omega, h2, loop_ok hs]

/-! ### A concrete server -/

namespace NDemo

/-- Everything succeeds; the backing file has 4096 bytes. -/
def yes : Attempt := ⟨some 89, true, true, true, true, true, [], [⟨3, true, true, none, some (true, 4096), 0⟩], 0, false⟩

def env : NEnv := ⟨fun _ _ => yes, fun _ => true⟩

/-- The parent says no. -/
def refusing : NEnv := ⟨fun _ _ => { yes with acl := some 78 }, fun _ => true⟩

/-- A public export `a` and an export `s` that requires TLS. -/
def a : SrvExport := ⟨0, [97], F_FLUSH ||| F_FUA ||| F_TRIM, 0⟩
def s : SrvExport := ⟨1, [115], F_FORCEDTLS, 0⟩

/-- TLS possible, listing allowed. -/
def cf : NConf := ⟨false, true, true, false⟩

/-- TLS required. -/
def tlsCf : NConf := ⟨true, true, true, false⟩

/-- The options: flags, LIST, GO `s`, GO `a`. -/
def talk : List Byte :=
  toBE 4 3 ++ optRequest 3 [] ++ optRequest 7 (infoData [115] []) ++ optRequest 7 (infoData [97] [])

end NDemo

/-! ### C24 -/

/-- **C24, noninterference.** Two configurations that have the same exports not requiring TLS, and in which the
names the client says belong to the same TLS-only exports or none, give a client without TLS the same bytes, the
same outcome and the same served export, whatever it says: nothing it can do lists, describes or serves a TLS-only
export. (Saying the name of a TLS-only export is answered with "TLS is required", so a client can confirm a name it
already knows; that is what the second hypothesis is about.) -/
theorem C24_invisible (e : Endian) (env : NEnv) (cf : NConf) (n : Nat) (svs svs' : List SrvExport) (nz : Bool)
    (inp : List Byte) (tlsIn : Option (List Byte))
    (hvis : svs.filter (fun sv => ¬ TlsOnly sv) = svs'.filter (fun sv => ¬ TlsOnly sv))
    (hname : ∀ name, name <:+: inp →
      ((∃ sv ∈ svs, TlsOnly sv ∧ sv.name = name) ↔ ∃ sv ∈ svs', TlsOnly sv ∧ sv.name = name)) :
    (session e env cf n svs' nz inp tlsIn).2.plainOut = (session e env cf n svs nz inp tlsIn).2.plainOut ∧
    (session e env cf n svs' nz inp tlsIn).2.tls = (session e env cf n svs nz inp tlsIn).2.tls ∧
    ((session e env cf n svs nz inp tlsIn).2.tls = false →
      (session e env cf n svs' nz inp tlsIn).1 = (session e env cf n svs nz inp tlsIn).1 ∧
      (session e env cf n svs' nz inp tlsIn).2.server = (session e env cf n svs nz inp tlsIn).2.server ∧
      (session e env cf n svs' nz inp tlsIn).2.exportsize = (session e env cf n svs nz inp tlsIn).2.exportsize) :=
  seen_session (negotiate_seen e env cf n svs svs' nz inp tlsIn
    ⟨by rw [filter_visible_false, filter_visible_false]; exact hvis, hname⟩)

/-- Two such configurations: a second TLS-only export with other settings appears, and the name is not said. -/
example : [NDemo.a, NDemo.s].filter (fun sv => ¬ TlsOnly sv) =
    [⟨7, [122, 122], F_FORCEDTLS ||| F_READONLY, 5⟩, NDemo.a, { NDemo.s with expected := 12 }].filter (fun sv => ¬ TlsOnly sv) ∧
    ¬ [122, 122] <:+: NDemo.talk := by decide +kernel

/-- **C24, serving.** A client that ends up served without TLS is served a configured export that does not require
TLS. -/
theorem C24_not_served (e : Endian) (env : NEnv) (cf : NConf) (n : Nat) (svs : List SrvExport) (nz : Bool)
    (inp : List Byte) (tlsIn : Option (List Byte)) (s : NState)
    (h : session e env cf n svs nz inp tlsIn = (.serving, s)) (ht : s.tls = false) :
    ∃ y ∈ svs, ¬ TlsOnly y ∧ ∃ x, s.server = some x ∧ x.id = y.id ∧ x.name = y.name := by
  obtain ⟨sv', hs⟩ := session_serving e env cf n svs nz inp tlsIn s h
  obtain ⟨y, hy, sv, k, hm, hv, ht'⟩ := hs.took
  rw [ht] at hv
  obtain ⟨ex, _, hsv', _⟩ := ht'.granted
  refine ⟨y, hy, fun hty => ?_, sv', ht'.server, ?_, ?_⟩
  · rcases (visible_iff false sv).mp hv with h1 | h1
    · cases h1
    · apply h1
      unfold TlsOnly at hty ⊢
      rcases hm.flags with hf | hf
      · rw [hf]; exact hty
      · rw [hf, has_or, has_or, hty]; rfl
  · rw [hsv']; exact hm.id
  · rw [hsv']; exact hm.name

/-- The concrete server: the list shows `a` only, asking for `s` gives the TLS-required error, `a` is served. -/
example : (session .little NDemo.env NDemo.cf 9 [NDemo.a, NDemo.s] false NDemo.talk none).1 = .serving ∧
    (session .little NDemo.env NDemo.cf 9 [NDemo.a, NDemo.s] false NDemo.talk none).2.tls = false ∧
    (session .little NDemo.env NDemo.cf 9 [NDemo.a, NDemo.s] false NDemo.talk none).2.plainOut =
      greeting ++ optReply 3 2 (listRecord [97]) ++ optReply 3 1 [] ++
      optReply 7 0x80000005 (ascii "TLS is required for that export") ++
      optReply 7 3 (infoExport 4096 365) ++ optReply 7 1 [] := by decide +kernel

/-! ### C25 -/

/-- **C25.** With server-wide forced TLS a client that has not started TLS is not served, has changed nothing and
has enabled nothing, and what it is sent does not depend on the exports. -/
theorem C25_forced (e : Endian) (env : NEnv) (cf : NConf) (hf : cf.forcedTls = true) (n : Nat)
    (svs : List SrvExport) (nz : Bool) (inp : List Byte) (tlsIn : Option (List Byte))
    (ht : (session e env cf n svs nz inp tlsIn).2.tls = false) :
    (session e env cf n svs nz inp tlsIn).1 ≠ .serving ∧
    (session e env cf n svs nz inp tlsIn).2.structured = false ∧
    (session e env cf n svs nz inp tlsIn).2.exportsize = 0 ∧
    (session e env cf n svs nz inp tlsIn).2.server = none ∧
    (session e env cf n svs nz inp tlsIn).2.servers = svs ∧
    ∀ svs', (session e env cf n svs' nz inp tlsIn).2.plainOut = (session e env cf n svs nz inp tlsIn).2.plainOut := by
  have hv := (negotiate_virgin svs e env cf hf n).h (.fresh svs nz inp tlsIn) ⟨rfl, rfl, rfl, rfl, rfl, rfl, rfl, rfl⟩
  have hs : ∀ svs', (session e env cf n svs' nz inp tlsIn).2.plainOut = (session e env cf n svs nz inp tlsIn).2.plainOut :=
    fun svs' => (seen_session (forced_seen e env cf hf n svs svs' nz inp tlsIn)).1
  have key : (session e env cf n svs nz inp tlsIn).1 ≠ .serving ∧ Virgin svs (session e env cf n svs nz inp tlsIn).2 := by
    unfold session at ht ⊢
    cases hq : negotiate e env cf n (.fresh svs nz inp tlsIn) with
    | ok a s =>
      rw [hq] at hv ht
      rcases hv with hv | hv
      · rw [hv] at ht; cases ht
      · exact ⟨by simp, hv⟩
    | stop r s =>
      rw [hq] at hv ht
      rcases hv with hv | hv
      · rw [hv] at ht; cases ht
      · exact ⟨hv.2, hv.1⟩
  exact ⟨key.1, key.2.structured, key.2.exportsize, key.2.server, key.2.servers, hs⟩

/-- **C25, replies.** Every option except EXPORT_NAME, ABORT and STARTTLS is answered with "TLS required", its
payload is skipped and nothing else changes; EXPORT_NAME and ABORT end the connection. -/
theorem C25_refused (e : Endian) (env : NEnv) (cf : NConf) (s : NState) (opt : Nat) (data rest : List Byte)
    (hf : cf.forcedTls = true) (hs : s.tls = false) (ho : opt < 2 ^ 32) (hd : data.length < 2 ^ 32) (h5 : opt ≠ 5)
    (h : s.inp = optRequest opt data ++ rest) :
    (opt = 1 ∨ opt = 2 → ∃ s', oneOption e env cf s = .stop .closed s' ∧ s'.plainOut = s.plainOut) ∧
    (opt ≠ 1 → opt ≠ 2 → oneOption e env cf s = .ok () { s with
      inp := rest
      plainOut := s.plainOut ++ optReply opt 0x80000005 (ascii "TLS is required on this server") }) := by
  constructor
  · intro h12
    rw [optRequest_eq, List.append_assoc] at h
    rw [oneOption_forced e env cf hf s hs]
    unfold forcedOption
    rw [bind_ok (recv_ok 8 h (toBE_length 8 _))]
    have hm : ntohll e (load64 e (toBE 8 0x49484156454F5054)) = OPTS_MAGIC := by
      apply UInt64.toNat_inj.mp
      rw [ntohll_load64 e _ (toBE_length 8 _), beVal_toBE]
      rfl
    rw [if_neg (by rw [hm]; exact fun h => h rfl), bind_ok (recv32_ok (s := s.heard _) e opt ho rfl),
      if_pos (show opt ≠ OPT_STARTTLS from h5), if_pos (show opt = OPT_EXPORT_NAME ∨ opt = OPT_ABORT from h12)]
    exact ⟨_, rfl, rfl⟩
  · intro h1 h2
    rw [forced_exact e env cf opt ho (by simp [h1, h2, h5]) hd hs hf h]
    simp only [NState.said, NState.heard, hs]
    rfl

example : (session .little NDemo.env NDemo.tlsCf 9 [NDemo.a, NDemo.s] false NDemo.talk none).1 = .exited ∧
    (session .little NDemo.env NDemo.tlsCf 9 [NDemo.a, NDemo.s] false NDemo.talk none).2.tls = false ∧
    (session .little NDemo.env NDemo.tlsCf 9 [NDemo.a, NDemo.s] false NDemo.talk none).2.plainOut =
      greeting ++ optReply 3 0x80000005 (ascii "TLS is required on this server") ++
      optReply 7 0x80000005 (ascii "TLS is required on this server") ++
      optReply 7 0x80000005 (ascii "TLS is required on this server") := by decide +kernel

/-! ### C26 -/

/-- Nothing an uncommitted plaintext client does is kept in the parts of the state that survive STARTTLS. -/
def Quiet (svs : List SrvExport) (tlsIn : Option (List Byte)) (s : NState) : Prop :=
  s.tls = false → s.commits = 0 →
    s.tlsOut = [] ∧ s.exportsize = 0 ∧ s.server = none ∧ s.ex = none ∧ s.servers = svs ∧ s.tlsIn = tlsIn

theorem quiet_stable (svs : List SrvExport) (tlsIn : Option (List Byte)) : Stable (Quiet svs tlsIn) :=
  ⟨fun _ _ h => h, fun s bs h ht hc => by
    have ht : s.tls = false := by simpa using ht
    have hc : s.commits = 0 := by simpa using hc
    obtain ⟨h1, h2, h3, h4, h5, h6⟩ := h ht hc
    refine ⟨?_, by simpa using h2, by simpa using h3, by simpa using h4, by simpa using h5, by simpa using h6⟩
    unfold NState.said
    rw [if_neg (by rw [ht]; decide)]
    exact h1⟩

theorem quiet_reached {e : Endian} {env : NEnv} {cf : NConf} {svs : List SrvExport} {nz : Bool} {inp : List Byte}
    {tlsIn : Option (List Byte)} {s : NState} (h : Reached e env cf svs nz inp tlsIn s) : Quiet svs tlsIn s := by
  have st := quiet_stable svs tlsIn
  have hE : ∀ (r : NEnd) (s : NState), r ≠ .serving → r ≠ .ub → Quiet svs tlsIn s → (fun _ _ => True : NEnd → NState → Prop) r s :=
    fun _ _ _ _ _ => trivial
  induction h with
  | @start s hs =>
    have := (Hoare.greet st hE (fun _ h => h) e).h (.fresh svs nz inp tlsIn) (fun _ _ => ⟨rfl, rfl, rfl, rfl, rfl, rfl⟩)
    rw [hs] at this
    exact this
  | @option s s' _ hs ih =>
    have hc : Commits env cf (Quiet svs tlsIn) (fun _ _ => True) (fun _ _ => True) := by
      refine ⟨fun sv => ⟨fun s hs => ?_⟩, fun sv => ⟨fun s n h => ⟨st.heard _ _ h.1, trivial⟩,
        fun s bs h => ⟨st.said _ _ h.1, trivial⟩⟩, fun _ _ _ _ => trivial⟩
      have h := (commitClient_spec env cf sv s).h s rfl
      cases hq : commitClient env cf sv s with
      | ok r s' =>
        rw [hq] at h
        refine ⟨fun _ h0 => ?_, fun _ _ => trivial⟩
        rw [h.2.1] at h0
        omega
      | stop r s' => trivial
    have := (Hoare.oneOption st hE hc (.inl fun _ _ => trivial) (fun s h ht h0 => h ht h0)
      (fun s i h _ ht => by cases ht) e).h s ih
    rw [hs] at this
    exact this

/-- **C26** (partial: no GO or EXPORT_NAME has got as far as `commit_client`, that is, named an export the client
may see). After STARTTLS the state is that of a fresh connection on which the client speaks TLS; only the bytes
already sent in plaintext and the client's initial no-zeroes flag, which is sent once and never again, remain. -/
theorem C26_starttls_partial (e : Endian) (env : NEnv) (cf : NConf) (svs : List SrvExport) (nz : Bool)
    (inp rest i : List Byte) (s : NState) (hr : Reached e env cf svs nz inp (some i) s) (ht : s.tls = false)
    (hc : s.commits = 0) (hk : cf.keyfile = true) (h : s.inp = optRequest 5 [] ++ rest) :
    oneOption e env cf s = .ok () { NState.fresh svs s.noZeroes i none with
      tls := true, plainOut := s.plainOut ++ optReply 5 1 [] } := by
  obtain ⟨h1, h2, h3, h4, h5, h6⟩ := quiet_reached hr ht hc
  rw [starttls_exact e env cf hk ht h h6]
  simp only [NState.fresh, h1, h2, h4, h5, hc]

/-- Structured replies, a list and an unknown export before STARTTLS: forgotten. -/
example : (session .little NDemo.env NDemo.cf 4 [NDemo.a, NDemo.s] false
      (toBE 4 3 ++ optRequest 8 [] ++ optRequest 3 [] ++ optRequest 7 (infoData [120] []) ++ optRequest 5 [])
      (some [])).2.structured = false ∧
    (session .little NDemo.env NDemo.cf 3 [NDemo.a, NDemo.s] false
      (toBE 4 3 ++ optRequest 8 [] ++ optRequest 3 [] ++ optRequest 7 (infoData [120] []) ++ optRequest 5 [])
      (some [])).2.structured = true := by decide +kernel

/-- **C26 is false in general.** A GO refused before STARTTLS is remembered after it: INFO inside TLS then reports
size 2^63-1 where a fresh TLS session reports 0; and in a forking server a GO inside TLS then has undefined
behaviour where a fresh session is refused. -/
theorem C26_false :
    (session .little NDemo.refusing NDemo.cf 3 [NDemo.a] false
      (toBE 4 3 ++ optRequest 7 (infoData [97] []) ++ optRequest 5 [])
      (some (optRequest 6 (infoData [97] [])))).2.tlsOut
      = optReply 6 3 (infoExport (2 ^ 63 - 1) 365 ) ++ optReply 6 1 [] ∧
    (session .little NDemo.refusing NDemo.cf 2 [NDemo.a] false (toBE 4 3 ++ optRequest 5 [])
      (some (optRequest 6 (infoData [97] [])))).2.tlsOut
      = optReply 6 3 (infoExport 0 365) ++ optReply 6 1 [] ∧
    (session .little NDemo.refusing NDemo.cf 3 [NDemo.a] false
      (toBE 4 3 ++ optRequest 7 (infoData [97] []) ++ optRequest 5 [])
      (some (optRequest 7 (infoData [97] [])))).1 = .ub ∧
    (session .little NDemo.refusing NDemo.cf 2 [NDemo.a] false (toBE 4 3 ++ optRequest 5 [])
      (some (optRequest 7 (infoData [97] [])))).1 = .running := by decide +kernel

/-! ### C28 -/

theorem has_two_pow (x i : Nat) : has x (2 ^ i) = x.testBit i := by
  unfold has
  have : x &&& 2 ^ i = if x.testBit i then 2 ^ i else 0 := by
    apply Nat.eq_of_testBit_eq
    intro j
    rw [Nat.testBit_and, Nat.testBit_two_pow]
    by_cases hj : i = j
    · subst hj
      cases x.testBit i <;> simp
    · split <;> simp [hj, Nat.testBit_two_pow]
  rw [this]
  split <;> rename_i h
  · rw [h]; simp
  · simp only [Bool.not_eq_true] at h; rw [h]; rfl

/-- **C28** (partial: the process has served no client before, `nz = false`). The server announces the no-zeroes
flag (bit 1 of the last byte of the greeting); the answer to EXPORT_NAME is size and flags, followed by 124 zero
bytes exactly if the client did not set bit 1 of its flags: 10 or 134 bytes. The bytes the client sends next are
left for the transmission phase. -/
theorem C28_padding_partial (e : Endian) (env : NEnv) (cf : NConf) (n : Nat) (svs : List SrvExport)
    (cflags : Nat) (hc : cflags < 2 ^ 32) (name rest : List Byte) (tlsIn : Option (List Byte)) (sv : SrvExport)
    (ex : Export) (hf : cf.forcedTls = false) (hn : name.length ≤ 4096) (h0 : (0 : Byte) ∉ name)
    (hnm : Named false svs name sv) (hin : LetsIn env cf sv 0 ex) :
    ∃ s, session e env cf (n + 1) svs false (toBE 4 cflags ++ optRequest 1 name ++ rest) tlsIn = (.serving, s) ∧
      s.inp = rest ∧
      s.plainOut = greeting ++ (toBE 8 ex.exportsize ++ toBE 2 (exportFlags ex.flags false) ++
        if cflags.testBit 1 then [] else List.replicate 124 0) := by
  rw [List.append_assoc, session_start e env cf (n + 1) svs false cflags hc]
  rw [loop_stop (exportName_exact (rest := rest) e env cf (.inr hf) hn h0 rfl sv ex (find_named hnm) hin)]
  refine ⟨_, rfl, by simp [NState.took], ?_⟩
  show greeting ++ (toBE 8 ex.exportsize ++ toBE 2 (exportFlags ex.flags false) ++
    if (false || has cflags (2 ^ 1)) = false then List.replicate 124 0 else []) = _
  rw [has_two_pow]
  cases cflags.testBit 1 <;> rfl

example : LetsIn NDemo.env NDemo.cf NDemo.a 0 ⟨NDemo.a.flags, 4096, [⟨3, 0⟩], []⟩ ∧
    Named false [NDemo.a, NDemo.s] [97] NDemo.a := by
  refine ⟨⟨.inr ⟨rfl, 89, rfl, by decide, by decide⟩, rfl, rfl, rfl, rfl, rfl, by decide +kernel⟩, ?_⟩
  exact ⟨by decide, rfl, .inr (by decide), by decide⟩

/-- **C28 is false in general.** A server that does not fork keeps the flag of an earlier client: after a client that
set it (and asked for an export it was not allowed), a client that did not set it is sent 10 bytes. -/
theorem C28_false :
    (session .little NDemo.refusing { NDemo.cf with dontfork := true } 5 [NDemo.a] false
      (toBE 4 3 ++ optRequest 2 []) none).1 = .closed ∧
    (session .little NDemo.env { NDemo.cf with dontfork := true } 5 [NDemo.a]
      (session .little NDemo.refusing { NDemo.cf with dontfork := true } 5 [NDemo.a] false
        (toBE 4 3 ++ optRequest 2 []) none).2.noZeroes
      (toBE 4 1 ++ optRequest 1 [97]) none).1 = .serving ∧
    (session .little NDemo.env { NDemo.cf with dontfork := true } 5 [NDemo.a]
      (session .little NDemo.refusing { NDemo.cf with dontfork := true } 5 [NDemo.a] false
        (toBE 4 3 ++ optRequest 2 []) none).2.noZeroes
      (toBE 4 1 ++ optRequest 1 [97]) none).2.plainOut
      = greeting ++ (toBE 8 4096 ++ toBE 2 365) := by decide +kernel

/-! ### C29 -/

/-- What one option has answered: only bytes were added to the stream in use, and `rest` is still to be read. -/
def answered (s : NState) (rest bytes : List Byte) : NState :=
  { s with inp := rest, plainOut := if s.tls then s.plainOut else s.plainOut ++ bytes
           tlsOut := if s.tls then s.tlsOut ++ bytes else s.tlsOut }

theorem answered_eq (s : NState) (rest bytes : List Byte) : (s.heard rest).said bytes = answered s rest bytes := by
  unfold NState.said NState.heard answered
  rcases Bool.eq_false_or_eq_true s.tls with ht | ht <;> simp [ht]

/-- **C29.** An option the server does not know is answered with one ERR_UNSUP reply; its payload is skipped exactly
and nothing else changes. -/
theorem C29_unknown (e : Endian) (env : NEnv) (cf : NConf) (s : NState) (opt : Nat) (data rest : List Byte)
    (ho : opt < 2 ^ 32) (hu : opt ∉ [1, 2, 3, 5, 6, 7, 8]) (hd : data.length < 2 ^ 32)
    (hf : s.tls = true ∨ cf.forcedTls = false) (h : s.inp = optRequest opt data ++ rest) :
    oneOption e env cf s = .ok () (answered s rest (optReply opt 0x80000001
      (ascii "The given option is unknown to this server implementation"))) := by
  rw [unknown_exact e env cf opt ho hu hd hf h, answered_eq]

example : (session .little NDemo.env NDemo.cf 2 [NDemo.a] false
      (toBE 4 3 ++ optRequest 10 [1, 2, 3] ++ optRequest 3 []) none).2.plainOut =
    greeting ++ optReply 10 0x80000001 (ascii "The given option is unknown to this server implementation") ++
      optReply 3 2 (listRecord [97]) ++ optReply 3 1 [] := by decide +kernel

/-! ### C30 -/

/-- **C30** (partial: no export the client may see has a name longer than 1020 bytes). LIST is answered by one
record per export the client may see, in order, and one acknowledgement; or by one policy error. -/
theorem C30_list_partial (e : Endian) (env : NEnv) (cf : NConf) (s : NState) (rest : List Byte)
    (hf : s.tls = true ∨ cf.forcedTls = false) (h : s.inp = optRequest 3 [] ++ rest)
    (hn : ∀ sv ∈ s.servers, s.tls = true ∨ ¬ TlsOnly sv → sv.name.length ≤ 1020) :
    oneOption e env cf s = .ok () (answered s rest (
      if cf.list then
        (s.servers.filter (fun sv => s.tls = true ∨ ¬ TlsOnly sv)).flatMap
          (fun sv => optReply 3 2 (listRecord sv.name)) ++ optReply 3 1 []
      else optReply 3 0x80000002 (ascii "Listing of exports denied by server configuration"))) := by
  rw [list_exact e env cf hf h (fun sv hsv hv => hn sv hsv ((visible_iff _ _).mp hv)), answered_eq]
  have hfil : s.servers.filter (visible s.tls) = s.servers.filter (fun sv => s.tls = true ∨ ¬ TlsOnly sv) := by
    apply List.filter_congr
    intro sv _
    rw [Bool.eq_iff_iff, visible_iff, decide_eq_true_iff]
  rw [hfil, List.flatMap_def]

example : ∀ sv ∈ [NDemo.a, NDemo.s], sv.name.length ≤ 1020 := by decide

/-- **C30 is false in general.** An export with a name of 1021 bytes makes LIST read past its buffer. -/
theorem C30_false (e : Endian) (env : NEnv) (cf : NConf) (s : NState) (rest : List Byte) (sv : SrvExport)
    (hf : s.tls = true ∨ cf.forcedTls = false) (hl : cf.list = true) (h : s.inp = optRequest 3 [] ++ rest)
    (hs : s.servers = [sv]) (hv : s.tls = true ∨ ¬ TlsOnly sv) (hn : 1020 < sv.name.length) :
    ∃ s', oneOption e env cf s = .stop .ub s' := by
  rw [optRequest_eq] at h
  rw [oneOption_begin e env cf 3 (by decide) (hf.imp_right .inl) h]
  unfold dispatch
  rw [if_neg (by decide), if_pos (by decide)]
  unfold handleList
  rw [bind_ok (recv32_ok (s := s.heard _) (rest := rest) e 0 (by decide) (by rfl))]
  simp only []
  rw [if_neg (by decide), if_neg (by rw [hl]; decide), bind_ok (get_eq _)]
  simp only [NState.heard_tls, NState.heard_servers, hs]
  unfold sendList
  simp only []
  rw [if_pos ((visible_iff _ _).mpr hv), if_pos (by omega)]
  exact ⟨_, rfl⟩

example : ∃ sv : SrvExport, ¬ TlsOnly sv ∧ 1020 < sv.name.length :=
  ⟨⟨0, List.replicate 1021 97, 0, 0⟩, by decide, by rw [List.length_replicate]; decide⟩

/-! ### C31 -/

/-- **C31, framing** (partial: well-formed options, names that LIST can hold, memory for a name). Whatever state the
option finds, the server goes on reading right after it (or in the TLS stream, when TLS starts), and if it starts
serving, the transmission phase starts right after it. -/
theorem C31_framing_partial (e : Endian) (env : NEnv) (cf : NConf) (s : NState) (opt : Nat) (data rest : List Byte)
    (hw : WellFormed opt data) (hf : s.tls = true ∨ cf.forcedTls = false)
    (hm : ∀ k ≤ 4097, env.malloc k = true)
    (hn : ∀ sv ∈ s.servers, s.tls = true ∨ ¬ TlsOnly sv → sv.name.length ≤ 1020)
    (h : s.inp = optRequest opt data ++ rest) :
    match (generalizing := false) oneOption e env cf s with
    | .ok _ s' => s'.tls = s.tls → s'.inp = rest
    | .stop r s' => r = .serving → s'.inp = rest := by
  cases hw with
  | list =>
    rw [list_exact e env cf hf h (fun sv hsv hv => hn sv hsv ((visible_iff _ _).mp hv))]
    intro _; simp
  | starttls =>
    have hb := h
    rw [optRequest_eq] at hb
    rcases Bool.eq_false_or_eq_true s.tls with ht | ht
    · rw [oneOption_begin e env cf 5 (by decide) (.inl ht) hb]
      unfold dispatch
      rw [if_neg (by decide), if_neg (by decide), if_neg (by decide), if_pos (by decide), bind_ok (get_eq _),
        if_pos (by simpa using ht)]
      rw [consumeReply (data := []) (rest := rest) e 5 REP_ERR_INVALID _ (by decide) (by decide) (by rw [ascii_length]; decide) rfl]
      intro _; simp
    · cases hk : cf.keyfile with
      | false =>
        rw [oneOption_begin e env cf 5 (by decide) (.inr (.inr rfl)) hb]
        unfold dispatch
        rw [if_neg (by decide), if_neg (by decide), if_neg (by decide), if_pos (by decide), bind_ok (get_eq _),
          if_neg (by simp [ht]), if_pos (by simp [hk])]
        rw [consumeReply (data := []) (rest := rest) e 5 REP_ERR_POLICY _ (by decide) (by decide) (by rw [ascii_length]; decide) rfl]
        intro _; simp
      | true =>
        cases hi : s.tlsIn with
        | some i =>
          rw [starttls_exact e env cf hk ht h hi]
          intro h2
          rw [ht] at h2
          cases h2
        | none =>
          rw [oneOption_begin e env cf 5 (by decide) (.inr (.inr rfl)) hb]
          unfold dispatch
          rw [if_neg (by decide), if_neg (by decide), if_neg (by decide), if_pos (by decide), bind_ok (get_eq _),
            if_neg (by simp [ht]), if_neg (by simp [hk])]
          unfold handleStarttls
          rw [show s.heard (toBE 4 ([] : List Byte).length ++ [] ++ rest) = s.heard (toBE 4 0 ++ rest) from rfl,
            bind_ok (recv_ok (s := s.heard _) (a := toBE 4 0) (rest := rest) 4 rfl rfl)]
          have hl : load e (toBE 4 0) = 0 := by cases e <;> decide
          simp only [hl]
          rw [if_neg (by decide), bind_ok (sendReply_eq e OPT_STARTTLS REP_ACK [] _ (by decide) (by decide)), bind_ok (get_eq _)]
          simp only [NState.said_tlsIn, NState.heard_tlsIn, hi]
          intro h2
          cases h2
  | info opt name requests ho hn2 hl hr =>
    exact (info_leaves e env cf opt ho hf hn2 (hm _ (by omega)) hl hr h).h
  | structured data hd =>
    rw [structured_exact e env cf hf data hd h]
    intro _
    split
    · simp
    · split <;> simp
  | unknown opt data ho hu hd =>
    rw [unknown_exact e env cf opt ho hu hd hf h]
    intro _; simp

example : WellFormed 7 (infoData [97] [0, 3]) ∧ WellFormed 99 [1, 2, 3] :=
  ⟨.info 7 [97] [0, 3] (.inr rfl) (by decide) (by decide) (by decide), .unknown 99 _ (by decide) (by decide) (by decide)⟩

/-- **C31, memory** (partial). A client that says less than 4 GiB, to a server whose export names have at most 1020
bytes, causes no undefined behaviour in the option phase, whatever it says, unless a forking server's parent does not
answer or the client gets a second export past `commit_client`. -/
theorem C31_no_ub_partial (e : Endian) (env : NEnv) (cf : NConf) (n : Nat) (svs : List SrvExport) (nz : Bool)
    (inp : List Byte) (tlsIn : Option (List Byte)) (hi : inp.length < 2 ^ 32 - 1)
    (ht : ∀ i, tlsIn = some i → i.length < 2 ^ 32 - 1) (hn : ∀ sv ∈ svs, sv.name.length ≤ 1020)
    (ha : ∀ sv, (env.attempt 0 sv).acl ≠ none)
    (hc : cf.dontfork = true ∨ (session e env cf n svs nz inp tlsIn).2.commits ≤ 1) :
    (session e env cf n svs nz inp tlsIn).1 ≠ .ub := by
  have hs := (negotiate_small e env cf n).h (.fresh svs nz inp tlsIn) ⟨hi, ht, hn⟩
  unfold session at hc ⊢
  cases hq : negotiate e env cf n (.fresh svs nz inp tlsIn) with
  | ok a s => simp
  | stop r s =>
    rw [hq] at hs hc
    simp only [] at hc ⊢
    intro hr
    obtain ⟨h1, h2⟩ := hs hr
    rcases h2 with h2 | ⟨sv, h2⟩
    · rcases hc with hc | hc
      · rw [hc] at h1; cases h1
      · omega
    · exact ha sv h2

example : NDemo.talk.length < 2 ^ 32 - 1 ∧ (∀ sv, (NDemo.env.attempt 0 sv).acl ≠ none) ∧
    (session .little NDemo.env NDemo.cf 9 [NDemo.a, NDemo.s] false NDemo.talk none).2.commits = 1 :=
  ⟨by decide, fun _ h => (by cases h), by decide +kernel⟩

/-- **C31 is false in general, framing.** LIST with a payload, or INFO with a length shorter than its fixed part, and the
server takes the payload for the next option (the second session is closed for a bad magic number) or the next option
for payload. -/
theorem C31_false_framing :
    (session .little NDemo.env NDemo.cf 5 [NDemo.a] false (toBE 4 3 ++ optRequest 3 [0, 0, 0, 0, 0, 0, 0, 0] ++
      optRequest 10 []) none).1 = .closed ∧
    (session .little NDemo.env NDemo.cf 5 [NDemo.a] false (toBE 4 3 ++ optRequest 6 (toBE 4 200 ++ [0, 0]) ++
      optRequest 10 [] ++ List.replicate 200 0) none).1 = .closed := by decide +kernel

/-- **C31 is false in general, memory.** A name length of 2^32-1 in GO or INFO, with 4 GiB of data to skip, makes the
server write outside the block it allocated. -/
theorem C31_false_memory (e : Endian) (env : NEnv) (cf : NConf) (s : NState) (big rest : List Byte)
    (hf : s.tls = true ∨ cf.forcedTls = false) (hm : env.malloc 0 = true) (hb : big.length = 2 ^ 32 - 1)
    (h : s.inp = toBE 8 0x49484156454F5054 ++ toBE 4 7 ++ (toBE 4 5 ++ toBE 4 (2 ^ 32 - 1) ++ big ++ rest)) :
    ∃ s', oneOption e env cf s = .stop .ub s' := by
  rw [oneOption_begin e env cf 7 (by decide) (hf.imp_right .inl) h]
  unfold dispatch
  rw [if_neg (by decide), if_neg (by decide), if_neg (by decide), if_neg (by decide), if_pos (by decide)]
  unfold handleInfo
  rw [bind_ok (recv32_ok (s := s.heard _) (rest := toBE 4 (2 ^ 32 - 1) ++ (big ++ rest)) e 5 (by decide)
      (by simp only [NState.heard_inp, List.append_assoc])),
    bind_ok (recv32_ok (s := (s.heard _).heard _) (rest := big ++ rest) e (2 ^ 32 - 1) (by decide) rfl)]
  have h1 : infoCheckLen e 7 5 (2 ^ 32 - 1) = Pure.pure () := by unfold infoCheckLen; rw [if_neg (by decide)]
  rw [h1, bind_ok (pure_eq () _)]
  unfold infoCheckName
  rw [if_pos (by decide), bind_ok (a := ()) (s' := (((s.heard _).heard (big ++ rest)).said _).heard rest) (by
    rw [bind_ok (sendReply_eq e 7 REP_ERR_INVALID _ _ (by decide) (by rw [ascii_length]; decide))]
    exact skip_ok _ (by simp) hb)]
  have h2 : infoName e env 7 (2 ^ 32 - 1) = NM.stop .ub := by
    unfold infoName
    rw [if_pos (by decide), if_pos hm, if_pos (by decide)]
  rw [h2, bind_eq]
  exact ⟨_, rfl⟩

example : (List.replicate (2 ^ 32 - 1) (0 : Byte)).length = 2 ^ 32 - 1 := List.length_replicate ..

/-! ### C36 -/

theorem exportFlags_mirrors (flags : Nat) (st : Bool) : Mirrors flags st (exportFlags flags st) := by
  have hlt := exportFlags_lt flags st
  refine ⟨?_, ?_, ?_, ?_, ?_, ?_, ?_, ?_, ?_, fun i hi => ?_⟩
  case refine_10 =>
    exact Nat.testBit_lt_two_pow (Nat.lt_of_lt_of_le hlt (Nat.pow_le_pow_right (by decide) hi))
  all_goals
    unfold exportFlags
    simp only [Nat.testBit_or]
    cases has flags F_READONLY <;> cases has flags F_FLUSH <;> cases has flags F_FUA <;>
      cases has flags F_ROTATIONAL <;> cases has flags F_TRIM <;> cases has flags F_COPYONWRITE <;> cases st <;> decide

theorem infoAnswer_eq (opt size fl : Nat) (requests : List Nat) :
    infoAnswer opt size fl requests =
      (List.replicate (max 1 (requests.count 0)) (optReply opt 3 (infoExport size fl))).flatten ++ optReply opt 1 [] := by
  unfold infoAnswer infoReplies
  have h1 : (requests.filter (· = 0)).map (fun _ => optReply opt 3 (infoExport size fl))
      = List.replicate (requests.count 0) (optReply opt 3 (infoExport size fl)) := by
    rw [List.map_const', List.count_eq_length_filter]
    congr 2
  rw [h1]
  have h2 : requests.any (· = 0) = decide (0 < requests.count 0) := by
    rw [Bool.eq_iff_iff, decide_eq_true_iff, List.count_pos_iff]
    simp
  rw [h2]
  by_cases h : 0 < requests.count 0
  · simp only [h, decide_true, if_true, List.append_nil]
    rw [Nat.max_eq_right h]
  · have h0 : requests.count 0 = 0 := by omega
    simp [h0]

/-- **C36.** Asking for an export that exists, and being let in, gives the real size of the export and transmission
flags that say exactly what the configuration of the export as served (`ex.flags`: the configured flags, plus
read-only if the file turned out not to be writable) calls for. Once per request for export information, but at least
once. -/
theorem C36_go (e : Endian) (env : NEnv) (cf : NConf) (s : NState) (name rest : List Byte) (requests : List Nat)
    (hf : s.tls = true ∨ cf.forcedTls = false) (hn : name.length ≤ 4096) (h0 : (0 : Byte) ∉ name)
    (hm : env.malloc (name.length + 1) = true) (hl : requests.length < 2 ^ 16) (hr : ∀ r ∈ requests, r < 2 ^ 16)
    (h : s.inp = optRequest 7 (infoData name requests) ++ rest)
    (sv : SrvExport) (ex : Export) (hnm : Named s.tls s.servers name sv) (hin : LetsIn env cf sv s.commits ex) :
    ∃ fl s', oneOption e env cf s = .stop .serving s' ∧
      Mirrors ex.flags s.structured fl ∧ fl < 2 ^ 16 ∧
      (ex.flags = sv.flags ∨ ex.flags = sv.flags ||| F_AUTOREADONLY ||| F_READONLY) ∧
      s'.exportsize = ex.exportsize ∧ s'.server = some { sv with flags := ex.flags } ∧ s'.ex = some ex ∧
      s'.inp = rest ∧ s'.tls = s.tls ∧ s'.structured = s.structured ∧
      (if s.tls then s'.tlsOut else s'.plainOut) = (if s.tls then s.tlsOut else s.plainOut) ++
        ((List.replicate (max 1 (requests.count 0)) (optReply 7 3 (infoExport ex.exportsize fl))).flatten ++
          optReply 7 1 []) := by
  have hlt := exportFlags_lt ex.flags s.structured
  refine ⟨exportFlags ex.flags s.structured, _, go_exact e env cf hf hn h0 hm hl hr h sv ex (last_named hnm) hin,
    exportFlags_mirrors _ _, by omega, setupExport_flags _ _ _ _ _ hin.setup, ?_, ?_, ?_, ?_, ?_, ?_, ?_⟩
  all_goals try simp [NState.took]
  rw [infoAnswer_eq]
  unfold NState.said NState.heard
  rcases Bool.eq_false_or_eq_true s.tls with ht | ht <;> simp [ht]

/-- The same with EXPORT_NAME. -/
theorem C36_export_name (e : Endian) (env : NEnv) (cf : NConf) (s : NState) (name rest : List Byte)
    (hf : s.tls = true ∨ cf.forcedTls = false) (hn : name.length ≤ 4096) (h0 : (0 : Byte) ∉ name)
    (h : s.inp = optRequest 1 name ++ rest)
    (sv : SrvExport) (ex : Export) (hnm : Named s.tls s.servers name sv) (hin : LetsIn env cf sv s.commits ex) :
    ∃ fl s', oneOption e env cf s = .stop .serving s' ∧
      Mirrors ex.flags s.structured fl ∧ fl < 2 ^ 16 ∧
      s'.exportsize = ex.exportsize ∧ s'.server = some { sv with flags := ex.flags } ∧ s'.ex = some ex ∧
      s'.inp = rest ∧ s'.tls = s.tls ∧ s'.structured = s.structured ∧
      (if s.tls then s'.tlsOut else s'.plainOut) = (if s.tls then s.tlsOut else s.plainOut) ++
        (toBE 8 ex.exportsize ++ toBE 2 fl ++ if s.noZeroes then [] else List.replicate 124 0) := by
  have hlt := exportFlags_lt ex.flags s.structured
  refine ⟨exportFlags ex.flags s.structured, _, exportName_exact e env cf hf hn h0 h sv ex (find_named hnm) hin,
    exportFlags_mirrors _ _, by omega, ?_, ?_, ?_, ?_, ?_, ?_, ?_⟩
  all_goals try simp [NState.took]
  unfold NState.said NState.heard
  rcases Bool.eq_false_or_eq_true s.tls with ht | ht <;> cases s.noZeroes <;> simp [ht]

/-- The flags of the concrete export `a`: flush, FUA, trim, write zeroes, multi-conn. -/
example : Mirrors NDemo.a.flags false 365 := exportFlags_mirrors NDemo.a.flags false

/-! ### C54 -/

/-- **C54 is false.** A client that has not yet chosen an export is told size 0 by INFO, whatever the export. -/
theorem C54_false (e : Endian) (env : NEnv) (cf : NConf) (svs : List SrvExport) (nz : Bool)
    (inp : List Byte) (tlsIn : Option (List Byte)) (s : NState) (hr : Reached e env cf svs nz inp tlsIn s)
    (ht : s.tls = false) (hc : s.commits = 0) (hf : cf.forcedTls = false) (name rest : List Byte) (requests : List Nat)
    (hn : name.length ≤ 4096) (h0 : (0 : Byte) ∉ name) (hm : env.malloc (name.length + 1) = true)
    (hl : requests.length < 2 ^ 16) (hq : ∀ r ∈ requests, r < 2 ^ 16)
    (h : s.inp = optRequest 6 (infoData name requests) ++ rest) (sv : SrvExport)
    (hnm : Named s.tls s.servers name sv) :
    ∃ fl, Mirrors sv.flags s.structured fl ∧ oneOption e env cf s = .ok () (answered s rest
      ((List.replicate (max 1 (requests.count 0)) (optReply 6 3 (infoExport 0 fl))).flatten ++ optReply 6 1 [])) := by
  refine ⟨_, exportFlags_mirrors _ _, ?_⟩
  rw [info_exact e env cf (.inr hf) hn h0 hm hl hq h sv (last_named hnm), answered_eq, infoAnswer_eq,
    (quiet_reached hr ht hc).2.1]

/-! ### C55 -/

/-- **C55** (partial: the name is unknown, or belongs to an export that needs TLS). A GO or INFO for an export the
client cannot have is answered by one error reply; the option is skipped and nothing changes, so another one can
follow. -/
theorem C55_unknown_partial (e : Endian) (env : NEnv) (cf : NConf) (s : NState) (opt : Nat) (name rest : List Byte)
    (requests : List Nat) (ho : opt = 6 ∨ opt = 7)
    (hf : s.tls = true ∨ cf.forcedTls = false) (hn : name.length ≤ 4096) (h0 : (0 : Byte) ∉ name)
    (hm : env.malloc (name.length + 1) = true) (hl : requests.length < 2 ^ 16)
    (h : s.inp = optRequest opt (infoData name requests) ++ rest)
    (hno : ∀ sv ∈ s.servers, sv.name = name → s.tls = false ∧ TlsOnly sv) :
    ∃ text, oneOption e env cf s = .ok () (answered s rest
      (optReply opt (if ∃ sv ∈ s.servers, sv.name = name then 0x80000005 else 0x80000006) text)) := by
  have hfind : lastVisible s.tls name s.servers = none := by
    unfold lastVisible
    rw [List.find?_eq_none]
    intro sv hsv hp
    rw [List.mem_reverse] at hsv
    simp only [Bool.and_eq_true, beq_iff_eq] at hp
    obtain ⟨h1, h2⟩ := hno sv hsv hp.2
    rcases (visible_iff _ _).mp hp.1 with h3 | h3
    · rw [h1] at h3; cases h3
    · exact h3 h2
  obtain ⟨text, h1⟩ := info_unknown e env cf opt ho hf hn h0 hm hl h hfind
  refine ⟨text, ?_⟩
  rw [h1, answered_eq]
  by_cases hex : ∃ sv ∈ s.servers, sv.name = name
  · rw [if_pos hex, if_pos]
    obtain ⟨sv, hsv, hnm⟩ := hex
    rw [List.any_eq_true]
    refine ⟨sv, hsv, ?_⟩
    obtain ⟨h2, h3⟩ := hno sv hsv hnm
    have : visible s.tls sv = false := by
      rw [Bool.eq_false_iff]
      intro hv
      rcases (visible_iff _ _).mp hv with h4 | h4
      · rw [h2] at h4; cases h4
      · exact h4 h3
    rw [this, hnm]; simp
  · rw [if_neg hex, if_neg]
    intro hany
    rw [List.any_eq_true] at hany
    obtain ⟨sv, hsv, hp⟩ := hany
    simp only [Bool.and_eq_true, beq_iff_eq] at hp
    exact hex ⟨sv, hsv, hp.2⟩

example : ∀ sv ∈ [NDemo.a, NDemo.s], sv.name = [115] → false = false ∧ TlsOnly sv := by decide

/-- **C55 is false in general.** After a GO for an existing export that was refused, another GO (for an export to
which the client would be let in) has undefined behaviour in a forking server: it uses an uninitialised answer and a
closed descriptor. -/
theorem C55_false :
    (session .little ⟨fun k sv => if sv = NDemo.a then NDemo.refusing.attempt k sv else NDemo.yes, fun _ => true⟩
      NDemo.cf 5 [NDemo.a, ⟨2, [98], 0, 0⟩] false
      (toBE 4 3 ++ optRequest 7 (infoData [97] []) ++ optRequest 7 (infoData [98] [])) none).1 = .ub ∧
    (session .little ⟨fun k sv => if sv = NDemo.a then NDemo.refusing.attempt k sv else NDemo.yes, fun _ => true⟩
      NDemo.cf 5 [NDemo.a, ⟨2, [98], 0, 0⟩] false
      (toBE 4 3 ++ optRequest 7 (infoData [98] [])) none).1 = .serving := by decide +kernel

/-! ### C37 -/

/-- The transmission flags `fl` offer the command (low 16 bits) and the command flags (1: FUA, 2: NO_HOLE, a part of
write-zeroes) of a request. -/
def Offered (fl type : Nat) : Prop :=
  (type % 65536 = 0 ∨ (type % 65536 = 3 ∧ fl.testBit 2) ∨
    (fl.testBit 1 = false ∧ (type % 65536 = 1 ∨ (type % 65536 = 4 ∧ fl.testBit 5) ∨ (type % 65536 = 6 ∧ fl.testBit 6)))) ∧
  (type < 65536 ∨ (type / 65536 = 1 ∧ fl.testBit 3) ∨ (type % 65536 = 6 ∧ type / 65536 = 2) ∨
    (type % 65536 = 6 ∧ type / 65536 = 3 ∧ fl.testBit 3))

instance (fl type : Nat) : Decidable (Offered fl type) := by unfold Offered; infer_instance

/-- **C37** (partial: export kept in plain files, not waiting for them, a store on which every system call succeeds;
no DF flag). A request for what the flags sent to the client offer (reads; flushes; and on an export not announced
read-only writes, trims and write-zeroes; FUA), in range, succeeds. -/
theorem C37_honoured_partial (e : Endian) (cl : Client) (hp : Plain cl) (fl : Nat)
    (hfl : Mirrors cl.ex.flags cl.structured fl) (haro : has cl.ex.flags F_AUTOREADONLY = true → has cl.ex.flags F_READONLY = true)
    (w : World) (r : Req) (p : Payload) (hlen : r.len < 2 ^ 32) (hpl : p.fits r)
    (hhealthy : ∀ t, ∃ n, 0 < n ∧ w.orc t = .done n)
    (hbacked : ∀ a, a < cl.ex.exportsize →
      ∃ id o f, home cl.ex a = some (id, o) ∧ w.files id = some f ∧ o < f.size)
    (hopen : ∀ fi ∈ cl.ex.files, ∃ f, w.files (.fd fi.fhandle) = some f)
    (hnt : has cl.ex.flags F_TREEFILES = false) (hnw : has cl.ex.flags F_WAIT = false)
    (ho : Offered fl r.type) (hin : r.start + r.len ≤ cl.ex.exportsize) :
    ∃ cl' w' msgs rs, handleRequest e cl w r p = .val (cl', w', msgs) ∧
      msgs.flatMap Msg.bytes = wire rs ∧ ∀ x ∈ rs, x.error = 0 := by
  have hbw : fl.testBit 1 = false → badWrite cl = false := by
    intro h
    rw [hfl.read_only] at h
    unfold badWrite
    rw [h, Bool.false_or, Bool.eq_false_iff]
    intro h2
    rw [haro h2] at h
    cases h
  have hty : r.type < 262144 := by rcases ho.2 with h | h | h | h <;> omega
  by_cases h4 : r.type % 65536 = 4
  · have hnro : badWrite cl = false := by
      rcases ho.1 with h | h | ⟨h, _⟩
      · omega
      · omega
      · exact hbw h
    have hro : has cl.ex.flags F_READONLY = false := by
      unfold badWrite at hnro; rw [Bool.or_eq_false_iff] at hnro; exact hnro.1
    have hsz := hp.good.size
    have hr : badRange cl r = false := by
      unfold badRange
      simp only [gt_iff_lt, Bool.or_eq_false_iff, decide_eq_false_iff_not, Nat.not_lt]
      omega
    have htrim : ∃ w', exptrim cl w r.start r.len = .val w' := by
      have h1 := (exptrim_trimmed cl hp.good w r.start r.len hin).1
      cases hq : exptrim cl w r.start r.len with
      | val w' => exact ⟨w', rfl⟩
      | ub => exact absurd hq h1
      | exit =>
        exfalso
        unfold exptrim at hq
        rw [hro, hnt] at hq
        simp only [Bool.false_eq_true, if_false] at hq
        rw [if_neg (by rw [Nat.mod_eq_of_lt (by omega)]; omega)] at hq
        split at hq
        · cases hq
        · split at hq <;> cases hq
    obtain ⟨w', hw'⟩ := htrim
    refine ⟨cl, w', [simpleMsg e r none], [.simple 0 r.cookie []], ?_, ?_, by simp [Reply.error]⟩
    · unfold handleRequest
      simp only []
      rw [if_neg (by omega), h4, if_neg (by decide), if_neg (by decide), if_neg (by decide), if_pos (by decide),
        hnro, hr]
      unfold handleTrim
      rw [hw']
      rfl
    · rw [List.flatMap_def]
      exact (simpleMsg_encodes e r none).wire
  · refine C08_no_spurious_errors e cl hp w r p hlen hpl hhealthy hbacked hopen hnw hty ?_
    rcases ho.1 with h | h | ⟨h, h2⟩
    · exact .inr ⟨hin, .inl h⟩
    · exact .inl h.1
    · refine .inr ⟨hin, .inr ⟨hbw h, ?_⟩⟩
      omega

/-- The example export and a FUA write on it. -/
example : Mirrors (Demo.client true).ex.flags true 449 ∧ Offered 449 0 ∧ Offered 449 6 ∧ ¬ Offered 449 65537 ∧
    Offered 365 65537 :=
  ⟨exportFlags_mirrors (Demo.client true).ex.flags true, by decide, by decide, by decide, by decide⟩

/-- **C37 is false in general.** With structured replies the DF flag is advertised (bit 7), but every read that uses it is
refused with EINVAL. -/
theorem C37_false (e : Endian) (cl : Client) (fl : Nat) (hfl : Mirrors cl.ex.flags cl.structured fl)
    (hst : cl.structured = true) (w : World) (r : Req) (p : Payload) (ht : r.type = 262144) :
    fl.testBit 7 = true ∧ ∃ cl' w' msgs, handleRequest e cl w r p = .val (cl', w', msgs) ∧
      msgs.flatMap Msg.bytes = wire [.simple 22 r.cookie []] := by
  refine ⟨by rw [hfl.df, hst], ?_⟩
  unfold handleRequest
  simp only []
  rw [if_pos (by rw [ht]; decide)]
  refine ⟨_, _, _, rfl, ?_⟩
  rw [List.flatMap_def]
  exact (simpleMsg_encodes e r (some 22)).wire

example : (⟨0x25609513, 262144, Demo.cookie, 0, 4⟩ : Req).type = 262144 ∧ (Demo.client true).structured = true := by decide

end Nbd.Props
