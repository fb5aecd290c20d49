import Verif.Tls
import Verif.Props.CliTable
import Verif.Props.Client
/-!
# Who is at the other end of a TLS session: C92 and C93

`cliTlsRun` is nbd-client negotiating with a server that shows certificates, `srvTlsRun` nbd-server with a client that does (or does
not). What GnuTLS finds out about certificates is a parameter.
-/

set_option autoImplicit false

namespace Nbd

namespace Spec

/-- The peer shows X.509 certificates with which GnuTLS finds nothing wrong, taking the authorities in the file `ca` for trustworthy,
and its own certificate, the first one, is as `Good` says. -/
def Vouched (g : Gnu) (ca : List Byte) (Good : List Byte → Prop) (p : TlsPeer) : Prop :=
  p.x509 = true ∧ g.verify (some ca) p.chain = some 0 ∧ ∃ leaf rest, p.chain = leaf :: rest ∧ g.parses leaf = true ∧ Good leaf

/-- The certificate was made out for this host. -/
def MadeFor (g : Gnu) (host : List Byte) (leaf : List Byte) : Prop := g.names leaf host = true

/-- The certificate is valid at this time. -/
def ValidAt (g : Gnu) (now : Int) (leaf : List Byte) : Prop := g.activation leaf ≤ now ∧ now ≤ g.expiration leaf

/-- The settings given by `-A` and `-H`. -/
def cacertOf : CliOpt → Option (List Byte)
  | .cacert v => some v
  | _ => none

def tlshostOf : CliOpt → Option (List Byte)
  | .tlshost v => some v
  | _ => none

end Spec

open Spec

/-! ### The checks -/

theorem verifyCallback_zero {g : Gnu} {ca host : List Byte} {p : TlsPeer} (hh : host ≠ [])
    (h : verifyCallback g (some ca) (some host) p = 0) : Vouched g ca (MadeFor g host) p := by
  unfold verifyCallback at h
  rcases hv : g.verify (some ca) p.chain with _ | status
  · rw [hv] at h; cases h
  rw [hv] at h
  dsimp only at h
  by_cases h1 : status ≠ 0
  · rw [if_pos h1] at h; cases h
  rw [if_neg h1] at h
  have h1 : status = 0 := Decidable.not_not.mp h1
  subst h1
  rcases hx : p.x509 with _ | _
  · rw [hx] at h; cases h
  rw [hx] at h
  simp only [Bool.not_true, Bool.false_eq_true, if_false] at h
  rcases hc : p.chain with _ | ⟨leaf, rest⟩
  · rw [hc] at h; cases h
  rw [hc] at h
  dsimp only at h
  rcases hp : g.parses leaf with _ | _
  · rw [hp] at h; cases h
  rw [hp] at h
  simp only [Bool.not_true, Bool.false_eq_true, if_false] at h
  rcases host with _ | ⟨b, bs⟩
  · exact absurd rfl hh
  dsimp only at h
  rcases hn : g.names leaf (b :: bs) with _ | _
  · rw [hn] at h; cases h
  exact ⟨hx, hv, leaf, rest, hc, hp, hn⟩

theorem verifyCert_zero {g : Gnu} {ca : List Byte} {now : Int} {p : TlsPeer} (h : verifyCert g (some ca) now p = 0) :
    Vouched g ca (ValidAt g now) p := by
  unfold verifyCert at h
  rcases hv : g.verify (some ca) p.chain with _ | status
  · rw [hv] at h; cases h
  rw [hv] at h
  dsimp only at h
  by_cases h1 : status ≠ 0 ∨ p.x509 = false
  · rw [if_pos h1] at h; cases h
  rw [if_neg h1, ] at h
  rw [not_or] at h1
  have hs : status = 0 := Decidable.not_not.mp h1.1
  subst hs
  rcases hc : p.chain with _ | ⟨leaf, rest⟩
  · rw [hc] at h; cases h
  rw [hc] at h
  dsimp only at h
  rcases hp : g.parses leaf with _ | _
  · rw [hp] at h; cases h
  rw [hp] at h
  simp only [Bool.not_true, Bool.false_eq_true, if_false] at h
  by_cases h2 : g.activation leaf > now
  · rw [if_pos h2] at h; cases h
  rw [if_neg h2] at h
  by_cases h3 : g.expiration leaf < now
  · rw [if_pos h3] at h; cases h
  exact ⟨by simpa using h1.2, hv, leaf, rest, hc, hp, by omega, by omega⟩

theorem handshake_called {g : Gnu} {f : TlsPeer → Int} {p : TlsPeer} (hcall : p.chain ≠ [] ∨ g.callsWithout = true)
    (h : handshake g (some f) p = true) : f p = 0 := by
  unfold handshake at h
  dsimp only at h
  rw [if_neg (by rintro ⟨h1, h2⟩; rcases hcall with hc | hc <;> simp_all)] at h
  simp only [Bool.and_eq_true, beq_iff_eq] at h
  exact h.2

/-- A client that was given authorities and a host name gets no session with another server. -/
theorem cliSecured_vouched {g : Gnu} {c : TabClient} {p : TlsPeer} {ca host : List Byte} (hca : c.cacert = some ca)
    (hho : c.tlshostn = some host) (hne : host ≠ []) (hcall : p.chain ≠ [] ∨ g.callsWithout = true)
    (h : cliSecured g c p = true) : Vouched g ca (MadeFor g host) p := by
  unfold cliSecured at h
  rcases hs : cliSession g c with _ | s
  · rw [hs] at h; cases h
  rw [hs] at h
  dsimp only at h
  unfold cliSession tlsSessionNew at hs
  rw [hca, hho] at hs
  simp only [Option.isNone_some, Bool.or_false] at hs
  split at hs
  · cases hs
  · split at hs
    · cases hs
    · split at hs
      · cases hs
      · cases hs
        exact verifyCallback_zero hne (handshake_called hcall h)

/-! ### The client -/

/-- A client that hears nothing more neither gets ready nor lists. -/
theorem cliAsk_silent (e : Endian) (c : CliConf) (errm errh : List Byte) (gz : Bool) (s : CState) (hs : s.inp = []) :
    (∀ size fl, (cliAsk e c errm errh gz s).fin.1 ≠ .ready size fl) ∧ (cliAsk e c errm errh gz s).fin.1 ≠ .listed := by
  have hsend : ∀ (bs : List Byte) (t : CState), t.inp = [] → ∃ t', csend bs t = .ok () t' ∧ t'.inp = [] := by
    intro bs t ht
    exact ⟨_, csend_eq bs t, by simpa using ht⟩
  unfold cliAsk
  rw [CM.bind_ok (CM.get_eq s)]
  by_cases hl : c.list = true
  · rw [if_pos hl]
    obtain ⟨t, h1, h2⟩ := hsend _ s hs
    rw [CM.bind_ok (show csendRequest e OPT_LIST 0 [] s = _ from h1), hs]
    have : listLoop e (([] : List Byte).length + 1) t = .stop .garbage { t with inp := [] } := by
      unfold listLoop listStep
      rw [CM.bind_stop (CM.bind_stop (creadFull_short 8 t (by rw [h2]; decide)))]
      rw [h2]; rfl
    rw [this]
    simp [CRes.fin]
  · rw [if_neg hl]
    by_cases hg : c.noOptgo = true
    · rw [if_pos hg]
      unfold csendExportName
      obtain ⟨t, h1, h2⟩ := hsend _ s hs
      rw [CM.bind_ok (show csendRequest e OPT_EXPORT_NAME c.name.length c.name s = _ from h1), CM.bind_ok (cread_eq 10 t)]
      dsimp only
      rw [h2, if_pos (by decide), CM.bind_stop (Nbd.stop_eq _ _), if_pos hg]
      simp [CRes.fin]
    · rw [if_neg hg]
      have hinfo : ∃ s', csendInfo e OPT_GO c.name s = .ok () s' ∧ s'.inp = [] := by
        unfold csendInfo csendRequest
        rw [CM.bind_ok (csend_eq _ _), CM.bind_ok (csend_eq _ _), CM.bind_ok (csend_eq _ _), csend_eq]
        exact ⟨_, rfl, by simp only [CState.said_inp, hs]⟩
      obtain ⟨t, h1, h2⟩ := hinfo
      rw [CM.bind_ok h1, hs]
      have hrr : readReply e t = .stop .failed { t with inp := [] } := by
        unfold readReply
        rw [CM.bind_ok (cread_eq 20 t)]
        dsimp only
        rw [h2, if_pos (by decide), CM.bind_stop (Nbd.stop_eq _ _)]
        rfl
      have : goLoop e c gz errm errh (([] : List Byte).length + 1) t = .stop .failed { t with inp := [] } := by
        unfold goLoop goStep
        rw [CM.bind_stop (CM.bind_stop hrr)]
      rw [this]
      simp [CRes.fin]

/-- `cliTlsRun` in parts. -/
theorem cliTlsRun_eq (g : Gnu) (e : Endian) (c : TabClient) (list : Bool) (errm errh : List Byte) (p : TlsPeer) (inp tlsIn : List Byte) :
    cliTlsRun g e c list errm errh p inp tlsIn =
      (let r := (cliNegotiateTls g e c list errm errh ⟨inp, if cliSecured g c p then tlsIn else [], [], [], false, 0, 0, []⟩).fin
       (r.1, r.2, if cliSecured g c p then r.2.tlsOut else [])) := by
  unfold cliTlsRun
  dsimp only
  cases cliNegotiateTls g e c list errm errh ⟨inp, if cliSecured g c p then tlsIn else [], [], [], false, 0, 0, []⟩ <;> rfl

/-- Without a session the client neither gets ready nor lists. -/
theorem cliTlsRun_unsecured {g : Gnu} {e : Endian} {c : TabClient} {list : Bool} {errm errh : List Byte} {p : TlsPeer}
    {inp tlsIn : List Byte} (ht : c.tls = true) (h : cliSecured g c p = false) :
    (∀ size fl, (cliTlsRun g e c list errm errh p inp tlsIn).1 ≠ .ready size fl) ∧
    (cliTlsRun g e c list errm errh p inp tlsIn).1 ≠ .listed ∧ (cliTlsRun g e c list errm errh p inp tlsIn).2.2 = [] := by
  rw [cliTlsRun_eq, h]
  dsimp only
  simp only [Bool.false_eq_true, if_false, and_true]
  unfold cliNegotiateTls
  have hg := (cliGreet_where e (c.conf list) inp []).h _ rfl
  cases hq : cliGreet e (c.conf list) ⟨inp, [], [], [], false, 0, 0, []⟩ with
  | stop r s => rw [CM.bind_stop hq]; rw [hq] at hg; rcases hg with hg | hg <;> (rw [hg]; simp [CRes.fin])
  | ok gz s =>
    rw [CM.bind_ok hq]
    rw [hq] at hg
    dsimp only at hg
    rw [ht, if_pos rfl]
    have hs := (cliStarttls_where e []).h s hg.2.1
    cases hq2 : cliStarttls e s with
    | stop r s' => rw [CM.bind_stop hq2]; rw [hq2] at hs; rcases hs with h | h <;> (rw [h]; simp [CRes.fin])
    | ok u s' =>
      rw [CM.bind_ok hq2]
      rw [hq2] at hs
      cases hss : cliSession g c with
      | none =>
        simp only [Option.isNone_none, if_true]
        rw [CM.bind_stop (Nbd.stop_eq _ _)]
        simp [CRes.fin]
      | some ss =>
        simp only [Option.isNone_some, Bool.false_eq_true, if_false]
        exact cliAsk_silent e _ errm errh gz s' hs

/-- The TLS settings that `main` ends up with. -/
theorem cliSettle_tls {st st' : CliState} (h : cliSettle st = .val st') :
    st'.cl.cacert = st.cl.cacert ∧
    st'.cl.tlshostn = if st.cl.tlshostn.isNone && st.cl.hostn.isSome && !st.cl.unix then st.cl.hostn else st.cl.tlshostn := by
  unfold cliSettle at h
  extract_lets c0 c1 c2 c3 c4 at h
  have e1 : c1.cacert = c0.cacert ∧ c1.tlshostn = c0.tlshostn ∧ c1.hostn = c0.hostn ∧ c1.unix = c0.unix := by
    simp only [c1]; split <;> simp
  have e2 : c2.cacert = c1.cacert ∧ c2.tlshostn = c1.tlshostn ∧ c2.hostn = c1.hostn ∧ c2.unix = c1.unix := by
    simp only [c2]; split <;> simp
  have e3 : c3.cacert = c2.cacert ∧ c3.tlshostn = if c2.tlshostn.isNone && c2.hostn.isSome && !c2.unix then c2.hostn else c2.tlshostn := by
    simp only [c3]; split <;> simp
  split at h
  · cases h
  · split at h
    · cases h
    · split at h
      · cases h
      · split at h
        · cases h
        · split at h
          · cases h
          · cases h
            refine ⟨?_, ?_⟩
            · show c3.cacert = _
              rw [e3.1, e2.1, e1.1]
            · show c3.tlshostn = _
              rw [e3.2, e2.2.1, e2.2.2.1, e2.2.2.2, e1.2.1, e1.2.2.1, e1.2.2.2]

theorem step_cacert (nl : Bool) : ∀ st o st', cliStep nl st o = .go st' → st'.cl.cacert = ((cacertOf o).map some).getD st.cl.cacert := by
  cli_step

theorem step_tlshost (nl : Bool) : ∀ st o st', cliStep nl st o = .go st' → st'.cl.tlshostn = ((tlshostOf o).map some).getD st.cl.tlshostn := by
  cli_step

theorem settings_direct {nl : Bool} {table : Option (List Byte)} {opts : List CliOpt} {h : List Byte} {c : TabClient} {list : Bool}
    (hd : Direct opts h) (hs : cliSettings nl table opts = some (c, list)) :
    (c.tls = true ↔ ∃ o ∈ opts, AsksTls o) ∧ c.cacert = lastGiven cacertOf opts ∧
    ((lastGiven tlshostOf opts).isSome = true ∨ .unix ∉ opts → c.tlshostn = some ((lastGiven tlshostOf opts).getD h)) := by
  unfold cliSettings at hs
  rcases hl : cliLoop nl opts (cliStart nl) with st0 | _ | _
  · rw [hl] at hs
    dsimp only at hs
    rcases hdisc : st0.disc with _ | _
    · rw [hdisc] at hs
      simp only [Bool.false_eq_true, if_false] at hs
      rcases hr : cliReady table st0 with st | _ | _ | _
      · rw [hr] at hs
        cases hs
        have ht := direct_told hd hl hdisc hr
        have hd' : looksLikeDev h = false ∨ .list ∈ opts ∨ ((lastGiven nameOf opts).isSome = true ∧ (deviceOf (cliWords opts)).isSome = true) := by
          rcases hd.2 with ⟨h1, h2⟩ | h1 | ⟨⟨v, h1⟩, h2⟩
          · exact .inl (looksLikeDev_false h1 h2)
          · exact .inr (.inl h1)
          · exact .inr (.inr ⟨lastGiven_name_isSome h1, h2⟩)
        have hhost := cliLoop_start_host nl opts st0 hl
        rw [hd.1] at hhost
        have hset : cliSettle st0 = .val st := by
          have hname : st0.cl.name = lastGiven nameOf opts := cliLoop_last_some nl (fun s => s.cl.name) nameOf (step_name nl) opts rfl st0 hl
          have hlist : st0.list = true ↔ .list ∈ opts := cliLoop_mem nl (fun s => s.list) .list (step_list nl) opts rfl st0 hl
          have hnd : ∀ o ∈ opts, o.isDisc = false := by
            have := cliLoop_flag nl (fun s => s.disc) CliOpt.isDisc (step_disc nl) opts _ _ hl
            rw [hdisc] at this
            have h2 : opts.any CliOpt.isDisc = false := by
              cases hx : opts.any CliOpt.isDisc with
              | false => rfl
              | true => rw [hx] at this; cases this
            simpa using h2
          refine cliReady_direct table st0 st h hhost ?_ hr
          by_cases hx : CliOpt.list ∈ opts
          · exact .inr (.inl (hlist.mpr hx))
          · rcases hd' with hd | hd | ⟨h1, h2⟩
            · exact .inl hd
            · exact absurd hd hx
            · exact .inr (.inr ⟨by rw [hname]; exact h1, by rw [cliLoop_start_dev nl opts hnd hx st0 hl]; exact h2⟩)
        obtain ⟨t1, t2⟩ := cliSettle_tls hset
        have hca : st0.cl.cacert = lastGiven cacertOf opts :=
          cliLoop_last_some nl (fun s => s.cl.cacert) cacertOf (step_cacert nl) opts rfl st0 hl
        have hth : st0.cl.tlshostn = lastGiven tlshostOf opts :=
          cliLoop_last_some nl (fun s => s.cl.tlshostn) tlshostOf (step_tlshost nl) opts rfl st0 hl
        have hunix : st0.cl.unix = true ↔ .unix ∈ opts := cliLoop_mem nl (fun s => s.cl.unix) .unix (step_unix nl) opts rfl st0 hl
        refine ⟨ht.tls, t1.trans hca, fun hu => ?_⟩
        rw [t2, hth, hhost]
        rcases hx : lastGiven tlshostOf opts with _ | v
        · rcases hu with hu | hu
          · rw [hx] at hu; cases hu
          · have : st0.cl.unix = false := by
              cases hy : st0.cl.unix with
              | false => rfl
              | true => exact absurd (hunix.mp hy) hu
            rw [this]; rfl
        · rfl
      · rw [hr] at hs; cases hs
      · rw [hr] at hs; cases hs
      · rw [hr] at hs; cases hs
    · rw [hdisc] at hs; cases hs
  · rw [hl] at hs; cases hs
  · rw [hl] at hs; cases hs

theorem asksTls_of_cacert {opts : List CliOpt} {ca : List Byte} (h : lastGiven cacertOf opts = some ca) : ∃ o ∈ opts, AsksTls o := by
  unfold lastGiven at h
  obtain ⟨o, ho, hf⟩ := List.mem_filterMap.mp (List.mem_of_getLast? h)
  refine ⟨o, ho, ?_⟩
  cases o <;> first | (cases hf; done) | trivial

/-- The TLS settings with the table. -/
theorem settings_looked {nl : Bool} {opts : List CliOpt} {h ca host : List Byte} {pre post : List TabEntry} {t : TabEntry} {c : TabClient}
    {list : Bool} (hL : Looked opts h) (hw : ∀ x ∈ pre ++ t :: post, EntryWords x) (he : stripDev t.dev = stripDev h)
    (hpre : ∀ x ∈ pre, stripDev x.dev ≠ stripDev h) (hpost : ∀ x ∈ post, stripDev x.dev ≠ stripDev h)
    (hs : cliSettings nl (some ((pre ++ t :: post).map writeEntry).flatten) opts = some (c, list))
    (hca : (lastProp (ascii "cacertfile") t.opts).or (if pre = [] then lastGiven cacertOf opts else none) = some ca)
    (hho : (lastProp (ascii "tlshostname") t.opts).or (if pre = [] then lastGiven tlshostOf opts else none) = some host ∨
      (lastProp (ascii "tlshostname") t.opts).or (if pre = [] then lastGiven tlshostOf opts else none) = none ∧ host = t.host ∧
        .flag (ascii "unix") ∉ t.opts ∧ .unix ∉ opts) :
    c.tls = true ∧ c.cacert = some ca ∧ c.tlshostn = some host := by
  obtain ⟨hwd, hdev, hnl⟩ := hL
  unfold cliSettings at hs
  rcases hl : cliLoop nl opts (cliStart nl) with st0 | _ | _
  · rw [hl] at hs
    dsimp only at hs
    rcases hdisc : st0.disc with _ | _
    · rw [hdisc] at hs
      simp only [Bool.false_eq_true, if_false] at hs
      rcases hr : cliReady (some ((pre ++ t :: post).map writeEntry).flatten) st0 with st | _ | _ | _
      · rw [hr] at hs
        cases hs
        have hhost := cliLoop_start_host nl opts st0 hl
        rw [hwd] at hhost
        have hlist : st0.list = true ↔ .list ∈ opts := cliLoop_mem nl (fun s => s.list) .list (step_list nl) opts rfl st0 hl
        have hnd : ∀ o ∈ opts, o.isDisc = false := by
          have := cliLoop_flag nl (fun s => s.disc) CliOpt.isDisc (step_disc nl) opts _ _ hl
          rw [hdisc] at this
          have h2 : opts.any CliOpt.isDisc = false := by
            cases hx : opts.any CliOpt.isDisc with
            | false => rfl
            | true => rw [hx] at this; cases this
          simpa using h2
        have hd0 := cliLoop_start_dev nl opts hnd hnl st0 hl
        rw [hwd] at hd0
        have hd0 : st0.dev = none := hd0
        have hl0 : st0.list = false := by
          cases hx : st0.list with
          | false => rfl
          | true => exact absurd (hlist.mp hx) hnl
        unfold cliReady at hr
        rw [show st0.cl.hostn = some h from hhost] at hr
        dsimp only at hr
        rw [hd0, hl0, looksLikeDev_true hdev] at hr
        simp only [Option.isNone_none, Bool.or_true, Bool.not_false, Bool.and_self, if_true] at hr
        rcases hg : getFromConfig { st0.cl with dev := h } (some ((pre ++ t :: post).map writeEntry).flatten) with _ | c'
        · rw [hg] at hr; cases hr
        rw [hg] at hr
        dsimp only at hr
        obtain ⟨c1, hc1, hf⟩ := Props.C46_entry_partial { st0.cl with dev := h } pre post t hw he hpre hpost
        rw [hg] at hc1
        cases hc1
        obtain ⟨t1, t2⟩ := cliSettle_tls hr
        have hset := cliSettle_val _ st hr
        have htls := hset.2.2.2.2.2.2.2.2.2.2.2.2.2.2.2.2.1
        have hca0 : st0.cl.cacert = lastGiven cacertOf opts :=
          cliLoop_last_some nl (fun s => s.cl.cacert) cacertOf (step_cacert nl) opts rfl st0 hl
        have hth0 : st0.cl.tlshostn = lastGiven tlshostOf opts :=
          cliLoop_last_some nl (fun s => s.cl.tlshostn) tlshostOf (step_tlshost nl) opts rfl st0 hl
        have hun0 : st0.cl.unix = true ↔ .unix ∈ opts := cliLoop_mem nl (fun s => s.cl.unix) .unix (step_unix nl) opts rfl st0 hl
        have f1 := hf.cacert
        have f2 := hf.tlshostn
        have f3 := hf.unix
        have f4 := hf.host
        have g1 : c'.cacert = some ca := by
          rw [f1, ← hca]
          congr 1
          split
          · exact hca0
          · rfl
        have g2 : c'.tlshostn = (lastProp (ascii "tlshostname") t.opts).or (if pre = [] then lastGiven tlshostOf opts else none) := by
          rw [f2]
          congr 1
          split
          · exact hth0
          · rfl
        refine ⟨?_, ?_, ?_⟩
        · rw [htls]
          show c'.wantsTls = true
          unfold TabClient.wantsTls
          rw [g1]
          simp
        · rw [t1]; exact g1
        · rw [t2]
          show (if c'.tlshostn.isNone && c'.hostn.isSome && !c'.unix then c'.hostn else c'.tlshostn) = some host
          rcases hho with hho | ⟨hho, hh, hu1, hu2⟩
          · rw [g2, hho]; rfl
          · rw [g2, hho, f4, hh]
            have : c'.unix = false := by
              rw [f3, Bool.or_eq_false_iff]
              refine ⟨by simpa using hu1, ?_⟩
              split
              · cases hx : st0.cl.unix with
                | false => rfl
                | true => exact absurd (hun0.mp hx) hu2
              · rfl
            rw [this]; rfl
      · rw [hr] at hs; cases hs
      · rw [hr] at hs; cases hs
      · rw [hr] at hs; cases hs
    · rw [hdisc] at hs; cases hs
  · rw [hl] at hs; cases hs
  · rw [hl] at hs; cases hs

theorem cliSession_some {g : Gnu} {c : TabClient} (h1 : c.cacert = none ∨ ∃ ca, c.cacert = some ca ∧ 0 ≤ g.trustFile (some ca))
    (h2 : ∀ k, c.key = some k → 0 ≤ g.keyFile (some (c.cert.getD k)) k)
    (h3 : 0 ≤ g.priority (some (c.priority.getD CLI_PRIORITY))) :
    ∃ s, cliSession g c = some s ∧ (s.checks = (c.cacert.isSome && c.tlshostn.isSome) ∧ s.ca = c.cacert ∧ s.host = c.tlshostn) := by
  unfold cliSession tlsSessionNew
  rw [if_neg, if_neg, if_neg (by omega)]
  · refine ⟨_, rfl, ?_, rfl, rfl⟩
    show (c.cacert.isSome && !(c.cacert.isNone || c.tlshostn.isNone)) = _
    cases c.cacert <;> cases c.tlshostn <;> rfl
  · unfold ownFiles ownOk
    rcases hk : c.key with _ | k
    · simp
    · simpa using h2 k hk
  · rintro ⟨a, b⟩
    rcases h1 with h1 | ⟨ca, h1, h4⟩
    · rw [h1] at a; cases a
    · rw [h1] at b; omega

/-- Without authorities, or without a host name, nothing is checked. -/
theorem cliSecured_unchecked {g : Gnu} {c : TabClient} {p : TlsPeer}
    (h1 : c.cacert = none ∨ ∃ ca, c.cacert = some ca ∧ 0 ≤ g.trustFile (some ca))
    (h2 : ∀ k, c.key = some k → 0 ≤ g.keyFile (some (c.cert.getD k)) k)
    (h3 : 0 ≤ g.priority (some (c.priority.getD CLI_PRIORITY)))
    (hn : c.cacert = none ∨ c.tlshostn = none) : cliSecured g c p = p.agrees := by
  obtain ⟨s, h, hc, -⟩ := cliSession_some h1 h2 h3
  have hc : s.checks = false := by
    rw [hc]
    rcases hn with hn | hn <;> (rw [hn]; simp)
  unfold cliSecured
  rw [h]
  dsimp only
  unfold TlsSession.shake handshake
  rw [hc]
  rfl

/-- With a session, the client negotiates as `cliRun` does. -/
theorem cliTlsRun_secured {g : Gnu} {e : Endian} {c : TabClient} {list : Bool} {errm errh : List Byte} {p : TlsPeer}
    {inp tlsIn : List Byte} (h : cliSecured g c p = true) :
    cliTlsRun g e c list errm errh p inp tlsIn =
      ((cliRun e (c.conf list) errm errh inp tlsIn).1, (cliRun e (c.conf list) errm errh inp tlsIn).2,
        (cliRun e (c.conf list) errm errh inp tlsIn).2.tlsOut) := by
  rw [cliTlsRun_eq, cliRun_fin, h]
  dsimp only
  rw [if_pos rfl, if_pos rfl]
  have hss : (cliSession g c).isNone = false := by
    unfold cliSecured at h
    cases hx : cliSession g c with
    | none => rw [hx] at h; cases h
    | some s => rfl
  have : cliNegotiateTls g e c list errm errh = cliNegotiate e (c.conf list) errm errh := by
    unfold cliNegotiateTls cliNegotiate
    rw [hss]
    rfl
  rw [this]

/-! ### The server -/

/-- No session, and nothing said in one. -/
def Clear (s : NState) : Prop := s.tls = false ∧ s.tlsIn = none ∧ s.tlsOut = []

theorem clear_stable : Stable Clear := by
  refine ⟨fun _ _ h => h, fun s bs h => ?_⟩
  refine ⟨by simpa using h.1, by simpa using h.2.1, ?_⟩
  show NState.tlsOut (if s.tls then _ else _) = []
  rw [h.1]
  exact h.2.2

theorem clear_commits (env : NEnv) (cf : NConf) : Commits env cf Clear (fun _ _ => True) (fun _ => Clear) := by
  refine ⟨fun sv => ⟨fun s hs => ?_⟩, fun sv => ⟨fun s n h => h, fun s bs h => ⟨clear_stable.said _ _ h.1, trivial⟩⟩,
    fun _ _ h _ => h⟩
  have h := (commitClient_spec env cf sv s).h s rfl
  cases hq : commitClient env cf sv s with
  | ok r s' =>
    rw [hq] at h
    exact ⟨⟨by rw [h.1.tls]; exact hs.1.1, by rw [h.1.tlsIn]; exact hs.1.2.1, by rw [h.1.tlsOut]; exact hs.1.2.2⟩, fun _ _ => trivial⟩
  | stop r s' =>
    rw [hq] at h
    exact ⟨by rw [h.1.tls]; exact hs.1.1, by rw [h.1.tlsIn]; exact hs.1.2.1, by rw [h.1.tlsOut]; exact hs.1.2.2⟩

theorem session_clear (e : Endian) (env : NEnv) (cf : NConf) (n : Nat) (svs : List SrvExport) (nz : Bool) (inp : List Byte) :
    Clear (session e env cf n svs nz inp none).2 := by
  have hl : Hoare Clear (optionLoop e env cf n) (fun _ => Clear) (fun _ => Clear) :=
    Hoare.optionLoop clear_stable (fun _ _ _ _ h => h) (clear_commits env cf) (.inl fun _ h => h) (fun _ h => h)
      (fun s i h hi => by rw [h.2.1] at hi; cases hi) e n
  have hg : Hoare Clear (greet e) (fun _ => Clear) (fun _ => Clear) := by
    unfold greet
    refine (Hoare.send clear_stable _).bind fun _ => (Hoare.send clear_stable _).bind fun _ => (Hoare.send clear_stable _).bind fun _ => ?_
    refine (Hoare.recv32 clear_stable (fun _ _ _ _ h => h) e).bind fun f => ?_
    split
    · exact Hoare.modify fun s h => h
    · exact Hoare.pure fun s h => h
  have := (hg.bind fun _ => hl).h (.fresh svs nz inp none) ⟨rfl, rfl, rfl⟩
  unfold session negotiate
  cases hq : (greet e >>= fun _ => optionLoop e env cf n) (.fresh svs nz inp none) with
  | ok a s => rw [hq] at this; exact this
  | stop r s => rw [hq] at this; exact this

theorem srvSecured_vouched {g : Gnu} {gc : GenConf} {now : Int} {p : TlsPeer} {ca : List Byte} (hca : gc.cacertfile = some ca)
    (hcall : p.chain ≠ [] ∨ g.callsWithout = true) (h : srvSecured g gc now p = true) : Vouched g ca (ValidAt g now) p := by
  unfold srvSecured at h
  split at h
  · cases h
  · split at h
    · cases h
    · split at h
      · cases h
      · split at h
        · cases h
        · rw [hca] at h
          exact verifyCert_zero (handshake_called hcall h)

namespace Props

/-! ### C92 -/

/-- **C92** (partial: with a file of authorities and a host name to check; see `C92_false_unchecked`, `C92_false_unix`,
`C92_false_table`). If a client with these settings goes on with a server, or says anything to it inside the TLS session, then the
server's certificates are vouched for by the authorities, and made out for the host name. -/
theorem C92_verified_partial (g : Gnu) (e : Endian) (c : TabClient) (list : Bool) (errm errh : List Byte) (p : TlsPeer)
    (inp tlsIn ca host : List Byte) (ht : c.tls = true) (hca : c.cacert = some ca) (hho : c.tlshostn = some host) (hne : host ≠ [])
    (hcall : p.chain ≠ [] ∨ g.callsWithout = true)
    (h : (∃ size fl, (cliTlsRun g e c list errm errh p inp tlsIn).1 = .ready size fl) ∨
      (cliTlsRun g e c list errm errh p inp tlsIn).1 = .listed ∨ (cliTlsRun g e c list errm errh p inp tlsIn).2.2 ≠ []) :
    Vouched g ca (MadeFor g host) p := by
  cases hs : cliSecured g c p with
  | true => exact cliSecured_vouched hca hho hne hcall hs
  | false =>
    obtain ⟨h1, h2, h3⟩ := cliTlsRun_unsecured (e := e) (list := list) (errm := errm) (errh := errh) (inp := inp) (tlsIn := tlsIn) ht hs
    rcases h with ⟨a, b, h⟩ | h | h
    · exact absurd h (h1 a b)
    · exact absurd h h2
    · exact absurd h3 h

/-- **C92 of the program** (partial, likewise). nbd-client that is given `-A` with a file of authorities and what to connect to: it goes
on only with a server with a certificate vouched for by them, and made out for the name given with `-H`, or for the host it was told to
connect to. -/
theorem C92_program_partial (g : Gnu) (e : Endian) (nl : Bool) (table : Option (List Byte)) (opts : List CliOpt) (h ca : List Byte)
    (c : TabClient) (list : Bool) (errm errh : List Byte) (p : TlsPeer) (inp tlsIn : List Byte)
    (hd : Direct opts h) (hs : cliSettings nl table opts = some (c, list)) (hca : lastGiven cacertOf opts = some ca)
    (hu : (lastGiven tlshostOf opts).isSome = true ∨ .unix ∉ opts) (hne : (lastGiven tlshostOf opts).getD h ≠ [])
    (hcall : p.chain ≠ [] ∨ g.callsWithout = true)
    (hr : (∃ size fl, (cliTlsRun g e c list errm errh p inp tlsIn).1 = .ready size fl) ∨
      (cliTlsRun g e c list errm errh p inp tlsIn).1 = .listed ∨ (cliTlsRun g e c list errm errh p inp tlsIn).2.2 ≠ []) :
    Vouched g ca (MadeFor g ((lastGiven tlshostOf opts).getD h)) p := by
  obtain ⟨h1, h2, h3⟩ := settings_direct hd hs
  exact C92_verified_partial g e c list errm errh p inp tlsIn ca _ (h1.mpr (asksTls_of_cacert hca)) (h2.trans hca) (h3 hu) hne hcall hr

/-- The settings looked at are the ones that `main` connects with. -/
theorem C92_settings (nl : Bool) (os : CliOs) (table : Option (List Byte)) (n : Nat) (opts : List CliOpt) (x : CliEv)
    (hx : x ∈ (cliMain nl os table n opts).1) (hn : negotiated x = true) :
    ∃ c list, cliSettings nl table opts = some (c, list) ∧ x = .nego (c.name.getD []) c.tls c.noOptgo list := by
  have ha : ¬ Aside x := by cases x <;> first | (cases hn; done) | exact id
  rcases cliMain_cases nl os table n opts with ⟨r, h1, -⟩ | ⟨r, h1, -⟩ | ⟨d, -, h1⟩ | ⟨st, -, -, h1⟩ | ⟨st0, st, hl, hd, hr, h1⟩
  · rw [h1] at hx; cases hx
  · rw [h1] at hx; cases hx
  · rw [h1] at hx
    unfold checkConn at hx
    split at hx
    · cases hx
    · cases hx
    · cases hx
    · simp only [List.nil_append, List.mem_singleton] at hx
      subst hx
      exact absurd trivial ha
  · rw [h1] at hx
    exact absurd (cliDisconnect_aside os _ _ x hx) ha
  · rw [h1] at hx
    obtain ⟨m, h2, h3⟩ := cliConnect_grows os n st []
    rw [List.nil_append] at h2
    rw [h2] at hx
    refine ⟨st.cl, st.list, ?_, ?_⟩
    · unfold cliSettings
      rw [hl]
      dsimp only
      rw [hd]
      simp only [Bool.false_eq_true, if_false]
      rw [hr]
    · have := h3 x hx
      cases x with
      | nego a b c d =>
        obtain ⟨e1, e2, e3, e4⟩ := this
        rw [e1, e2, e3, e4]
      | _ => cases hn

/-- **C92, with the table of devices** (partial, likewise). The entry of the device gives the authorities, or `-A` does and the entry is the
first of the table; likewise the name, which otherwise is the host of the entry. -/
theorem C92_table_partial (g : Gnu) (e : Endian) (nl : Bool) (opts : List CliOpt) (h ca host : List Byte)
    (pre post : List TabEntry) (t : TabEntry) (c : TabClient) (list : Bool) (errm errh : List Byte) (p : TlsPeer) (inp tlsIn : List Byte)
    (hL : Looked opts h) (hw : ∀ x ∈ pre ++ t :: post, EntryWords x) (he : stripDev t.dev = stripDev h)
    (hpre : ∀ x ∈ pre, stripDev x.dev ≠ stripDev h) (hpost : ∀ x ∈ post, stripDev x.dev ≠ stripDev h)
    (hs : cliSettings nl (some ((pre ++ t :: post).map writeEntry).flatten) opts = some (c, list))
    (hca : (lastProp (ascii "cacertfile") t.opts).or (if pre = [] then lastGiven cacertOf opts else none) = some ca)
    (hho : (lastProp (ascii "tlshostname") t.opts).or (if pre = [] then lastGiven tlshostOf opts else none) = some host ∨
      (lastProp (ascii "tlshostname") t.opts).or (if pre = [] then lastGiven tlshostOf opts else none) = none ∧ host = t.host ∧
        .flag (ascii "unix") ∉ t.opts ∧ .unix ∉ opts)
    (hne : host ≠ []) (hcall : p.chain ≠ [] ∨ g.callsWithout = true)
    (hr : (∃ size fl, (cliTlsRun g e c list errm errh p inp tlsIn).1 = .ready size fl) ∨
      (cliTlsRun g e c list errm errh p inp tlsIn).1 = .listed ∨ (cliTlsRun g e c list errm errh p inp tlsIn).2.2 ≠ []) :
    Vouched g ca (MadeFor g host) p := by
  obtain ⟨h1, h2, h3⟩ := settings_looked hL hw he hpre hpost hs hca hho
  exact C92_verified_partial g e c list errm errh p inp tlsIn ca host h1 h2 h3 hne hcall hr

/-- A server that is vouched for is accepted: nbd-client negotiates with it as `cliRun` does. -/
theorem C92_accepted (g : Gnu) (e : Endian) (c : TabClient) (list : Bool) (errm errh : List Byte) (p : TlsPeer)
    (inp tlsIn ca host : List Byte) (hca : c.cacert = some ca) (hho : c.tlshostn = some host)
    (h1 : 0 ≤ g.trustFile (some ca)) (h2 : ∀ k, c.key = some k → 0 ≤ g.keyFile (some (c.cert.getD k)) k)
    (h3 : 0 ≤ g.priority (some (c.priority.getD (ascii "NORMAL:-VERS-TLS-ALL:+VERS-TLS1.2"))))
    (hp : p.agrees = true) (hv : Vouched g ca (MadeFor g host) p) :
    cliTlsRun g e c list errm errh p inp tlsIn =
      ((cliRun e (c.conf list) errm errh inp tlsIn).1, (cliRun e (c.conf list) errm errh inp tlsIn).2,
        (cliRun e (c.conf list) errm errh inp tlsIn).2.tlsOut) := by
  apply cliTlsRun_secured
  obtain ⟨ss, hss, hc⟩ := cliSession_some (g := g) (c := c) (.inr ⟨ca, hca, h1⟩) h2 h3
  unfold cliSecured
  rw [hss]
  dsimp only
  unfold TlsSession.shake handshake
  obtain ⟨v1, v2, leaf, rest, v3, v4, v5⟩ := hv
  split
  · exact hp
  · rename_i f hf
    split
    · exact hp
    · rw [hp, Bool.true_and, beq_iff_eq]
      split at hf
      · cases hf
        rw [hc.2.1, hc.2.2, hca, hho]
        unfold verifyCallback
        rw [v2]
        dsimp only
        rw [if_neg (by simp), v1, v3]
        simp only [Bool.not_true, Bool.false_eq_true, if_false]
        rw [v4]
        simp only [Bool.not_true, Bool.false_eq_true, if_false]
        unfold MadeFor at v5
        split
        · rename_i b bs hb
          cases hb
          rw [v5]; rfl
        · rfl
      · cases hf

namespace TDemo

/-- A file of authorities "ca.pem", which vouch for the certificate 1, made out for "server"; nothing else is vouched for. -/
def gnu : Gnu where
  trustFile f := if f = some (ascii "ca.pem") then 1 else -1
  keyFile c _ := if c = some (ascii "cert.pem") then 0 else -1
  priority _ := 0
  verify f l := some (if f = some (ascii "ca.pem") ∧ l = [[1]] then 0 else 2)
  parses _ := true
  names l h := l == [1] && h == ascii "server"
  activation _ := 1000
  expiration _ := 2000
  callsWithout := true

def good : TlsPeer := ⟨[[1]], true, true⟩
def bad : TlsPeer := ⟨[[2]], true, true⟩
def bare : TlsPeer := ⟨[], true, true⟩

/-- What a server says: the greeting and the answer to STARTTLS; and, inside TLS, that the export has 4096 bytes. -/
def plain : List Byte := ascii "NBDMAGIC" ++ ascii "IHAVEOPT" ++ toBE 2 3 ++ optReply 5 1 []
def inside : List Byte := optReply 7 3 (toBE 2 0 ++ toBE 8 4096 ++ toBE 2 1) ++ optReply 7 1 []

/-- `nbd-client -A ca.pem server -N disk /dev/nbd0`, and the settings it leads to. -/
def opts : List CliOpt := [.cacert (ascii "ca.pem"), .arg (ascii "server"), .name (ascii "disk"), .arg (ascii "/dev/nbd0")]
def conf : TabClient := ((cliSettings true none opts).map (·.1)).getD (tabBlank [])

end TDemo

/-- **The hypotheses.** A client that is given authorities gets ready with the server they vouch for, and says something to it. -/
example : Direct TDemo.opts (ascii "server") ∧ cliSettings true none TDemo.opts = some (TDemo.conf, false) ∧
    lastGiven cacertOf TDemo.opts = some (ascii "ca.pem") ∧ .unix ∉ TDemo.opts ∧
    (cliTlsRun TDemo.gnu .little TDemo.conf false [] [] TDemo.good TDemo.plain TDemo.inside).1 = .ready 4096 1 ∧
    (cliTlsRun TDemo.gnu .little TDemo.conf false [] [] TDemo.good TDemo.plain TDemo.inside).2.2 = optRequest 7 (infoData (ascii "disk") []) ∧
    Vouched TDemo.gnu (ascii "ca.pem") (MadeFor TDemo.gnu (ascii "server")) TDemo.good :=
  ⟨⟨by decide +kernel, .inl ⟨by decide +kernel, by decide +kernel⟩⟩, by decide +kernel, by decide +kernel, by decide, by decide +kernel,
    by decide +kernel, rfl, by decide +kernel, [1], [], rfl, rfl, (show TDemo.gnu.names [1] (ascii "server") = true by decide +kernel)⟩

/-- Another server is told nothing. -/
example : (cliTlsRun TDemo.gnu .little TDemo.conf false [] [] TDemo.bad TDemo.plain TDemo.inside).1 = .failed ∧
    (cliTlsRun TDemo.gnu .little TDemo.conf false [] [] TDemo.bad TDemo.plain TDemo.inside).2.2 = [] := by decide +kernel

/-- With the table: the second entry gives the authorities. -/
example : ∃ (pre post : List TabEntry) (t : TabEntry) (c : TabClient),
    (∀ x ∈ pre ++ t :: post, EntryWords x) ∧ pre ≠ [] ∧ Looked [.noNetlink, .arg (ascii "/dev/nbd0")] (ascii "/dev/nbd0") ∧
    stripDev t.dev = stripDev (ascii "/dev/nbd0") ∧ (∀ x ∈ pre, stripDev x.dev ≠ stripDev (ascii "/dev/nbd0")) ∧
    cliSettings true (some ((pre ++ t :: post).map writeEntry).flatten) [.noNetlink, .arg (ascii "/dev/nbd0")] = some (c, false) ∧
    lastProp (ascii "cacertfile") t.opts = some (ascii "ca.pem") ∧ lastProp (ascii "tlshostname") t.opts = none ∧ t.host = ascii "server" ∧
    (cliTlsRun TDemo.gnu .little c false [] [] TDemo.good TDemo.plain TDemo.inside).1 = .ready 4096 1 :=
  ⟨[⟨ascii "nbd1", ascii "other", ascii "swap", []⟩], [],
    ⟨ascii "nbd0", ascii "server", ascii "disk", [.prop (ascii "cacertfile") (ascii "ca.pem")]⟩,
    ((cliSettings true (some ([⟨ascii "nbd1", ascii "other", ascii "swap", []⟩,
      ⟨ascii "nbd0", ascii "server", ascii "disk", [.prop (ascii "cacertfile") (ascii "ca.pem")]⟩].map writeEntry).flatten)
      [.noNetlink, .arg (ascii "/dev/nbd0")]).map (·.1)).getD (tabBlank []),
    by intro x hx
       simp only [List.cons_append, List.nil_append, List.mem_cons, List.not_mem_nil, or_false] at hx
       rcases hx with rfl | rfl
       · exact ⟨by decide +kernel, by decide +kernel, by decide +kernel, by decide +kernel⟩
       · exact ⟨by decide +kernel, by decide +kernel, by decide +kernel, by decide +kernel⟩,
    by decide, ⟨rfl, .inr ⟨ascii "0", rfl⟩, by decide⟩, by decide +kernel, by decide +kernel, by decide +kernel, by decide +kernel,
    by decide +kernel, rfl, by decide +kernel⟩

/-- A client that checks nothing gets ready with every server. -/
theorem unchecked_ready {g : Gnu} {c : TabClient} {p : TlsPeer} (hp : p.agrees = true)
    (h1 : c.cacert = none ∨ ∃ ca, c.cacert = some ca ∧ 0 ≤ g.trustFile (some ca)) (h2 : c.key = none)
    (h3 : ∀ x, 0 ≤ g.priority x) (hn : c.cacert = none ∨ c.tlshostn = none)
    (hr : (cliRun .little (c.conf false) [] [] TDemo.plain TDemo.inside).1 = .ready 4096 1) :
    (cliTlsRun g .little c false [] [] p TDemo.plain TDemo.inside).1 = .ready 4096 1 := by
  rw [cliTlsRun_secured]
  · exact hr
  · rw [cliSecured_unchecked h1 (by intro k hk; rw [h2] at hk; cases hk) (h3 _) hn]
    exact hp

/-- **C92 does not hold**: without `-A`, TLS is used but nothing is checked. `nbd-client -x`, and even `nbd-client -H name`, which asks for
the name to be checked, go on with every server, whatever GnuTLS thinks of its certificates and whomever they were made out for. -/
theorem C92_false_unchecked (o : CliOpt) (ho : o = .tls ∨ o = .tlshost (ascii "trusted.example")) :
    ∃ c, cliSettings true none [o, .arg (ascii "server"), .name (ascii "disk"), .arg (ascii "/dev/nbd0")] = some (c, false) ∧
      c.tls = true ∧
      ∀ (g : Gnu) (p : TlsPeer), p.agrees = true → (∀ x, 0 ≤ g.priority x) →
        (cliTlsRun g .little c false [] [] p TDemo.plain TDemo.inside).1 = .ready 4096 1 := by
  refine ⟨((cliSettings true none [o, .arg (ascii "server"), .name (ascii "disk"), .arg (ascii "/dev/nbd0")]).map (·.1)).getD (tabBlank []),
    ?_, ?_, fun g p hp h3 => unchecked_ready hp ?_ ?_ h3 ?_ ?_⟩
  all_goals rcases ho with rfl | rfl
  all_goals first | decide +kernel | exact .inl (by decide +kernel)

/-- **C92 does not hold**: with a Unix socket and no `-H`, the file of authorities given with `-A` is read but the server's certificates
are not checked against it. -/
theorem C92_false_unix :
    ∃ c, cliSettings true none [.cacert (ascii "ca.pem"), .unix, .arg (ascii "/run/nbd"), .name (ascii "disk"), .arg (ascii "/dev/nbd0")] =
        some (c, false) ∧ c.cacert = some (ascii "ca.pem") ∧
      ∀ (g : Gnu) (p : TlsPeer), p.agrees = true → (∀ x, 0 ≤ g.priority x) → 0 ≤ g.trustFile (some (ascii "ca.pem")) →
        (cliTlsRun g .little c false [] [] p TDemo.plain TDemo.inside).1 = .ready 4096 1 := by
  refine ⟨((cliSettings true none [.cacert (ascii "ca.pem"), .unix, .arg (ascii "/run/nbd"), .name (ascii "disk"),
    .arg (ascii "/dev/nbd0")]).map (·.1)).getD (tabBlank []), by decide +kernel, by decide +kernel,
    fun g p hp h3 h4 => unchecked_ready hp (.inr ⟨ascii "ca.pem", by decide +kernel, h4⟩) (by decide +kernel) h3 (.inr (by decide +kernel))
      (by decide +kernel)⟩

/-- **C92 does not hold**: if the device is looked up and does not have the first entry of the table, `-A` is forgotten, and nothing is
checked. -/
theorem C92_false_table :
    ∃ c, cliSettings true (some (twoTab.map writeEntry).flatten) [.cacert (ascii "ca.pem"), .noNetlink, .arg (ascii "/dev/nbd0")] =
        some (c, false) ∧ c.tls = true ∧ c.hostn = some (ascii "server") ∧
      ∀ (g : Gnu) (p : TlsPeer), p.agrees = true → (∀ x, 0 ≤ g.priority x) →
        (cliTlsRun g .little c false [] [] p TDemo.plain TDemo.inside).1 = .ready 4096 1 := by
  refine ⟨((cliSettings true (some (twoTab.map writeEntry).flatten) [.cacert (ascii "ca.pem"), .noNetlink,
    .arg (ascii "/dev/nbd0")]).map (·.1)).getD (tabBlank []), by decide +kernel, by decide +kernel, by decide +kernel,
    fun g p hp h3 => unchecked_ready hp (.inl (by decide +kernel)) (by decide +kernel) h3 (.inl (by decide +kernel)) (by decide +kernel)⟩

/-- **C92 does not hold**: with `-g`, a client that could not establish the session does not give up but goes on, with what happened to be
in memory for the size of the export. -/
theorem C92_false_noopt : ∃ c, cliSettings true none (.noOptgo :: TDemo.opts) = some (c, false) ∧
    (cliTlsRun TDemo.gnu .little c false [] [] TDemo.bad TDemo.plain TDemo.inside).1 = .garbage :=
  ⟨((cliSettings true none (.noOptgo :: TDemo.opts)).map (·.1)).getD (tabBlank []), by decide +kernel, by decide +kernel⟩

/-! ### C93 -/

/-- **C93** (partial: with a file of authorities; see `C93_false_unset`, `C93_false_certfile`). Only a client that shows a certificate which
the authorities vouch for, and which is valid now, gets a TLS session. Another one is told nothing inside one; and it is served only if
the server does not force TLS, and only an export that is not for TLS only. -/
theorem C93_verified_partial (g : Gnu) (e : Endian) (env : NEnv) (gc : GenConf) (dontfork : Bool) (now : Int) (n : Nat)
    (svs : List SrvExport) (nz : Bool) (p : TlsPeer) (inp i ca : List Byte) (hca : gc.cacertfile = some ca)
    (hcall : p.chain ≠ [] ∨ g.callsWithout = true) (hbad : ¬ Vouched g ca (ValidAt g now) p) :
    (srvTlsRun g e env gc dontfork now n svs nz p inp i).2.tls = false ∧
    (srvTlsRun g e env gc dontfork now n svs nz p inp i).2.tlsOut = [] ∧
    ((srvTlsRun g e env gc dontfork now n svs nz p inp i).1 = .serving →
      has gc.flags F_FORCEDTLS = false ∧
      ∃ y ∈ svs, ¬ TlsOnly y ∧ ∃ x, (srvTlsRun g e env gc dontfork now n svs nz p inp i).2.server = some x ∧ x.id = y.id ∧ x.name = y.name) := by
  have hns : srvSecured g gc now p = false := by
    cases hs : srvSecured g gc now p with
    | false => rfl
    | true => exact absurd (srvSecured_vouched hca hcall hs) hbad
  have hrun : srvTlsRun g e env gc dontfork now n svs nz p inp i = session e env (gc.nconf dontfork) n svs nz inp none := by
    unfold srvTlsRun; rw [hns]; rfl
  rw [hrun]
  have hc := session_clear e env (gc.nconf dontfork) n svs nz inp
  refine ⟨hc.1, hc.2.2, fun hserv => ⟨?_, ?_⟩⟩
  · cases hf : has gc.flags F_FORCEDTLS with
    | false => rfl
    | true => exact absurd hserv (C25_forced e env (gc.nconf dontfork) hf n svs nz inp none hc.1).1
  · exact C24_not_served e env (gc.nconf dontfork) n svs nz inp none _ (Prod.ext hserv rfl) hc.1

/-- A client that is vouched for gets its session, if the server's own files can be read. -/
theorem C93_accepted (g : Gnu) (e : Endian) (env : NEnv) (gc : GenConf) (dontfork : Bool) (now : Int) (n : Nat)
    (svs : List SrvExport) (nz : Bool) (p : TlsPeer) (inp i ca k : List Byte) (hca : gc.cacertfile = some ca) (hk : gc.keyfile = some k)
    (h1 : 0 ≤ g.trustFile (some ca)) (h2 : 0 ≤ g.keyFile gc.certfile k) (h3 : 0 ≤ g.priority gc.tlsprio) (hp : p.agrees = true)
    (hv : Vouched g ca (ValidAt g now) p) :
    srvTlsRun g e env gc dontfork now n svs nz p inp i = session e env (gc.nconf dontfork) n svs nz inp (some i) := by
  have hs : srvSecured g gc now p = true := by
    unfold srvSecured
    rw [hk, hca]
    dsimp only
    rw [if_neg (by omega), if_neg (by omega), if_neg (by omega)]
    obtain ⟨v1, v2, leaf, rest, v3, v4, v5, v6⟩ := hv
    unfold handshake
    dsimp only
    rw [if_neg (by rw [v3]; simp), hp, Bool.true_and, beq_iff_eq]
    unfold verifyCert
    rw [v2]
    dsimp only
    rw [if_neg (by simp [v1]), v3]
    dsimp only
    rw [v4]
    simp only [Bool.not_true, Bool.false_eq_true, if_false]
    rw [if_neg (by omega), if_neg (by omega)]
  unfold srvTlsRun
  rw [hs]
  rfl

namespace TDemo

/-- A server with TLS. -/
def srv : GenConf := { keyfile := some (ascii "key.pem"), certfile := some (ascii "cert.pem"), cacertfile := some (ascii "ca.pem"), flags := F_FORCEDTLS }

end TDemo

/-- **The hypotheses.** The client with the good certificate is served the export `s`, which is for TLS only; one without a certificate is
not. A certificate is valid until its last second. -/
example : (srvTlsRun TDemo.gnu .little NDemo.env TDemo.srv false 1500 9 [NDemo.a, NDemo.s] false TDemo.good
      (toBE 4 3 ++ optRequest 5 []) (optRequest 7 (infoData NDemo.s.name []))).1 = .serving ∧
    (srvTlsRun TDemo.gnu .little NDemo.env TDemo.srv false 2000 9 [NDemo.a, NDemo.s] false TDemo.good
      (toBE 4 3 ++ optRequest 5 []) (optRequest 7 (infoData NDemo.s.name []))).1 = .serving ∧
    (srvTlsRun TDemo.gnu .little NDemo.env TDemo.srv false 2001 9 [NDemo.a, NDemo.s] false TDemo.good
      (toBE 4 3 ++ optRequest 5 []) (optRequest 7 (infoData NDemo.s.name []))).1 = .closed ∧
    (srvTlsRun TDemo.gnu .little NDemo.env TDemo.srv false 1500 9 [NDemo.a, NDemo.s] false TDemo.bare
      (toBE 4 3 ++ optRequest 5 []) (optRequest 7 (infoData NDemo.s.name []))).1 = .closed ∧
    ¬ Vouched TDemo.gnu (ascii "ca.pem") (ValidAt TDemo.gnu 1500) TDemo.bare :=
  ⟨by decide +kernel, by decide +kernel, by decide +kernel, by decide +kernel, by rintro ⟨-, -, leaf, rest, h, -⟩; cases h⟩

/-- **C93 does not hold**: nbd-server(5) says that without a file of authorities (`cacertfile`) the certificates of clients are not
checked. They are, and
fail: GnuTLS, which has no authorities to go by, vouches for nothing, so that no client is ever let into a TLS session. -/
theorem C93_false_unset (g : Gnu) (e : Endian) (env : NEnv) (gc : GenConf) (dontfork : Bool) (now : Int) (n : Nat)
    (svs : List SrvExport) (nz : Bool) (p : TlsPeer) (inp i : List Byte) (hca : gc.cacertfile = none)
    (hg : ∀ l, g.verify none l ≠ some 0) (hcall : p.chain ≠ [] ∨ g.callsWithout = true) :
    (srvTlsRun g e env gc dontfork now n svs nz p inp i).2.tls = false := by
  have hns : srvSecured g gc now p = false := by
    unfold srvSecured
    rw [hca]
    split
    · rfl
    · split
      · rfl
      · split
        · rfl
        · split
          · rfl
          · cases hh : handshake g (some (verifyCert g none now)) p with
            | false => rfl
            | true =>
              have := handshake_called hcall hh
              unfold verifyCert at this
              rcases hv : g.verify none p.chain with _ | st
              · rw [hv] at this; cases this
              · rw [hv] at this
                dsimp only at this
                rw [if_pos (.inl (by rintro rfl; exact hg _ hv))] at this
                cases this
  unfold srvTlsRun
  rw [hns]
  exact (session_clear e env (gc.nconf dontfork) n svs nz inp).1

/-- It is told to start TLS, and the connection is closed. -/
example : (srvTlsRun { TDemo.gnu with trustFile := fun _ => 0 } .little NDemo.env { TDemo.srv with cacertfile := none } false 1500 9
      [NDemo.a, NDemo.s] false TDemo.good (toBE 4 3 ++ optRequest 5 []) (optRequest 7 (infoData NDemo.s.name []))).1 = .closed ∧
    (srvTlsRun { TDemo.gnu with trustFile := fun _ => 0 } .little NDemo.env { TDemo.srv with cacertfile := none } false 1500 9
      [NDemo.a, NDemo.s] false TDemo.good (toBE 4 3 ++ optRequest 5 []) (optRequest 7 (infoData NDemo.s.name []))).2.plainOut =
      greeting ++ optReply 5 1 [] := by decide +kernel

/-- **C93 does not hold**: nbd-server(5) says that if `certfile` is not set, the certificate is read from the key file. It is not: nobody is
let into a TLS session, even if the key file has the certificate. -/
theorem C93_false_certfile :
    ∃ (g : Gnu) (gc : GenConf), gc.certfile = none ∧ gc.keyfile = some (ascii "both.pem") ∧ 0 ≤ g.keyFile gc.keyfile (ascii "both.pem") ∧
      Vouched g (ascii "ca.pem") (ValidAt g 1500) TDemo.good ∧ gc.cacertfile = some (ascii "ca.pem") ∧ 0 ≤ g.trustFile gc.cacertfile ∧
      (srvTlsRun g .little NDemo.env gc false 1500 9 [NDemo.a, NDemo.s] false TDemo.good (toBE 4 3 ++ optRequest 5 [])
        (optRequest 7 (infoData NDemo.s.name []))).1 = .closed ∧
      (srvTlsRun g .little NDemo.env { gc with certfile := gc.keyfile } false 1500 9 [NDemo.a, NDemo.s] false TDemo.good
        (toBE 4 3 ++ optRequest 5 []) (optRequest 7 (infoData NDemo.s.name []))).1 = .serving :=
  ⟨{ TDemo.gnu with keyFile := fun c _ => if c = some (ascii "both.pem") then 0 else -64 },
    { keyfile := some (ascii "both.pem"), cacertfile := some (ascii "ca.pem") }, rfl, rfl, by decide +kernel,
    ⟨rfl, by decide +kernel, [1], [], rfl, rfl, by decide, by decide⟩, rfl, by decide +kernel, by decide +kernel, by decide +kernel⟩

/-- nbd-client does read it there. -/
example : ownFiles (some (ascii "both.pem")) none = some (ascii "both.pem", ascii "both.pem") := rfl

end Props
end Nbd
