import Verif.Props.CliSafe
import Verif.Props.CliMain
/-!
# nbd-client with the device table

What `main` of nbd-client does when it is given a device to look up in nbdtab: C46, C58, C78, C79, C82 of the whole program.
-/

set_option autoImplicit false

namespace Nbd

namespace Spec

/-- The command line gives one word, which looks like a device. -/
def Looked (opts : List CliOpt) (h : List Byte) : Prop :=
  cliWords opts = [h] ∧ (ascii "nbd" <+: h ∨ ascii "/dev/nbd" <+: h) ∧ .list ∉ opts

/-- The entry asks for TLS. -/
def TabEntry.AsksTls (e : TabEntry) : Prop :=
  .flag (ascii "tls") ∈ e.opts ∨ ∃ v, .prop (ascii "certfile") v ∈ e.opts ∨ .prop (ascii "keyfile") v ∈ e.opts ∨
    .prop (ascii "cacertfile") v ∈ e.opts ∨ .prop (ascii "tlshostname") v ∈ e.opts

/-- The number `x` is what the entry gives for `key`; if it gives none, what the command line asks for if it counts, and else `dflt`. -/
def Chosen (key : List Byte) (f : CliOpt → Option (List Byte)) (opts : List CliOpt) (counts : Prop) (e : TabEntry) (dflt x : Nat) : Prop :=
  (∀ v, lastProp key e.opts = some v → Decimal v x ∧ x < 2 ^ 31) ∧
  (lastProp key e.opts = none → (counts → Asked f opts dflt x) ∧ (¬ counts → x = dflt))

end Spec

open Spec

theorem looksLikeDev_true {h : List Byte} (hd : ascii "nbd" <+: h ∨ ascii "/dev/nbd" <+: h) : looksLikeDev h = true := by
  unfold looksLikeDev
  rw [Bool.or_eq_true, List.isPrefixOf_iff_prefix, List.isPrefixOf_iff_prefix]
  exact hd

/-- A client that looks its device up. -/
theorem looked_event' {nl : Bool} {opts : List CliOpt} {h : List Byte} (hL : Looked opts h) {os : CliOs} {table : Option (List Byte)}
    {n : Nat} {e : CliEv} (he : e ∈ (cliMain nl os table n opts).1) (hp : ∀ x, e ≠ .print x) (ha : ¬ Aside e ∨ ∀ x, .disconnect x ∉ opts) :
    ∃ st0 c st, cliLoop nl opts (cliStart nl) = .go st0 ∧ getFromConfig { st0.cl with dev := h } table = some c ∧
      cliSettle { st0 with cl := c, dev := some c.dev } = .val st ∧ st.Allows e ∧ cliMain nl os table n opts = cliConnect os n st [] := by
  obtain ⟨hw, hdev, hnl⟩ := hL
  rcases cliMain_cases nl os table n opts with ⟨r, h1, -⟩ | ⟨r, h1, -⟩ | ⟨d, -, h1⟩ | ⟨st, hl, hdd, h1⟩ | ⟨st0, st, hl, hd, hr, h1⟩
  · rw [h1] at he; cases he
  · rw [h1] at he; cases he
  · rw [h1] at he
    unfold checkConn at he
    split at he
    · cases he
    · cases he
    · cases he
    · simp only [List.nil_append, List.mem_singleton] at he
      exact absurd he (hp _)
  · rw [h1] at he
    rcases ha with ha | ha
    · exact absurd (cliDisconnect_aside os _ _ e he) ha
    · exfalso
      have := cliLoop_flag nl (fun s => s.disc) CliOpt.isDisc (step_disc nl) opts _ _ hl
      rw [hdd, show (cliStart nl).disc = false from rfl, Bool.or_false] at this
      obtain ⟨o, ho, hi⟩ := List.any_eq_true.mp this.symm
      cases o <;> first | (cases hi; done) | exact ha _ ho
  · have hhost := cliLoop_start_host nl opts st0 hl
    have hlist : st0.list = true ↔ .list ∈ opts := cliLoop_mem nl (fun s => s.list) .list (step_list nl) opts rfl st0 hl
    have hnd : ∀ o ∈ opts, o.isDisc = false := by
      have := cliLoop_flag nl (fun s => s.disc) CliOpt.isDisc (step_disc nl) opts _ _ hl
      rw [hd] at this
      have h2 : opts.any CliOpt.isDisc = false := by
        cases hx : opts.any CliOpt.isDisc with
        | false => rfl
        | true => rw [hx] at this; cases this
      simpa using h2
    have hdv := cliLoop_start_dev nl opts hnd hnl st0 hl
    rw [hw] at hhost hdv
    have hls : st0.list = false := by
      cases hx : st0.list with
      | false => rfl
      | true => exact absurd (hlist.mp hx) hnl
    unfold cliReady at hr
    rw [show st0.cl.hostn = some h from hhost] at hr
    dsimp only at hr
    rw [if_pos (by rw [hdv, hls]; simp [deviceOf]), if_pos (looksLikeDev_true hdev)] at hr
    cases hc : getFromConfig { st0.cl with dev := h } table with
    | none => rw [hc] at hr; cases hr
    | some c =>
      rw [hc] at hr
      rw [h1] at he
      obtain ⟨m, h2, h3⟩ := cliConnect_grows os n st []
      rw [List.nil_append] at h2
      rw [h2] at he
      exact ⟨st0, c, st, hl, hc, hr, h3 e he, h1⟩

/-- Where the settings of such a client come from. -/
theorem looked_ready {nl : Bool} {opts : List CliOpt} {h : List Byte} (hL : Looked opts h) {table : Option (List Byte)} {st0 : CliState}
    (hl : cliLoop nl opts (cliStart nl) = .go st0) (hd : st0.disc = false) (hr : ∀ s, cliReady table st0 ≠ .exit s) :
    ∃ c, getFromConfig { st0.cl with dev := h } table = some c ∧ cliReady table st0 = cliSettle { st0 with cl := c, dev := some c.dev } := by
  obtain ⟨hw, hdev, hnl⟩ := hL
  have hhost := cliLoop_start_host nl opts st0 hl
  have hlist : st0.list = true ↔ .list ∈ opts := cliLoop_mem nl (fun s => s.list) .list (step_list nl) opts rfl st0 hl
  have hnd : ∀ o ∈ opts, o.isDisc = false := by
    have := cliLoop_flag nl (fun s => s.disc) CliOpt.isDisc (step_disc nl) opts _ _ hl
    rw [hd] at this
    have h2 : opts.any CliOpt.isDisc = false := by
      cases hx : opts.any CliOpt.isDisc with
      | false => rfl
      | true => rw [hx] at this; cases this
    simpa using h2
  have hdv := cliLoop_start_dev nl opts hnd hnl st0 hl
  rw [hw] at hhost hdv
  have hls : st0.list = false := by
    cases hx : st0.list with
    | false => rfl
    | true => exact absurd (hlist.mp hx) hnl
  unfold cliReady at hr ⊢
  rw [show st0.cl.hostn = some h from hhost] at hr ⊢
  dsimp only at hr ⊢
  rw [if_pos (by rw [hdv, hls]; simp [deviceOf]), if_pos (looksLikeDev_true hdev)] at hr ⊢
  cases hc : getFromConfig { st0.cl with dev := h } table with
  | none => rw [hc] at hr; exact absurd rfl (hr 1)
  | some c => exact ⟨c, rfl, rfl⟩

theorem looked_event {nl : Bool} {opts : List CliOpt} {h : List Byte} (hL : Looked opts h) {os : CliOs} {table : Option (List Byte)}
    {n : Nat} {e : CliEv} (he : e ∈ (cliMain nl os table n opts).1) (ha : ¬ Aside e) :
    ∃ st0 c st, cliLoop nl opts (cliStart nl) = .go st0 ∧ getFromConfig { st0.cl with dev := h } table = some c ∧
      cliSettle { st0 with cl := c, dev := some c.dev } = .val st ∧ st.Allows e ∧ cliMain nl os table n opts = cliConnect os n st [] :=
  looked_event' hL he (by rintro x rfl; exact ha trivial) (.inl ha)

theorem lastProp_isSome (k : List Byte) (os : List TabOpt) : (lastProp k os).isSome = true ↔ ∃ v, .prop k v ∈ os := by
  unfold lastProp
  rw [List.findSome?_isSome_iff]
  constructor
  · rintro ⟨o, ho, hs⟩
    rw [List.mem_reverse] at ho
    cases o with
    | flag k' => cases hs
    | prop k' v =>
      dsimp only at hs
      split at hs
      · rename_i hk; subst hk; exact ⟨v, ho⟩
      · cases hs
  · rintro ⟨v, hv⟩
    exact ⟨.prop k v, List.mem_reverse.mpr hv, by simp⟩

/-- The settings of a client that has looked its device up. -/
structure CliState.Found (st : CliState) (nl : Bool) (opts : List CliOpt) (h : List Byte) (first : Prop) (e : TabEntry) : Prop where
  dev : st.dev = some (stripDev h)
  netlink : st.netlink = true ↔ nl = true ∧ .noNetlink ∉ opts
  host : st.cl.hostn = some e.host
  port : (first → st.cl.port = (lastProp (ascii "port") e.opts).or (some (ascii "10809"))) ∧ (¬ first → st.cl.port = lastProp (ascii "port") e.opts)
  name : st.cl.name = some e.name
  unix : st.cl.unix = true ↔ .flag (ascii "unix") ∈ e.opts ∨ first ∧ .unix ∈ opts
  tls : st.cl.tls = true ↔ TabEntry.AsksTls e ∨ first ∧ ∃ o ∈ opts, AsksTls o
  noOptgo : st.cl.noOptgo = true ↔ .flag (ascii "no_optgo") ∈ e.opts ∨ first ∧ .noOptgo ∈ opts
  list : st.list = false
  bs : (∀ v, lastProp (ascii "bs") e.opts = some v → st.cl.bs = strtolInt v) ∧ (lastProp (ascii "bs") e.opts = none → ¬ first → st.cl.bs = 512)
  timeout : (∀ v, lastProp (ascii "timeout") e.opts = some v → st.cl.timeout = strtolInt v) ∧
    (lastProp (ascii "timeout") e.opts = none → ¬ first → st.cl.timeout = 0)

theorem loop_netlink {nl : Bool} {opts : List CliOpt} {st0 : CliState} (hl : cliLoop nl opts (cliStart nl) = .go st0) :
    st0.netlink = true ↔ nl = true ∧ .noNetlink ∉ opts := by
  have := cliLoop_flag nl (fun s => !s.netlink) (fun x => decide (x = .noNetlink)) (step_netlink nl) opts _ _ hl
  rw [show (cliStart nl).netlink = nl from rfl] at this
  by_cases hm : CliOpt.noNetlink ∈ opts
  · rw [(any_decide_iff .noNetlink opts).mpr hm] at this
    simp only [Bool.true_or, Bool.not_eq_true'] at this
    simp [this, hm]
  · have ha : opts.any (fun x => decide (x = .noNetlink)) = false := by
      cases hx : opts.any (fun x => decide (x = .noNetlink)) with
      | false => rfl
      | true => exact absurd ((any_decide_iff .noNetlink opts).mp hx) hm
    rw [ha] at this
    simp only [Bool.false_or] at this
    cases hx : st0.netlink <;> cases nl <;> simp_all

theorem config_dev {start c : TabClient} {file : Option (List Byte)} (h : getFromConfig start file = some c) :
    c.dev = stripDev start.dev := by
  have hdev : ∀ (es : List TabEntry) (s : TabClient × Bool), (es.foldl tabLine s).1.dev = s.1.dev := by
    intro es
    induction es with
    | nil => intro s; rfl
    | cons e es ih =>
      intro s
      rw [List.foldl_cons, ih]
      obtain ⟨c, b⟩ := s
      unfold tabLine
      cases b with
      | true => rw [Props.foldl_found]; unfold tabCommit; split <;> rfl
      | false =>
        obtain ⟨c', hc, hs⟩   := Props.foldl_set c e.opts
        rw [hc]
        unfold tabCommit
        simp only []
        split
        · exact hs.dev
        · exact hs.dev
  unfold getFromConfig at h
  split at h
  · cases h
  simp only [] at h
  split at h
  · cases h
  split at h
  · cases h
    rw [hdev]
  · cases h

theorem wantsTls_iff (c : TabClient) : c.wantsTls = true ↔
    c.tls = true ∨ c.cert.isSome = true ∨ c.key.isSome = true ∨ c.cacert.isSome = true ∨ c.tlshostn.isSome = true := by
  unfold TabClient.wantsTls
  simp only [Bool.or_eq_true, or_assoc]

theorem found {nl : Bool} {opts : List CliOpt} {h : List Byte} (hL : Looked opts h) {st0 st : CliState} {c : TabClient}
    {pre post : List TabEntry} {e : TabEntry} (hw : ∀ x ∈ pre ++ e :: post, EntryWords x) (he : stripDev e.dev = stripDev h)
    (hpre : ∀ x ∈ pre, stripDev x.dev ≠ stripDev h) (hpost : ∀ x ∈ post, stripDev x.dev ≠ stripDev h)
    (hl : cliLoop nl opts (cliStart nl) = .go st0)
    (hc : getFromConfig { st0.cl with dev := h } (some ((pre ++ e :: post).map writeEntry).flatten) = some c)
    (hs : cliSettle { st0 with cl := c, dev := some c.dev } = .val st) : st.Found nl opts h (pre = []) e := by
  obtain ⟨c', hc', hf⟩ := Props.C46_entry_partial { st0.cl with dev := h } pre post e hw he hpre hpost
  rw [hc] at hc'
  cases hc'
  obtain ⟨s1, s2, s3, s4, s5, s6, s7, s8, s9, s10, s11, s12, s13, s14, s15, s16, s17, s18, s19, s20⟩ := cliSettle_val _ st hs
  generalize hbase : (if pre = [] then { ({ st0.cl with dev := h } : TabClient) with dev := stripDev h } else tabBlank (stripDev h) : TabClient) = base at hf
  have bdev : base.dev = stripDev h := by rw [← hbase]; split <;> rfl
  have b1 : pre = [] → base = { st0.cl with dev := stripDev h } := by intro hp; rw [← hbase, if_pos hp]
  have b2 : pre ≠ [] → base = tabBlank (stripDev h) := by intro hp; rw [← hbase, if_neg hp]
  have hlist : st0.list = true ↔ .list ∈ opts := cliLoop_mem nl (fun s => s.list) .list (step_list nl) opts rfl st0 hl
  have hunix := cliLoop_mem nl (fun s => s.cl.unix) .unix (step_unix nl) opts rfl st0 hl
  have hgo := cliLoop_mem nl (fun s => s.cl.noOptgo) .noOptgo (step_optgo nl) opts rfl st0 hl
  have hport : st0.cl.port = some (ascii "10809") := by
    have := cliLoop_last nl (fun s => s.cl.port) (fun _ => none) (step_port nl) opts _ _ hl
    rw [this]
    have : lastGiven (fun _ => (none : Option (Option (List Byte)))) opts = none := by
      unfold lastGiven
      simp
    rw [this]
    rfl
  have htls : st0.cl.wantsTls = true ↔ ∃ o ∈ opts, AsksTls o := by
    have := cliLoop_flag nl (fun s => s.cl.wantsTls) CliOpt.asksTls (step_tls nl) opts _ _ hl
    rw [this, show (cliStart nl).cl.wantsTls = false from rfl, Bool.or_false, List.any_eq_true]
    simp only [CliOpt.asksTls_iff]
  have hnet := loop_netlink hl
  refine ⟨?_, ?_, ?_, ⟨?_, ?_⟩, ?_, ?_, ?_, ?_, ?_, ⟨?_, ?_⟩, ⟨?_, ?_⟩⟩
  · rw [s4]; show some c.dev = _; rw [hf.dev, bdev]
  · rw [s5]; exact hnet
  · rw [s1]; exact hf.host
  · intro hp; rw [s2]; show c.port = _; rw [hf.port, b1 hp]; show Option.or _ st0.cl.port = _; rw [hport]
  · intro hp; rw [s2]; show c.port = _; rw [hf.port, b2 hp]; show Option.or _ none = _; simp
  · rw [s16]; show some (c.name.getD []) = _; rw [hf.name]; rfl
  · rw [s3]; show c.unix = true ↔ _; rw [hf.unix, Bool.or_eq_true, decide_eq_true_iff]
    by_cases hp : pre = []
    · rw [b1 hp]; show _ ∨ st0.cl.unix = true ↔ _; rw [hunix]; simp [hp]
    · rw [b2 hp]; simp [hp, tabBlank]
  · rw [s17]; show c.wantsTls = true ↔ _
    rw [wantsTls_iff, hf.tls, hf.cert, hf.key, hf.cacert, hf.tlshostn]
    simp only [Bool.or_eq_true, decide_eq_true_iff, Option.isSome_or, lastProp_isSome, TabEntry.AsksTls]
    by_cases hp : pre = []
    · rw [← htls, wantsTls_iff, b1 hp]
      simp only [hp, true_and]
      constructor
      · rintro ((h | h) | (⟨v, h⟩ | h) | (⟨v, h⟩ | h) | (⟨v, h⟩ | h) | (⟨v, h⟩ | h))
        · exact .inl (.inl h)
        · exact .inr (.inl h)
        · exact .inl (.inr ⟨v, .inl h⟩)
        · exact .inr (.inr (.inl h))
        · exact .inl (.inr ⟨v, .inr (.inl h)⟩)
        · exact .inr (.inr (.inr (.inl h)))
        · exact .inl (.inr ⟨v, .inr (.inr (.inl h))⟩)
        · exact .inr (.inr (.inr (.inr (.inl h))))
        · exact .inl (.inr ⟨v, .inr (.inr (.inr h))⟩)
        · exact .inr (.inr (.inr (.inr (.inr h))))
      · rintro ((h | ⟨v, h | h | h | h⟩) | h | h | h | h | h)
        · exact .inl (.inl h)
        · exact .inr (.inl (.inl ⟨v, h⟩))
        · exact .inr (.inr (.inl (.inl ⟨v, h⟩)))
        · exact .inr (.inr (.inr (.inl (.inl ⟨v, h⟩))))
        · exact .inr (.inr (.inr (.inr (.inl ⟨v, h⟩))))
        · exact .inl (.inr h)
        · exact .inr (.inl (.inr h))
        · exact .inr (.inr (.inl (.inr h)))
        · exact .inr (.inr (.inr (.inl (.inr h))))
        · exact .inr (.inr (.inr (.inr (.inr h))))
    · rw [b2 hp]
      simp only [tabBlank, Option.isSome_none, Bool.false_eq_true, or_false, hp, false_and]
      constructor
      · rintro (h | ⟨v, h⟩ | ⟨v, h⟩ | ⟨v, h⟩ | ⟨v, h⟩)
        · exact .inl h
        · exact .inr ⟨v, .inl h⟩
        · exact .inr ⟨v, .inr (.inl h)⟩
        · exact .inr ⟨v, .inr (.inr (.inl h))⟩
        · exact .inr ⟨v, .inr (.inr (.inr h))⟩
      · rintro (h | ⟨v, h | h | h | h⟩)
        · exact .inl h
        · exact .inr (.inl ⟨v, h⟩)
        · exact .inr (.inr (.inl ⟨v, h⟩))
        · exact .inr (.inr (.inr (.inl ⟨v, h⟩)))
        · exact .inr (.inr (.inr (.inr ⟨v, h⟩)))
  · rw [s15]; show c.noOptgo = true ↔ _; rw [hf.noOptgo, Bool.or_eq_true, decide_eq_true_iff]
    by_cases hp : pre = []
    · rw [b1 hp]; show _ ∨ st0.cl.noOptgo = true ↔ _; rw [hgo]; simp [hp]
    · rw [b2 hp]; simp [hp, tabBlank]
  · rw [s12]
    show st0.list = false
    cases hx : st0.list with
    | false => rfl
    | true => exact absurd (hlist.mp hx) hL.2.2
  · intro v hv; rw [s6]; show c.bs = _; rw [hf.bs, hv]; rfl
  · intro hv hp; rw [s6]; show c.bs = _; rw [hf.bs, hv, b2 hp]; rfl
  · intro v hv; rw [s7]; show c.timeout = _; rw [hf.timeout, hv]; rfl
  · intro hv hp; rw [s7]; show c.timeout = _; rw [hf.timeout, hv, b2 hp]; rfl

/-- The device of -d, if no other is named. -/
theorem loop_disc {nl : Bool} {dev : List Byte} (opts : List CliOpt) (hl : .list ∉ opts) (hd : ∀ x, .disconnect x ∈ opts → x = dev) :
    ∀ st st', cliLoop nl opts st = .go st' → st.nonspecial + (cliWords opts).length ≤ 1 →
      (st'.dev = st.dev ∨ st'.dev = some dev) ∧ ((∃ x, .disconnect x ∈ opts) → st'.dev = some dev) := by
  induction opts with
  | nil => intro st st' h _; cases h; exact ⟨.inl rfl, by rintro ⟨x, hx⟩; cases hx⟩
  | cons o os ih =>
    intro st st' h hn
    unfold cliLoop at h
    cases hs : cliStep nl st o with
    | exit k => rw [hs] at h; cases h
    | check d => rw [hs] at h; cases h
    | go st1 =>
      rw [hs] at h
      have hstep : st1.nonspecial + (cliWords os).length ≤ st.nonspecial + (cliWords (o :: os)).length ∧
          ((∀ x, o ≠ .disconnect x) → st1.dev = st.dev) ∧ (∀ x, o = .disconnect x → st1.dev = some x) := by
        have hol : o ≠ .list := by rintro rfl; exact hl (by simp)
        cases o with
        | arg v =>
          simp only [cliStep] at hs
          by_cases he : (61 : Byte) ∈ v
          · have hwd : cliWords (.arg v :: os) = cliWords os := by simp [cliWords, he]
            rw [if_pos he] at hs
            rw [hwd]
            simp only [cliBlockSize, cliTimeout] at hs
            repeat' split at hs
            all_goals first
              | (cases hs; done)
              | (cases hs; exact ⟨Nat.le_refl _, fun _ => rfl, by intro x hx; cases hx⟩)
          · have hwd : cliWords (.arg v :: os) = v :: cliWords os := by simp [cliWords, he]
            rw [if_neg he] at hs
            rw [hwd, List.length_cons] at hn ⊢
            have h0 : st.nonspecial = 0 := by omega
            rw [h0] at hs
            cases hs
            refine ⟨?_, fun _ => rfl, by intro x hx; cases hx⟩
            dsimp only
            omega
        | list => exact absurd rfl hol
        | disconnect v =>
          cases hs
          exact ⟨Nat.le_refl _, fun h => absurd rfl (h v), by intro x hx; cases hx; rfl⟩
        | _ =>
          simp only [cliStep, cliBlockSize, cliTimeout] at hs
          repeat' split at hs
          all_goals first
            | (cases hs; done)
            | (cases hs; exact ⟨Nat.le_refl _, fun _ => rfl, by intro x hx; cases hx⟩)
      obtain ⟨h1, h2, h3⟩ := hstep
      obtain ⟨k1, k2⟩ := ih (fun hx => hl (by simp [hx])) (fun x hx => hd x (by simp [hx])) st1 st' h (by omega)
      by_cases ho : ∃ x, o = .disconnect x
      · obtain ⟨x, hx⟩ := ho
        have hxd : x = dev := hd x (by simp [hx])
        have : st1.dev = some dev := by rw [h3 x hx, hxd]
        have hst : st'.dev = some dev := by rcases k1 with k1 | k1 <;> simp [k1, this]
        exact ⟨.inr hst, fun _ => hst⟩
      · rw [h2 (fun x hx => ho ⟨x, hx⟩)] at k1
        refine ⟨k1, ?_⟩
        rintro ⟨x, hx⟩
        rcases List.mem_cons.mp hx with hx | hx
        · exact absurd ⟨x, hx.symm⟩ ho
        · exact k2 ⟨x, hx⟩

namespace Props

/-- C81 (-d), with whatever other options: if one device is named for -d, once or more often, and no other device, and neither -l nor -c is given, then the client
refuses its options, or does what it does when it is given only -d and that device, and -nonetlink if that is given. -/
theorem C81_disconnect_partial {nl : Bool} {os : CliOs} {table : Option (List Byte)} {n : Nat} {opts : List CliOpt} {dev : List Byte}
    (hd : .disconnect dev ∈ opts) (hall : ∀ x, .disconnect x ∈ opts → x = dev) (hl : .list ∉ opts) (hc : ∀ x, .check x ∉ opts)
    (hw : (cliWords opts).length ≤ 1) :
    (∃ s, cliMain nl os table n opts = ([], .exit s)) ∨
    cliMain nl os table n opts =
      cliMain nl os table n (if .noNetlink ∈ opts then [.noNetlink, .disconnect dev] else [.disconnect dev]) := by
  have hdisc : ∀ st, cliLoop nl opts (cliStart nl) = .go st → st.disc = true := by
    intro st h
    have := cliLoop_flag nl (fun s => s.disc) CliOpt.isDisc (step_disc nl) opts _ _ h
    rw [this, Bool.or_eq_true, List.any_eq_true]
    exact .inl ⟨_, hd, rfl⟩
  have hck : ∀ opts, (∀ d, .check d ∉ opts) → ∀ st d, cliLoop nl opts st ≠ .check d := by
    intro opts
    induction opts with
    | nil => intro _ st d hh; cases hh
    | cons o os ih =>
      intro a st d hh
      unfold cliLoop at hh
      cases hs : cliStep nl st o with
      | go st1 => rw [hs] at hh; exact ih (fun d hm => a d (by simp [hm])) st1 d hh
      | exit k => rw [hs] at hh; cases hh
      | check d' =>
        cases o <;> (simp only [cliStep, cliBlockSize, cliTimeout] at hs; try (repeat' split at hs) <;> first | (cases hs; done) | skip)
        rename_i v
        exact a v (by simp)
  have hno : ∀ opts, .noNetlink ∈ opts → ∀ st st', cliLoop false opts st ≠ .go st' := by
    intro opts
    induction opts with
    | nil => intro h; cases h
    | cons o os ih =>
      intro a st st' hh
      unfold cliLoop at hh
      cases hs : cliStep false st o with
      | exit k => rw [hs] at hh; cases hh
      | check d' => rw [hs] at hh; cases hh
      | go st1 =>
        rw [hs] at hh
        rcases List.mem_cons.mp a with h | h
        · subst h; cases hs
        · exact ih h _ _ hh
  rcases cliMain_cases nl os table n opts with ⟨r, g1, s, g2, g3⟩ | ⟨r, g1, st, g2, g3, g4⟩ | ⟨d, g1, -⟩ | ⟨st, g1, g2, g3⟩ |
    ⟨st0, st, g1, g2, hr, -⟩
  · exact .inl ⟨s, by rw [g1, g3]⟩
  · rw [hdisc _ g2] at g3; cases g3
  · exact absurd g1 (hck opts hc _ _)
  · refine .inr ?_
    have hdev : st.dev = some dev := (loop_disc opts hl hall _ _ g1 (by show 0 + _ ≤ 1; omega)).2 ⟨dev, hd⟩
    have hnet := loop_netlink g1
    rw [g3, hdev]
    by_cases hn : CliOpt.noNetlink ∈ opts
    · have : st.netlink = false := by
        cases hx : st.netlink with
        | false => rfl
        | true => exact absurd hn (hnet.mp hx).2
      rw [if_pos hn, this]
      cases nl with
      | true => rfl
      | false => exact absurd g1 (hno opts hn _ _)
    · rw [if_neg hn]
      have : st.netlink = nl := by
        cases hx : st.netlink <;> cases nl <;> simp_all
      rw [this]
      cases nl <;> rfl
  · rw [hdisc _ g1] at g2; cases g2

/-- C81 is false: -d disconnects another device than the one it is given if more words follow. -/
theorem C81_false : ¬ ∀ (nl : Bool) (os : CliOs) (table : Option (List Byte)) (n : Nat) (opts : List CliOpt) (ds : List Byte) (x y : Nat),
    Decimal ds x → .disconnect (ascii "/dev/nbd" ++ ds) ∈ opts → (∀ d, .disconnect d ∈ opts → d = ascii "/dev/nbd" ++ ds) →
    .netlinkDisc y ∈ (cliMain nl os table n opts).1 → y = x := by
  intro h
  have := h true okOs none 0 [.disconnect (ascii "/dev/nbd0"), .arg (ascii "server"), .arg (ascii "/dev/nbd1")] (ascii "0") 0 1
    ⟨by decide +kernel, by decide +kernel, by decide +kernel⟩ (by decide +kernel) (by intro d hd; simp only [List.mem_cons, List.not_mem_nil, or_false, CliOpt.disconnect.injEq, reduceCtorEq] at hd; exact hd) (by decide +kernel)
  cases this

/-- **The hypotheses**, and what happens. -/
example : cliMain true okOs none 0 [.timeout (ascii "3"), .disconnect (ascii "/dev/nbd0"), .arg (ascii "server"), .noNetlink] =
    ([.openDev (ascii "/dev/nbd0"), .ioctlDisc (ascii "/dev/nbd0"), .clearSock], .exit 0) := by decide +kernel

/-- C78 (part), C46 and C82, for a client that is given a device to look up: if the table is well-formed and has one entry for the device, then whatever the options,
the world and the number of reconnections, the client looks up and connects to the host of that entry only, at the entry's port, negotiates for the entry's export, and
with TLS exactly if the entry asks for it; options of the command line count only if the entry is the first of the table (C57_false), and so does the default
port (C46_false_port). -/
theorem C78_table_partial {nl : Bool} {os : CliOs} {n : Nat} {opts : List CliOpt} {h : List Byte} (hL : Looked opts h)
    {pre post : List TabEntry} {e : TabEntry} (hw : ∀ x ∈ pre ++ e :: post, EntryWords x) (he : stripDev e.dev = stripDev h)
    (hpre : ∀ x ∈ pre, stripDev x.dev ≠ stripDev h) (hpost : ∀ x ∈ post, stripDev x.dev ≠ stripDev h)
    (log : List CliEv) (hlog : log = (cliMain nl os (some ((pre ++ e :: post).map writeEntry).flatten) n opts).1) :
    (∀ h' p, .lookup h' p ∈ log → h' = e.host ∧
      p = (lastProp (ascii "port") e.opts).or (if pre = [] then some (ascii "10809") else none) ∧
      .flag (ascii "unix") ∉ e.opts ∧ (pre = [] → .unix ∉ opts)) ∧
    (∀ path ok, .connectUnix path ok ∈ log → path = e.host ∧ (.flag (ascii "unix") ∈ e.opts ∨ pre = [] ∧ .unix ∈ opts)) ∧
    (∀ name tls g l, .nego name tls g l ∈ log → name = e.name ∧ l = false ∧
      (tls = true ↔ TabEntry.AsksTls e ∨ pre = [] ∧ ∃ o ∈ opts, AsksTls o) ∧
      (g = true ↔ .flag (ascii "no_optgo") ∈ e.opts ∨ pre = [] ∧ .noOptgo ∈ opts)) ∧
    (∀ d bs, .device d bs ∈ log → (∀ v, lastProp (ascii "bs") e.opts = some v → bs = strtolInt v) ∧
      (lastProp (ascii "bs") e.opts = none → pre ≠ [] → bs = 512)) ∧
    (∀ t, .timeout t ∈ log → (∀ v, lastProp (ascii "timeout") e.opts = some v → t = strtolInt v)) := by
  have key : ∀ ev, ev ∈ log → ¬ Aside ev → ∃ st : CliState, st.Found nl opts h (pre = []) e ∧ st.Allows ev := by
    intro ev hev ha
    rw [hlog] at hev
    obtain ⟨st0, c, st, h1, h2, h3, h4, -⟩ := looked_event hL hev ha
    exact ⟨st, found hL hw he hpre hpost h1 h2 h3, h4⟩
  refine ⟨?_, ?_, ?_, ?_, ?_⟩
  · intro h' p hm
    obtain ⟨st, hf, h1, h2, h3⟩ := key _ hm id
    rw [hf.host] at h2
    have hu : ¬ (.flag (ascii "unix") ∈ e.opts ∨ pre = [] ∧ .unix ∈ opts) := by
      intro hx
      rw [hf.unix.mpr hx] at h1
      cases h1
    refine ⟨h2, ?_, fun hx => hu (.inl hx), fun hp hx => hu (.inr ⟨hp, hx⟩)⟩
    rw [h3]
    by_cases hp : pre = []
    · rw [if_pos hp]; exact hf.port.1 hp
    · rw [if_neg hp, hf.port.2 hp]; simp
  · intro path ok hm
    obtain ⟨st, hf, h1, h2⟩ := key _ hm id
    rw [hf.host] at h2
    exact ⟨h2, hf.unix.mp h1⟩
  · intro name tls g l hm
    obtain ⟨st, hf, h1, h2, h3, h4⟩ := key _ hm id
    rw [hf.name] at h1
    subst h2 h3 h4
    exact ⟨h1, hf.list, hf.tls, hf.noOptgo⟩
  · intro d bs hm
    obtain ⟨st, hf, h1, h2⟩ := key _ hm id
    subst h2
    exact hf.bs
  · intro t hm
    obtain ⟨st, hf, h1, h2⟩ := key _ hm id
    subst h2
    exact hf.timeout.1

/-- C58 is false of the whole program: given a device to look up, whatever the table, the options, the server and the kernel, nbd-client never configures a
device over netlink, which is the default; having connected to the server, it fails. -/
theorem C58_false_netlink {nl : Bool} {os : CliOs} {table : Option (List Byte)} {n : Nat} {opts : List CliOpt} {h : List Byte} (hL : Looked opts h) :
    (∀ i k size bs fl t id, .netlink i k size bs fl t id ∉ (cliMain nl os table n opts).1) ∧
    (nl = true → .noNetlink ∉ opts → (∀ log, os.nego log ≠ .exits 0) → ∀ a p, .lookup a p ∈ (cliMain nl os table n opts).1 →
      (cliMain nl os table n opts).2 ≠ .exit 0) := by
  have key : ∀ (st0 : CliState) c, getFromConfig { st0.cl with dev := h } table = some c → netlinkDevOk c.dev = false := by
    intro st0 c hc
    refine C58_false _ _ c ?_ hc
    intro d hd
    rcases hL.2.1 with ⟨t, ht⟩ | ⟨t, ht⟩
    · rw [← ht] at hd
      cases hd
    · rw [← ht] at hd
      cases hd
  constructor
  · intro i k size bs fl t id hm
    obtain ⟨st0, c, st, h1, h2, h3, h4, h5⟩ := looked_event hL hm _root_.id
    have hdev : st.dev = some c.dev := (cliSettle_val _ st h3).2.2.2.1
    obtain ⟨hnet, -⟩ := h4
    rw [h5] at hm
    rcases cliConnect_netlink os n st hnet with ⟨_, h2⟩ | ⟨log, r, h0, h2, h3, h4, h5⟩ | ⟨log, cur, h0, h2', h3⟩
    · rw [h2] at hm; cases hm
    · obtain ⟨m, g1, g2⟩ := connectAll_netlink_any os st hnet st.cl.nconn.toNat true (0, 0) []
      rw [h2, List.nil_append] at g1
      dsimp only at g1
      rw [h4, g1] at hm
      rcases g2 _ hm with hq | hq
      · exact hq
      · cases hq
    · rw [h3] at hm
      unfold netlinkMain at hm
      rw [hdev] at hm
      dsimp only at hm
      unfold netlinkIndex at hm
      rw [key _ _ h2] at hm
      rw [if_neg (by decide)] at hm
      dsimp only at hm
      obtain ⟨m, g1, g2⟩ := connectAll_netlink_any os st hnet st.cl.nconn.toNat true (0, 0) []
      rw [h2', List.nil_append] at g1
      dsimp only at g1
      rw [g1] at hm
      rcases g2 _ hm with hq | hq
      · exact hq
      · cases hq
  · intro hn hnn hnego a p hm
    obtain ⟨st0, c, st, h1, h2, h3, h4, h5⟩ := looked_event hL hm _root_.id
    have hdev : st.dev = some c.dev := (cliSettle_val _ st h3).2.2.2.1
    have hnet : st.netlink = true := by
      rw [(cliSettle_val _ st h3).2.2.2.2.1]
      exact (loop_netlink h1).mpr ⟨hn, hnn⟩
    have hlist : st.list = false := by
      rw [(cliSettle_val _ st h3).2.2.2.2.2.2.2.2.2.2.2.1]
      cases hli : st0.list with
      | false => rfl
      | true => exact absurd ((cliLoop_mem nl (fun s => s.list) .list (step_list nl) opts rfl st0 h1).mp hli) hL.2.2
    rw [h5]
    rcases cliConnect_netlink os n st hnet with ⟨_, h2⟩ | ⟨log, r, h0, h2, h3, h4, h5⟩ | ⟨log, cur, h0, h2', h3⟩
    · rw [h2]; intro hx; cases hx
    · intro hx
      have := h5 _ hx
      subst this
      exact connectAll_netlink_exit os st hnet hlist hnego _ _ _ _ (by rw [h2])
    · rw [h3]
      unfold netlinkMain
      rw [hdev]
      dsimp only
      unfold netlinkIndex
      rw [key _ _ h2]
      intro hx
      cases hx

/-- C58 is false without netlink, too: the device that is opened is not the one named, unless the client is run in the directory /dev. -/
theorem C58_false_relative {nl : Bool} {os : CliOs} {table : Option (List Byte)} {n : Nat} {opts : List CliOpt} {d : List Byte}
    (hL : Looked opts (ascii "/dev/" ++ d)) (hd : ∀ x, .disconnect x ∉ opts) :
    ∀ x, .openDev x ∈ (cliMain nl os table n opts).1 → x = d := by
  intro x hx
  obtain ⟨st0, c, st, h1, h2, h3, ⟨-, h4⟩, -⟩ := looked_event' hL hx (by intro y h; cases h) (.inr hd)
  rw [(cliSettle_val _ st h3).2.2.2.1] at h4
  rw [h4]
  show c.dev = d
  rw [config_dev h2]
  show stripDev (ascii "/dev/" ++ d) = d
  unfold stripDev
  rw [if_pos ⟨d, rfl⟩, List.drop_append]
  rfl

/-- The numbers and the remaining settings of a client that has looked its device up. -/
structure FoundMore (st : CliState) (opts : List CliOpt) (first : Prop) (e : TabEntry) : Prop where
  bs : ∀ x, Chosen (ascii "bs") bsOf opts first e 512 x → st.cl.bs = x
  timeout : ∀ x, Chosen (ascii "timeout") timeoutOf opts first e 0 x → st.cl.timeout = x
  nconn : ∀ x, Chosen (ascii "conns") connectionsOf opts first e 1 x → st.cl.nconn = x
  preinit : st.cl.preinit = true ↔ .flag (ascii "preinit") ∈ e.opts ∨ first ∧ .preinit ∈ opts
  ro : st.cl.forceRo = true ↔ first ∧ .readonly ∈ opts
  size : (first → st.cl.forceSize = ((lastGiven forceSizeOf opts).map strtoull0).getD 0) ∧ (¬ first → st.cl.forceSize = 0)

theorem chosen_eq {key : List Byte} {f : CliOpt → Option (List Byte)} {opts : List CliOpt} {first : Prop} [Decidable first] {e : TabEntry}
    {dflt x : Nat} {base : Int} (hc : Chosen key f opts first e dflt x)
    (h1 : first → base = ((lastGiven f opts).map (fun v => wrapInt (strtol0 v))).getD (dflt : Int)) (h2 : ¬ first → base = (dflt : Int)) :
    ((lastProp key e.opts).map strtolInt).getD base = x := by
  cases hk : lastProp key e.opts with
  | some v =>
    obtain ⟨g1, g2⟩ := hc.1 v hk
    exact strtolInt_decimal g1 g2
  | none =>
    obtain ⟨g1, g2⟩ := hc.2 hk
    show base = x
    by_cases hf : first
    · rw [h1 hf]; exact asked_wrap (g1 hf)
    · rw [h2 hf, g2 hf]

theorem found_more {nl : Bool} {opts : List CliOpt} {h : List Byte} {st0 st : CliState} {c : TabClient}
    {pre post : List TabEntry} {e : TabEntry} (hw : ∀ x ∈ pre ++ e :: post, EntryWords x) (he : stripDev e.dev = stripDev h)
    (hpre : ∀ x ∈ pre, stripDev x.dev ≠ stripDev h) (hpost : ∀ x ∈ post, stripDev x.dev ≠ stripDev h)
    (hl : cliLoop nl opts (cliStart nl) = .go st0)
    (hc : getFromConfig { st0.cl with dev := h } (some ((pre ++ e :: post).map writeEntry).flatten) = some c)
    (hs : cliSettle { st0 with cl := c, dev := some c.dev } = .val st) : FoundMore st opts (pre = []) e := by
  obtain ⟨c', hc', hf⟩ := Props.C46_entry_partial { st0.cl with dev := h } pre post e hw he hpre hpost
  rw [hc] at hc'
  cases hc'
  obtain ⟨s1, s2, s3, s4, s5, s6, s7, s8, s9, s10, s11, s12, s13, s14, s15, s16, s17, s18, s19, s20⟩ := cliSettle_val _ st hs
  generalize hbase : (if pre = [] then { ({ st0.cl with dev := h } : TabClient) with dev := stripDev h } else tabBlank (stripDev h) : TabClient) = base at hf
  have b1 : pre = [] → base = { st0.cl with dev := stripDev h } := by intro hp; rw [← hbase, if_pos hp]
  have b2 : pre ≠ [] → base = tabBlank (stripDev h) := by intro hp; rw [← hbase, if_neg hp]
  refine ⟨?_, ?_, ?_, ?_, ?_, ⟨?_, ?_⟩⟩
  · intro x hx
    rw [s6]; show c.bs = _; rw [hf.bs]
    refine chosen_eq hx ?_ (fun hp => by rw [b2 hp]; rfl)
    intro hp
    rw [b1 hp]
    have := cliLoop_last nl (fun s => s.cl.bs) _ (step_bs nl) opts _ _ hl
    rw [lastGiven_map] at this
    exact this
  · intro x hx
    rw [s7]; show c.timeout = _; rw [hf.timeout]
    refine chosen_eq hx ?_ (fun hp => by rw [b2 hp]; rfl)
    intro hp
    rw [b1 hp]
    have := cliLoop_last nl (fun s => s.cl.timeout) _ (step_timeout nl) opts _ _ hl
    rw [lastGiven_map] at this
    exact this
  · intro x hx
    rw [s8]; show c.nconn = _; rw [hf.nconn]
    refine chosen_eq hx ?_ (fun hp => by rw [b2 hp]; rfl)
    intro hp
    rw [b1 hp]
    have := cliLoop_last nl (fun s => s.cl.nconn) _ (step_connections nl) opts _ _ hl
    rw [lastGiven_map] at this
    exact this
  · rw [s18]; show c.preinit = true ↔ _; rw [hf.preinit, Bool.or_eq_true, decide_eq_true_iff]
    by_cases hp : pre = []
    · rw [b1 hp]; show _ ∨ st0.cl.preinit = true ↔ _
      rw [cliLoop_mem nl (fun s => s.cl.preinit) .preinit (step_preinit nl) opts rfl st0 hl]; simp [hp]
    · rw [b2 hp]; simp [hp, tabBlank]
  · rw [s13]; show c.forceRo = true ↔ _; rw [hf.forceRo]
    by_cases hp : pre = []
    · rw [b1 hp]; show st0.cl.forceRo = true ↔ _
      rw [cliLoop_mem nl (fun s => s.cl.forceRo) .readonly (step_ro nl) opts rfl st0 hl]; simp [hp]
    · rw [b2 hp]; simp [hp, tabBlank]
  · intro hp
    rw [s14]; show c.forceSize = _; rw [hf.forceSize, b1 hp]
    have := cliLoop_last nl (fun s => s.cl.forceSize) _ (step_size nl) opts _ _ hl
    rw [lastGiven_map] at this
    exact this
  · intro hp
    rw [s14]; show c.forceSize = _; rw [hf.forceSize, b2 hp]; rfl

/-- The block size and the number of connections, before they are checked. -/
theorem found_numbers {nl : Bool} {opts : List CliOpt} {h : List Byte} {st0 : CliState} {c : TabClient}
    {pre post : List TabEntry} {e : TabEntry} (hw : ∀ x ∈ pre ++ e :: post, EntryWords x) (he : stripDev e.dev = stripDev h)
    (hpre : ∀ x ∈ pre, stripDev x.dev ≠ stripDev h) (hpost : ∀ x ∈ post, stripDev x.dev ≠ stripDev h)
    (hl : cliLoop nl opts (cliStart nl) = .go st0)
    (hc : getFromConfig { st0.cl with dev := h } (some ((pre ++ e :: post).map writeEntry).flatten) = some c) :
    (∀ x, Chosen (ascii "bs") bsOf opts (pre = []) e 512 x → c.bs = x) ∧
    (∀ x, Chosen (ascii "conns") connectionsOf opts (pre = []) e 1 x → c.nconn = x) := by
  obtain ⟨c', hc', hf⟩ := Props.C46_entry_partial { st0.cl with dev := h } pre post e hw he hpre hpost
  rw [hc] at hc'
  cases hc'
  generalize hbase : (if pre = [] then { ({ st0.cl with dev := h } : TabClient) with dev := stripDev h } else tabBlank (stripDev h) : TabClient) = base at hf
  have b1 : pre = [] → base = { st0.cl with dev := stripDev h } := by intro hp; rw [← hbase, if_pos hp]
  have b2 : pre ≠ [] → base = tabBlank (stripDev h) := by intro hp; rw [← hbase, if_neg hp]
  refine ⟨?_, ?_⟩
  · intro x hx
    rw [hf.bs]
    refine chosen_eq hx ?_ (fun hp => by rw [b2 hp]; rfl)
    intro hp
    rw [b1 hp]
    have := cliLoop_last nl (fun s => s.cl.bs) _ (step_bs nl) opts _ _ hl
    rw [lastGiven_map] at this
    exact this
  · intro x hx
    rw [hf.nconn]
    refine chosen_eq hx ?_ (fun hp => by rw [b2 hp]; rfl)
    intro hp
    rw [b1 hp]
    have := cliLoop_last nl (fun s => s.cl.nconn) _ (step_connections nl) opts _ _ hl
    rw [lastGiven_map] at this
    exact this

/-- C91 (part), for a client that is given a device to look up: if the table is well-formed and has one entry for the device, and the block size and the
number of connections are not 0, the client does not crash, whatever the other options, the server and the kernel do; and it tells the kernel that block
size and no other. -/
theorem C91_table_partial {nl : Bool} {os : CliOs} {n : Nat} {opts : List CliOpt} {h : List Byte} (hL : Looked opts h)
    {pre post : List TabEntry} {e : TabEntry} (hw : ∀ x ∈ pre ++ e :: post, EntryWords x) (he : stripDev e.dev = stripDev h)
    (hpre : ∀ x ∈ pre, stripDev x.dev ≠ stripDev h) (hpost : ∀ x ∈ post, stripDev x.dev ≠ stripDev h)
    {k b : Nat} (hk : Chosen (ascii "conns") connectionsOf opts (pre = []) e 1 k) (hk0 : 0 < k)
    (hb : Chosen (ascii "bs") bsOf opts (pre = []) e 512 b) (hb0 : 0 < b)
    (log : List CliEv) (r : CliR Unit) (hrun : cliMain nl os (some ((pre ++ e :: post).map writeEntry).flatten) n opts = (log, r)) :
    r ≠ .ub ∧ (∀ d (bs : Int), .device d bs ∈ log → bs = b) ∧ ∀ i k' size (bs : Int) fl t id, .netlink i k' size bs fl t id ∈ log → bs = b := by
  refine ⟨?_, ?_, ?_⟩
  · intro hr
    subst hr
    rcases cliMain_cases nl os (some ((pre ++ e :: post).map writeEntry).flatten) n opts with
      ⟨r, h1, s, -, h2⟩ | ⟨r, h1, st0, hl, hd, hn⟩ | ⟨d, -, h1⟩ | ⟨st, hl, hdd, h1⟩ | ⟨st0, st, hl, hd, hr, h1⟩
    · rw [h1, h2] at hrun; cases hrun
    · have hrr : cliReady (some ((pre ++ e :: post).map writeEntry).flatten) st0 = .ub := by
        unfold cliMain at hrun
        rw [hl] at hrun
        dsimp only at hrun
        rw [hd] at hrun
        simp only [Bool.false_eq_true, if_false] at hrun
        cases hx : cliReady (some ((pre ++ e :: post).map writeEntry).flatten) st0 with
        | ub => rfl
        | exit s => rw [hx] at hrun; cases hrun
        | running => rw [hx] at hrun; cases hrun
        | val st' => exact absurd hx (hn st')
      obtain ⟨c, hc, hsu⟩ := looked_ready hL hl hd (by rw [hrr]; exact fun s hs => by cases hs)
      rw [hsu] at hrr
      have := (cliSettle_bs _).1 hrr
      have hcb : c.bs = 0 := this
      rw [(found_numbers hw he hpre hpost hl hc).1 b hb] at hcb
      omega
    · rw [h1] at hrun
      unfold checkConn at hrun
      split at hrun <;> cases hrun
    · rw [h1] at hrun
      unfold cliDisconnect at hrun
      dsimp only at hrun
      repeat' split at hrun
      all_goals (cases hrun; done)
    · obtain ⟨c, hc, hsu⟩ := looked_ready hL hl hd (by rw [hr]; exact fun s hs => by cases hs)
      rw [hsu] at hr
      have hF := found hL hw he hpre hpost hl hc hr
      have hM := found_more hw he hpre hpost hl hc hr
      have := cliConnect_calm os n st [] (by rw [hM.bs b hb]; omega) (by intro hx; rw [hF.list] at hx; cases hx) (by rw [hM.nconn k hk]; omega)
      rw [← h1, hrun] at this
      exact this rfl
  · intro d bs hm
    have hm' : .device d bs ∈ (cliMain nl os (some ((pre ++ e :: post).map writeEntry).flatten) n opts).1 := by rw [hrun]; exact hm
    obtain ⟨st0, c, st, h1, h2, h3, h4, h5⟩ := looked_event hL hm' id
    rw [h4.2]
    exact (found_more hw he hpre hpost h1 h2 h3).bs b hb
  · intro i k' size bs fl t id hm
    have hm' : .netlink i k' size bs fl t id ∈ (cliMain nl os (some ((pre ++ e :: post).map writeEntry).flatten) n opts).1 := by rw [hrun]; exact hm
    obtain ⟨st0, c, st, h1, h2, h3, h4, h5⟩ := looked_event hL hm' _root_.id
    rw [h4.2.2.1]
    exact (found_more hw he hpre hpost h1 h2 h3).bs b hb

/-- C79 (part), for a client that is given a device to look up: if the table is well-formed and has one entry for the device, then, whatever the options
and the world, when the client begins to wait for the end of the connection (and at least one connection was asked for), it has made as many connections
as the entry asks for, with one negotiation each (unless preinit is given) for the export of the entry, and with TLS if and only if that was asked
for; it has handed each of them to the kernel; it has set the size of the device once, with the block size of the entry, to what the first
negotiation gave, and the timeout once, if there is one. What the command line asks for (-C, -b, -t, -P, -B, -R) counts only if the entry is the first
of the table and, for -C, -b and -t, does not say otherwise (C57_false). -/
theorem C79_table_partial {nl : Bool} {os : CliOs} {n : Nat} {opts : List CliOpt} {h : List Byte} (hL : Looked opts h)
    {pre post : List TabEntry} {e : TabEntry} (hw : ∀ x ∈ pre ++ e :: post, EntryWords x) (he : stripDev e.dev = stripDev h)
    (hpre : ∀ x ∈ pre, stripDev x.dev ≠ stripDev h) (hpost : ∀ x ∈ post, stripDev x.dev ≠ stripDev h)
    {k b t : Nat} (hk : Chosen (ascii "conns") connectionsOf opts (pre = []) e 1 k) (hk0 : 0 < k)
    (hb : Chosen (ascii "bs") bsOf opts (pre = []) e 512 b) (ht : Chosen (ascii "timeout") timeoutOf opts (pre = []) e 0 t)
    (log : List CliEv) (hlog : log = (cliMain nl os (some ((pre ++ e :: post).map writeEntry).flatten) n opts).1) (hd : .doIt ∈ log) :
    ∃ before after, log = before ++ .doIt :: after ∧ .doIt ∉ before ∧ before.countP opened = k ∧
      (.flag (ascii "preinit") ∉ e.opts → ¬ (pre = [] ∧ .preinit ∈ opts) → before.countP negotiated = k) ∧
      (∀ ev ∈ before, negotiated ev = true → .flag (ascii "preinit") ∉ e.opts ∧ ¬ (pre = [] ∧ .preinit ∈ opts) ∧
        ∃ tls g, ev = .nego e.name tls g false ∧ (tls = true ↔ TabEntry.AsksTls e ∨ pre = [] ∧ ∃ o ∈ opts, AsksTls o) ∧
          (g = true ↔ .flag (ascii "no_optgo") ∈ e.opts ∨ pre = [] ∧ .noOptgo ∈ opts)) ∧
      before.countP (fun ev => decide (ev = .sock)) = k ∧
      before.filter setsTimeout = (if t = 0 then [] else [.timeout t]) ∧
      ∃ p s f d, before.filter setsDevice = [.device d b] ∧ p <+: before ∧
        (.flag (ascii "preinit") ∉ e.opts → ¬ (pre = [] ∧ .preinit ∈ opts) → os.nego p = .ready s f) ∧
        (pre ≠ [] → setsizes os.W os.blkOk s b f = .val d) ∧
        (pre = [] → lastGiven forceSizeOf opts = none → setsizes os.W os.blkOk s b (if .readonly ∈ opts then f ||| 2 else f) = .val d) ∧
        (pre = [] → ∀ x, 0 < x → AskedSize opts x → setsizes os.W os.blkOk x b (if .readonly ∈ opts then f ||| 2 else f) = .val d) := by
  rw [hlog] at hd
  obtain ⟨st0, c, st, h1, h2, h3, h4, h5⟩ := looked_event hL hd id
  have hF := found hL hw he hpre hpost h1 h2 h3
  have hM := found_more hw he hpre hpost h1 h2 h3
  have hnet : st.netlink = false := h4
  rw [h5] at hd
  obtain ⟨before, after, g1, g2, g3, g4, g5, g6, g7, p, s, f, d, g8, g9, g10, g11⟩ :=
    ioctl_run os n st hnet hF.list (hM.nconn k hk) hk0 (hM.bs b hb) (hM.timeout t ht) hd
  have hpf : .flag (ascii "preinit") ∉ e.opts → ¬ (pre = [] ∧ .preinit ∈ opts) → st.cl.preinit = false := by
    intro x1 x2
    cases hx : st.cl.preinit with
    | false => rfl
    | true => exact absurd (hM.preinit.mp hx) (fun hy => hy.elim x1 x2)
  have hro : ∀ x : Bool, st.cl.forceRo = x → (st.adjust (s, f)).2 = if x then f ||| 2 else f := by
    intro x hx
    unfold CliState.adjust
    rw [hx]
  have hro1 : pre = [] → (st.adjust (s, f)).2 = if .readonly ∈ opts then f ||| 2 else f := by
    intro hp
    by_cases hr : CliOpt.readonly ∈ opts
    · rw [if_pos hr, hro true (hM.ro.mpr ⟨hp, hr⟩)]; rfl
    · rw [if_neg hr]
      cases hx : st.cl.forceRo with
      | false => rw [hro false hx]; rfl
      | true => exact absurd (hM.ro.mp hx).2 hr
  refine ⟨before, after, by rw [hlog, h5, g1], g2, g3, ?_, ?_, g6, g7, p, s, f, d, g8, g9, ?_, ?_, ?_, ?_⟩
  · intro x1 x2
    rw [g4, hpf x1 x2]
    rfl
  · intro ev hev hq
    have hpn : st.cl.preinit = false := by
      cases hx : st.cl.preinit with
      | false => rfl
      | true =>
        rw [hx, if_pos rfl, List.countP_eq_zero] at g4
        exact absurd hq (g4 ev hev)
    refine ⟨fun hx => ?_, fun hx => ?_, st.cl.tls, st.cl.noOptgo, ?_, hF.tls, hF.noOptgo⟩
    · rw [hM.preinit.mpr (.inl hx)] at hpn; cases hpn
    · rw [hM.preinit.mpr (.inr hx)] at hpn; cases hpn
    · rw [g5 ev hev hq]
      unfold CliState.negoEv
      rw [hF.name, hF.list]
      rfl
  · intro x1 x2
    exact g10 (hpf x1 x2)
  · intro hp
    have a1 : (st.adjust (s, f)).1 = s := by
      unfold CliState.adjust
      simp [hM.size.2 hp]
    have a2 : (st.adjust (s, f)).2 = f := by
      cases hx : st.cl.forceRo with
      | false => rw [hro false hx]; rfl
      | true => exact absurd (hM.ro.mp hx).1 hp
    rw [a1, a2] at g11
    exact g11
  · intro hp hn
    have a1 : (st.adjust (s, f)).1 = s := by
      have := hM.size.1 hp
      rw [hn] at this
      unfold CliState.adjust
      simp only [Option.map_none, Option.getD_none] at this
      simp [this]
    rw [a1, hro1 hp] at g11
    exact g11
  · intro hp x hx0 hx
    have a1 : (st.adjust (s, f)).1 = x := by
      obtain ⟨v, hv, y1, y2, y3⟩ := hx
      have hs := hM.size.1 hp
      rw [hv] at hs
      simp only [Option.map_some, Option.getD_some] at hs
      rw [strtoull0_decimal y1 y2 y3] at hs
      unfold CliState.adjust
      rw [hs]
      simp [show x ≠ 0 by omega]
    rw [a1, hro1 hp] at g11
    exact g11

/-- A table with two entries. -/
def twoTab : List TabEntry :=
  [⟨ascii "nbd1", ascii "other", ascii "swap", []⟩,
    ⟨ascii "nbd0", ascii "server", ascii "disk", [.flag (ascii "tls"), .prop (ascii "bs") (ascii "4096"), .prop (ascii "port") (ascii "77")]⟩]

/-- **The hypotheses.** The client is asked for nbd0, which has the second entry, and for a device without netlink. -/
example : Looked [.noNetlink, .arg (ascii "/dev/nbd0")] (ascii "/dev/nbd0") ∧ (∀ x ∈ twoTab, EntryWords x) ∧
    stripDev (ascii "nbd0") = stripDev (ascii "/dev/nbd0") ∧ stripDev (ascii "nbd1") ≠ stripDev (ascii "/dev/nbd0") :=
  ⟨⟨rfl, .inr ⟨ascii "0", rfl⟩, by decide⟩,
    by intro x hx
       simp only [twoTab, List.mem_cons, List.not_mem_nil, or_false] at hx
       rcases hx with rfl | rfl
       · exact ⟨by decide +kernel, by decide +kernel, by decide +kernel, by decide +kernel⟩
       · exact ⟨by decide +kernel, by decide +kernel, by decide +kernel, by decide +kernel⟩,
    by decide +kernel, by decide +kernel⟩

/-- It connects to the host of that entry, negotiates with TLS, and sets up a file called nbd0 in the current directory. -/
example : (cliMain true okOs (some (twoTab.map writeEntry).flatten) 0 [.noNetlink, .arg (ascii "/dev/nbd0")]).1 =
    [.openDev (ascii "nbd0"), .lookup (ascii "server") (some (ascii "77")), .connect 1 false, .connect 2 true,
      .nego (ascii "disk") true false false, .device ⟨1048576, 1, false⟩ 4096, .sock, .daemon] := by decide +kernel

/-- With netlink it connects, negotiates and fails. -/
example : cliMain true okOs (some (twoTab.map writeEntry).flatten) 0 [.arg (ascii "/dev/nbd0")] =
    ([.lookup (ascii "server") (some (ascii "77")), .connect 1 false, .connect 2 true, .nego (ascii "disk") true false false], .exit 1) := by
  decide +kernel

/-- Two connections, block size and timeout from the table. -/
def connEntry : TabEntry :=
  ⟨ascii "nbd0", ascii "server", ascii "disk", [.prop (ascii "conns") (ascii "2"), .prop (ascii "timeout") (ascii "5"), .prop (ascii "port") (ascii "77")]⟩

def connTab : List TabEntry := [⟨ascii "nbd1", ascii "other", ascii "swap", []⟩, connEntry]

/-- **The hypotheses** of C79_table_partial, and what happens; -C does not count. -/
example : Chosen (ascii "conns") connectionsOf [.noNetlink, .nofork, .connections (ascii "7"), .arg (ascii "/dev/nbd0")] False connEntry 1 2 ∧
    Chosen (ascii "timeout") timeoutOf [.noNetlink, .nofork, .connections (ascii "7"), .arg (ascii "/dev/nbd0")] False connEntry 0 5 ∧
    Chosen (ascii "bs") bsOf [.noNetlink, .nofork, .connections (ascii "7"), .arg (ascii "/dev/nbd0")] False connEntry 512 512 := by
  refine ⟨⟨?_, ?_⟩, ⟨?_, ?_⟩, ⟨?_, ?_⟩⟩
  · intro v hv
    rw [show lastProp (ascii "conns") connEntry.opts = some (ascii "2") by decide +kernel] at hv
    cases hv
    exact ⟨⟨by decide, by decide, by decide⟩, by decide⟩
  · intro hv
    rw [show lastProp (ascii "conns") connEntry.opts = some (ascii "2") by decide +kernel] at hv
    cases hv
  · intro v hv
    rw [show lastProp (ascii "timeout") connEntry.opts = some (ascii "5") by decide +kernel] at hv
    cases hv
    exact ⟨⟨by decide, by decide, by decide⟩, by decide⟩
  · intro hv
    rw [show lastProp (ascii "timeout") connEntry.opts = some (ascii "5") by decide +kernel] at hv
    cases hv
  · intro v hv
    rw [show lastProp (ascii "bs") connEntry.opts = none by decide +kernel] at hv
    cases hv
  · intro _
    exact ⟨False.elim, fun _ => rfl⟩

/-- The hypotheses of C91_table_partial are the same. -/
example : (cliMain true okOs (some (connTab.map writeEntry).flatten) 1 [.noNetlink, .nofork, .connections (ascii "7"), .arg (ascii "/dev/nbd0")]).1 =
    [.openDev (ascii "nbd0"), .lookup (ascii "server") (some (ascii "77")), .connect 1 false, .connect 2 true,
      .nego (ascii "disk") false false false, .device ⟨1048576, 1, false⟩ 512, .timeout 5, .sock,
      .lookup (ascii "server") (some (ascii "77")), .connect 1 false, .connect 2 true,
      .nego (ascii "disk") false false false, .sock, .doIt, .clearSock] := by decide +kernel

end Props

end Nbd
