import Verif.CliConn
import Verif.Props.Config
import Verif.Props.Acl
/-!
# What nbd-client does with its command line

Properties C78 to C82, about `main` of nbd-client (`Nbd.cliMain`): which server it connects to, what it tells the kernel, when it
reconnects, -c and -d, and TLS.
-/

set_option autoImplicit false

namespace Nbd

namespace Spec

/-- The command line gives the host `h`, and the device table is not needed: the host does not look like a device, or -l is given, or
both a name and a device are. -/
def Direct (opts : List CliOpt) (h : List Byte) : Prop :=
  (cliWords opts).head? = some h ∧
  ((¬ ascii "nbd" <+: h ∧ ¬ ascii "/dev/nbd" <+: h) ∨ .list ∈ opts ∨
    ((∃ v, .name v ∈ opts) ∧ (deviceOf (cliWords opts)).isSome))

/-- The number `x` was asked for with the last such option, or is the default. -/
def Asked (f : CliOpt → Option (List Byte)) (opts : List CliOpt) (dflt x : Nat) : Prop :=
  match lastGiven f opts with
  | none => x = dflt
  | some v => Decimal v x ∧ v.head? ≠ some 48 ∧ x < 2 ^ 31

/-- The size `x` was asked for with the last -B. -/
def AskedSize (opts : List CliOpt) (x : Nat) : Prop :=
  ∃ v, lastGiven forceSizeOf opts = some v ∧ Decimal v x ∧ v.head? ≠ some 48 ∧ x < 2 ^ 64

/-- The negotiation that was asked for. -/
def negoFor (opts : List CliOpt) (e : CliEv) : Prop :=
  ∃ tls g l, e = .nego ((lastGiven nameOf opts).getD []) tls g l ∧ (tls = true ↔ ∃ o ∈ opts, AsksTls o) ∧
    (g = true ↔ .noOptgo ∈ opts) ∧ (l = true ↔ .list ∈ opts)

/-- Setting the size of the device. -/
def setsDevice : CliEv → Bool
  | .device _ _ => true
  | _ => false

/-- Setting its timeout. -/
def setsTimeout : CliEv → Bool
  | .timeout _ => true
  | _ => false

/-- The kernel accepts everything, each connection gets lost in time, and the export stays the same. -/
structure Steady (os : CliOs) (size flags bs : Nat) : Prop where
  opens : ∀ log, os.openOk log = true
  timeouts : ∀ log, os.timeoutOk log = true
  socks : ∀ log, os.sockOk log = true
  nego : ∀ log, os.nego log = .ready size flags
  lost : ∀ log, os.doIt log = .lost
  sizes : ∃ d, setsizes os.W os.blkOk size bs flags = .val d

end Spec

open Spec

theorem looksLikeDev_false {h : List Byte} (h1 : ¬ ascii "nbd" <+: h) (h2 : ¬ ascii "/dev/nbd" <+: h) : looksLikeDev h = false := by
  unfold looksLikeDev
  rw [Bool.or_eq_false_iff]
  constructor
  · cases hx : (ascii "nbd").isPrefixOf h with
    | false => rfl
    | true => exact absurd (List.isPrefixOf_iff_prefix.mp hx) h1
  · cases hx : (ascii "/dev/nbd").isPrefixOf h with
    | false => rfl
    | true => exact absurd (List.isPrefixOf_iff_prefix.mp hx) h2

theorem lastGiven_name_isSome {v : List Byte} {opts : List CliOpt} (h : .name v ∈ opts) : (lastGiven nameOf opts).isSome = true := by
  unfold lastGiven
  have hx : opts.filterMap nameOf ≠ [] := by
    intro hx
    have : v ∈ opts.filterMap nameOf := List.mem_filterMap.mpr ⟨_, h, rfl⟩
    rw [hx] at this
    cases this
  rw [List.getLast?_eq_some_getLast hx]
  rfl

/-- A run of a client without the table. -/
theorem direct_told {nl : Bool} {opts : List CliOpt} {h : List Byte} (hD : Direct opts h) {table : Option (List Byte)}
    {st0 st : CliState} (hl : cliLoop nl opts (cliStart nl) = .go st0) (hd : st0.disc = false) (hr : cliReady table st0 = .val st) :
    st.Told nl opts h := by
  refine told nl opts h table st0 st hl hd hr hD.1 ?_
  rcases hD.2 with ⟨h1, h2⟩ | h1 | ⟨⟨v, h1⟩, h2⟩
  · exact .inl (looksLikeDev_false h1 h2)
  · exact .inr (.inl h1)
  · exact .inr (.inr ⟨lastGiven_name_isSome h1, h2⟩)

/-- Events of -c and -d. -/
def Aside : CliEv → Prop
  | .print _ => True
  | .netlinkDisc _ => True
  | .openDev _ => True
  | .ioctlDisc _ => True
  | .clearSock => True
  | _ => False

theorem cliDisconnect_aside (os : CliOs) (nl : Bool) (dev : List Byte) : ∀ e ∈ (cliDisconnect os nl dev []).1, Aside e := by
  unfold cliDisconnect
  cases nl with
  | true =>
    rw [if_pos rfl]
    split
    · simp
    · split
      · simp
      · simp [Aside]
  | false =>
    simp only [Bool.false_eq_true, if_false, List.nil_append]
    split
    · simp
    · split
      · simp [Aside]
      · simp [Aside]

/-- What is not done for -c or -d is done with the settings of the command line. -/
theorem direct_event {nl : Bool} {opts : List CliOpt} {h : List Byte} (hD : Direct opts h) {os : CliOs} {table : Option (List Byte)}
    {n : Nat} {e : CliEv} (he : e ∈ (cliMain nl os table n opts).1) (ha : ¬ Aside e) :
    ∃ st, st.Told nl opts h ∧ st.Allows e ∧ cliMain nl os table n opts = cliConnect os n st [] := by
  rcases cliMain_cases nl os table n opts with ⟨r, h1, -⟩ | ⟨r, h1, -⟩ | ⟨d, -, h1⟩ | ⟨st, -, -, h1⟩ | ⟨st0, st, hl, hd, hr, h1⟩
  · rw [h1] at he; cases he
  · rw [h1] at he; cases he
  · rw [h1] at he
    unfold checkConn at he
    split at he
    · cases he
    · cases he
    · cases he
    · simp only [List.nil_append, List.mem_singleton] at he
      subst he
      exact absurd trivial ha
  · rw [h1] at he
    exact absurd (cliDisconnect_aside os _ _ e he) ha
  · rw [h1] at he
    obtain ⟨m, h2, h3⟩ := cliConnect_grows os n st []
    rw [List.nil_append] at h2
    rw [h2] at he
    exact ⟨st, direct_told hD hl hd hr, h3 e he, h1⟩

theorem wrapInt_nat {n : Nat} (h : n < 2 ^ 31) : wrapInt (n : Int) = n := by
  unfold wrapInt
  omega

theorem asked_wrap {f : CliOpt → Option (List Byte)} {opts : List CliOpt} {dflt x : Nat} (h : Asked f opts dflt x) :
    ((lastGiven f opts).map (fun v => wrapInt (strtol0 v))).getD (dflt : Int) = x := by
  unfold Asked at h
  split at h
  · rename_i hf
    rw [hf, h]
    rfl
  · rename_i v hf
    obtain ⟨h1, h2, h3⟩ := h
    rw [hf]
    show wrapInt (strtol0 (32 :: v)) = x
    rw [Props.strtol0_decimal h1 h2 (by omega), wrapInt_nat h3]

theorem netlinkIndex_decimal {ds : List Byte} {x : Nat} (h : Decimal ds x) (hx : x < 2 ^ 31) :
    netlinkIndex (ascii "/dev/nbd" ++ ds) = some (x : Int) := by
  cases ds with
  | nil => exact absurd rfl h.some
  | cons d ds =>
    have hd := h.digits d (by simp)
    have hsp : isSpace d = false := Props.isSpace_digit hd
    have hdrop : List.drop 8 (ascii "/dev/nbd" ++ d :: ds) = d :: ds := rfl
    have hdw : (d :: ds).dropWhile isSpace = d :: ds := by rw [List.dropWhile_cons, hsp]; rfl
    have hok : netlinkDevOk (ascii "/dev/nbd" ++ d :: ds) = true := by
      unfold netlinkDevOk
      rw [Bool.and_eq_true]
      refine ⟨List.isPrefixOf_iff_prefix.mpr (List.prefix_append _ _), ?_⟩
      rw [hdrop]
      have : (d :: ds).dropWhile (fun b => decide (b = 32 ∨ (9 ≤ b ∧ b ≤ 13))) = d :: ds := hdw
      rw [this]
      split
      · rename_i heq; cases heq; exact absurd hd (by decide)
      · rename_i heq; cases heq; exact absurd hd (by decide)
      · rename_i heq; cases heq; simpa using hd
      · rename_i heq; cases heq
    unfold netlinkIndex
    rw [if_pos hok, hdrop, hdw, Props.strtolInt_decimal h hx]

theorem connectAll_netlink_exit (os : CliOs) (st : CliState) (hn : st.netlink = true) (hli : st.list = false) (hnego : ∀ log, os.nego log ≠ .exits 0) (n : Nat) :
    ∀ (first : Bool) (cur : Nat × Nat) (log : List CliEv), (connectAll os st n first cur log).2 ≠ .exit 0 := by
  induction n with
  | zero => intro first cur log h; cases h
  | succ n ih =>
    intro first cur log h
    unfold connectAll at h
    rcases hc : connectOne os st cur log with ⟨l1, r⟩
    rw [hc] at h
    cases r with
    | val c =>
      obtain ⟨size, flags⟩ := c
      dsimp only at h
      rw [if_pos hn] at h
      exact ih _ _ _ h
    | exit k =>
      cases h
      unfold connectOne at hc
      rcases ho : openSock os st.cl log with ⟨l0, _ | _⟩
      · rw [ho] at hc; simp at hc
      · rw [ho] at hc
        dsimp only at hc
        cases hp : st.cl.preinit with
        | true => rw [hp] at hc; simp at hc
        | false =>
          rw [hp] at hc
          simp only [Bool.false_eq_true, if_false] at hc
          unfold negoWith at hc
          dsimp only at hc
          rcases hq : os.nego (l0 ++ [CliEv.nego (st.cl.name.getD []) st.cl.tls st.cl.noOptgo st.list]) with ⟨s, f⟩ | k
          · rw [hq] at hc; simp [hli] at hc
          · rw [hq] at hc
            simp only [Prod.mk.injEq, CliR.exit.injEq] at hc
            rw [hc.2] at hq
            exact hnego _ hq
    | ub => cases h
    | running => cases h

namespace Props

/-! ### C78: which server -/

/-- C78 (part). Whatever the options, their order, the world and the table: a client that was given a host and does not need the table
looks up and connects to that host only, over the network unless -u is given, and then only to that socket. -/
theorem C78_host_partial {nl : Bool} {os : CliOs} {table : Option (List Byte)} {n : Nat} {opts : List CliOpt} {h : List Byte}
    (hD : Direct opts h) :
    (∀ h' p, .lookup h' p ∈ (cliMain nl os table n opts).1 → h' = h ∧ p = some (ascii "10809") ∧ .unix ∉ opts) ∧
    (∀ a ok, .connect a ok ∈ (cliMain nl os table n opts).1 → .unix ∉ opts) ∧
    (∀ path ok, .connectUnix path ok ∈ (cliMain nl os table n opts).1 → path = h ∧ .unix ∈ opts) := by
  refine ⟨?_, ?_, ?_⟩
  · intro h' p he
    obtain ⟨st, ht, ha, -⟩ := direct_event hD he id
    obtain ⟨h1, h2, h3⟩ := ha
    rw [ht.host] at h2
    rw [ht.port] at h3
    exact ⟨h2, h3, fun hu => by rw [ht.unix.mpr hu] at h1; cases h1⟩
  · intro a ok he
    obtain ⟨st, ht, ha, -⟩ := direct_event hD he id
    have h1 : st.cl.unix = false := ha
    exact fun hu => by rw [ht.unix.mpr hu] at h1; cases h1
  · intro path ok he
    obtain ⟨st, ht, ha, -⟩ := direct_event hD he id
    obtain ⟨h1, h2⟩ := ha
    rw [ht.host] at h2
    exact ⟨h2, ht.unix.mp h1⟩

/-- A world in which everything works; the addresses are 1 and 2, of which only 2 answers; the export has a mebibyte. -/
def okOs : CliOs where
  resolve _ := some [1, 2]
  socketOk _ := true
  connectOk _ a := a == 2
  unixOk _ := true
  openOk _ := true
  nego _ := .ready 1048576 1
  W := 64
  blkOk _ := true
  timeoutOk _ := true
  sockOk _ := true
  netlinkOk _ := true
  daemonOk _ := true
  discOk _ := true
  doIt _ := .lost
  sys _ := .absent

/-- `nbd-client -N disk server 9999 /dev/nbd0` -/
def portOpts : List CliOpt := [.name (ascii "disk"), .arg (ascii "server"), .arg (ascii "9999"), .arg (ascii "/dev/nbd0")]

example : Direct portOpts (ascii "server") := by
  refine ⟨by decide +kernel, .inl ⟨by decide +kernel, by decide +kernel⟩⟩

example : (cliMain true okOs none 0 portOpts) =
    ([.lookup (ascii "server") (some (ascii "10809")), .connect 1 false, .connect 2 true, .nego (ascii "disk") false false false,
      .netlink (some 0) 1 1048576 512 1 0 none], .exit 0) := by decide +kernel

/-- C78 is false: the port on the command line is not used. The client connects to 10809 and reports success. -/
theorem C78_false_port : ¬ ∀ (nl : Bool) (os : CliOs) (table : Option (List Byte)) (n : Nat) (opts : List CliOpt) (h p d : List Byte),
    cliWords opts = [h, p, d] → Direct opts h → (cliMain nl os table n opts).2 = .exit 0 →
    ∀ h' p', .lookup h' p' ∈ (cliMain nl os table n opts).1 → p' = some p := by
  intro hall
  have := hall true okOs none 0 portOpts (ascii "server") (ascii "9999") (ascii "/dev/nbd0") (by decide +kernel)
    ⟨by decide +kernel, .inl ⟨by decide +kernel, by decide +kernel⟩⟩ (by decide +kernel) (ascii "server") (some (ascii "10809"))
    (by decide +kernel)
  revert this
  decide +kernel

/-- C78 is false: a server whose name begins with "nbd" is not connected to, unless an export is named: the client looks for a device of
that name in the table. -/
theorem C78_false_default_export (nl : Bool) (os : CliOs) (n : Nat) :
    cliMain nl os none n [.arg (ascii "nbdserver.example.org"), .arg (ascii "/dev/nbd0")] = ([], .exit 1) := by
  cases nl <;> rfl

/-- The addresses of a host are tried in order until one answers. -/
theorem tryAddrs_first (os : CliOs) (ok : Nat → Bool) (hs : ∀ log, os.socketOk log = true) (hc : ∀ log a, os.connectOk log a = ok a)
    (bad : List Nat) (hb : ∀ a ∈ bad, ok a = false) (rest : List Nat) : ∀ log,
    tryAddrs os (bad ++ rest) log = tryAddrs os rest (log ++ bad.map (fun a => .connect a false)) := by
  induction bad with
  | nil => intro log; simp
  | cons a as ih =>
    intro log
    rw [List.cons_append]
    have := hb a (by simp)
    simp only [tryAddrs, hs, hc, this, Bool.not_true, Bool.false_eq_true, if_false]
    rw [ih (fun x hx => hb x (by simp [hx]))]
    simp

/-- C78 (part). If the host has the addresses `bad ++ good :: rest`, none of `bad` answers and `good` does, then the client tries those of
`bad` in order and uses `good`; if none answers, it tries all of them and ends with status 1. (For a client that uses netlink and looks
the host up at all.) -/
theorem C78_addresses_partial {os : CliOs} {table : Option (List Byte)} {n : Nat} {opts : List CliOpt} {h : List Byte}
    (hD : Direct opts h) (hn : .noNetlink ∉ opts) {h' : List Byte} {p : Option (List Byte)}
    (hl : .lookup h' p ∈ (cliMain true os table n opts).1)
    (ok : Nat → Bool) (hs : ∀ log, os.socketOk log = true) (hc : ∀ log a, os.connectOk log a = ok a) (bad : List Nat)
    (hb : ∀ a ∈ bad, ok a = false) :
    (∀ good rest, ok good = true → (∀ log, os.resolve log = some (bad ++ good :: rest)) →
      .lookup h (some (ascii "10809")) :: bad.map (fun a => .connect a false) ++ [.connect good true] <+:
        (cliMain true os table n opts).1) ∧
    ((∀ log, os.resolve log = some bad) → cliMain true os table n opts =
      (.lookup h (some (ascii "10809")) :: bad.map (fun a => .connect a false), .exit 1)) := by
  obtain ⟨st, ht, ha, h1⟩ := direct_event hD hl id
  obtain ⟨hux, -, -⟩ := ha
  rw [h1] at hl ⊢
  have hnet : st.netlink = true := ht.netlink.mpr ⟨rfl, hn⟩
  rcases cliConnect_netlink os n st hnet with ⟨_, h2⟩ | ⟨log, r, h0, h2, h3, h4, h5⟩ | ⟨log, cur, h0, h2, h3⟩
  · rw [h2] at hl; cases hl
  all_goals
    rcases hk : st.cl.nconn.toNat with _ | k
    · exfalso
      rw [hk] at h2
      simp only [connectAll, Prod.mk.injEq] at h2
      first
        | exact h3 _ h2.2.symm
        | (rw [h3, ← h2.1] at hl
           unfold netlinkMain at hl
           dsimp only at hl
           repeat' split at hl
           all_goals simp at hl)
    have hopen : openSock os st.cl [] = match os.resolve [.lookup h (some (ascii "10809"))] with
        | none => ([.lookup h (some (ascii "10809"))], false)
        | some as => tryAddrs os as [.lookup h (some (ascii "10809"))] := by
      unfold openSock openNet
      rw [hux, ht.host, ht.port]
      rfl
    rw [hk] at h2
    have hp := connectAll_after os st k true (0, 0) []
    rw [h2] at hp
    have bad1 : (∀ log, os.resolve log = some bad) → connectAll os st (k + 1) true (0, 0) [] =
        (.lookup h (some (ascii "10809")) :: bad.map (fun a => .connect a false), .exit 1) := by
      intro hr
      rw [hr] at hopen
      simp only [] at hopen
      have h0 := tryAddrs_first os ok hs hc bad hb [] [.lookup h (some (ascii "10809"))]
      rw [List.append_nil] at h0
      rw [h0] at hopen
      simp only [tryAddrs] at hopen
      unfold connectAll connectOne
      rw [hopen]
      simp
    have good1 : ∀ good rest, ok good = true → (∀ log, os.resolve log = some (bad ++ good :: rest)) →
        .lookup h (some (ascii "10809")) :: bad.map (fun a => .connect a false) ++ [.connect good true] <+: log := by
      intro good rest hg hr
      rw [hr] at hopen
      simp only [] at hopen
      rw [tryAddrs_first os ok hs hc bad hb] at hopen
      simp only [tryAddrs, hs, hc, hg, Bool.not_true, Bool.false_eq_true, if_false, if_true] at hopen
      rw [hopen] at hp
      exact hp
  · refine ⟨fun good rest hg hr => by rw [h4]; exact good1 good rest hg hr, fun hr => ?_⟩
    have := (bad1 hr).symm.trans h2
    simp only [Prod.mk.injEq] at this
    obtain ⟨e1, e2⟩ := this
    have h6 : (cliConnect os n st []).2 = .exit 1 := by
      subst e2
      unfold cliConnect
      simp only [hnet, Bool.not_true, Bool.and_false, Bool.false_eq_true, if_false, Bool.true_and]
      rw [hk, h2]
      have : ¬ st.cl.nconn < 0 := by omega
      simp [this]
    exact Prod.ext (h4.trans e1.symm) h6
  · refine ⟨fun good rest hg hr => ?_, fun hr => ?_⟩
    · rw [h3]
      refine (good1 good rest hg hr).trans ?_
      unfold netlinkMain
      dsimp only
      split
      · exact List.prefix_refl _
      · exact List.prefix_append _ _
    · have := (bad1 hr).symm.trans h2
      simp at this

example : (cliMain true okOs none 0 portOpts).1 ≠ [] ∧ CliOpt.noNetlink ∉ portOpts ∧
    .lookup (ascii "server") (some (ascii "10809")) ∈ (cliMain true okOs none 0 portOpts).1 ∧
    okOs.resolve [] = some ([1] ++ 2 :: []) := by decide +kernel

/-! ### C79: what the kernel is told -/

theorem negoFor_of {st : CliState} {nl : Bool} {opts : List CliOpt} {h : List Byte} (ht : st.Told nl opts h) :
    negoFor opts st.negoEv := by
  refine ⟨st.cl.tls, st.cl.noOptgo, st.list, ?_, ht.tls, ht.optgo, ht.list⟩
  unfold CliState.negoEv
  rw [ht.name]
  rfl

/-- The size and the flags with -B and -R. -/
theorem adjust_eq {st : CliState} {nl : Bool} {opts : List CliOpt} {h : List Byte} (ht : st.Told nl opts h) (s f : Nat) :
    (lastGiven forceSizeOf opts = none → (st.adjust (s, f)).1 = s) ∧
    (.readonly ∉ opts → (st.adjust (s, f)).2 = f) ∧ (.readonly ∈ opts → (st.adjust (s, f)).2 = f ||| 2) := by
  unfold CliState.adjust
  refine ⟨?_, ?_, ?_⟩
  · intro hn
    have := ht.size
    rw [hn] at this
    simp only [Option.map_none, Option.getD_none] at this
    simp [this]
  · intro hr
    have : st.cl.forceRo = false := by
      cases hx : st.cl.forceRo with
      | false => rfl
      | true => exact absurd (ht.ro.mp hx) hr
    simp [this]
  · intro hr
    simp [ht.ro.mpr hr]

theorem strtoull0_decimal {ds : List Byte} {n : Nat} (h : Decimal ds n) (h0 : ds.head? ≠ some 48) (hn : n < 2 ^ 64) :
    strtoull0 ds = n := by
  have hv : digitsIn 10 ds 0 = n := by rw [digitsIn_eq ds h.digits, h.value]
  cases ds with
  | nil => exact absurd rfl h.some
  | cons d ds =>
    have hd := h.digits d (by simp)
    have hsp : isSpace d = false := isSpace_digit hd
    have hz : d ≠ 48 := fun hh => h0 (by rw [hh]; rfl)
    have hdig : digits0 (d :: ds) = n := by
      unfold digits0
      split
      · rename_i heq; cases heq; exact absurd rfl hz
      · rename_i heq; cases heq; exact absurd rfl hz
      · exact hv
    unfold strtoull0
    rw [List.dropWhile_cons, hsp]
    simp only [Bool.false_eq_true, if_false]
    split
    · rename_i heq; cases heq; exact absurd hd (by decide)
    · rename_i heq; cases heq; exact absurd hd (by decide)
    · rw [hdig]; omega

/-- -B -/
theorem adjust_asked {st : CliState} {nl : Bool} {opts : List CliOpt} {h : List Byte} (ht : st.Told nl opts h) {x : Nat} (hx0 : 0 < x)
    (hx : AskedSize opts x) (sf : Nat × Nat) : (st.adjust sf).1 = x := by
  obtain ⟨v, hv, h1, h2, h3⟩ := hx
  have hs := ht.size
  rw [hv] at hs
  simp only [Option.map_some, Option.getD_some] at hs
  rw [strtoull0_decimal h1 h2 h3] at hs
  unfold CliState.adjust
  simp only [hs]
  rw [if_pos (by omega)]

theorem connecting_allowed {st : CliState} {e : CliEv} (hq : Connecting e) (ha : st.Allows e) : Seeks e ∨ e = st.negoEv := by
  rcases hq with hq | hq
  · exact .inl hq
  · cases e <;> try (cases hq; done)
    obtain ⟨h1, h2, h3, h4⟩ := ha
    subst h1 h2 h3 h4
    exact .inr rfl

/-- C79 (part). Whatever the options, their order and the world: when a client that does not need the table calls the kernel by netlink,
that is the last thing it does. Before, it made as many connections as were asked for, with one negotiation each (unless -P is given) for
the name, and with TLS if and only if that was asked for. The kernel is told that number of connections, the block size, the timeout, the
identifier and the device that were asked for, the size and flags of the last negotiation, and that the device is read-only if -R is given.
The client succeeds exactly if the kernel does. -/
theorem C79_netlink_partial {nl : Bool} {os : CliOs} {table : Option (List Byte)} {n : Nat} {opts : List CliOpt} {h : List Byte}
    (hD : Direct opts h) {i : Option Nat} {k size : Nat} {bs : Int} {fl : Nat} {t : Int} {id : Option (List Byte)}
    (hm : .netlink i k size bs fl t id ∈ (cliMain nl os table n opts).1) :
    ∃ pre, (cliMain nl os table n opts).1 = pre ++ [.netlink i k size bs fl t id] ∧
      (cliMain nl os table n opts).2 = .exit (if os.netlinkOk (pre ++ [.netlink i k size bs fl t id]) then 0 else 1) ∧
      (∀ e ∈ pre, Seeks e ∨ negoFor opts e) ∧ pre.countP opened = k ∧
      (.preinit ∉ opts → pre.countP negotiated = k) ∧
      (.preinit ∉ opts → 0 < k → ∃ s f, os.nego pre = .ready s f ∧ (lastGiven forceSizeOf opts = none → size = s) ∧
        (∀ x, 0 < x → AskedSize opts x → size = x) ∧
        (.readonly ∉ opts → fl = f) ∧ (.readonly ∈ opts → fl = f ||| 2)) ∧
      (∀ x, Asked connectionsOf opts 1 x → k = x) ∧ (∀ x, Asked bsOf opts 512 x → bs = x) ∧
      (∀ x, Asked timeoutOf opts 0 x → t = x) ∧ id = lastGiven identOf opts ∧
      (.list ∉ opts → deviceOf (cliWords opts) = none → i = none) ∧
      (.list ∉ opts → ∀ ds x, deviceOf (cliWords opts) = some (ascii "/dev/nbd" ++ ds) → Decimal ds x → x < 2 ^ 31 → i = some x) := by
  obtain ⟨st, ht, ha, h1⟩ := direct_event hD hm _root_.id
  obtain ⟨hnet, -⟩ := ha
  rw [h1] at hm ⊢
  obtain ⟨all, ha1, ha2⟩ := cliConnect_grows os n st []
  rw [List.nil_append] at ha1
  rcases cliConnect_netlink os n st hnet with ⟨_, h2⟩ | ⟨log, r, h0, h2, h3, h4, h5⟩ | ⟨log, cur, h0, h2, h3⟩
  · rw [h2] at hm; cases hm
  · exfalso
    obtain ⟨m, g1, g2⟩ := connectAll_netlink_any os st hnet st.cl.nconn.toNat true (0, 0) []
    rw [h2, List.nil_append] at g1
    dsimp only at g1
    rw [h4, g1] at hm
    rcases g2 _ hm with hq | hq
    · exact hq
    · cases hq
  · obtain ⟨more, m1, m2, m3, m4, m5⟩ := connectAll_netlink os st hnet _ _ _ _ _ _ h2
    rw [List.nil_append] at m1
    subst m1
    have hnot : .netlink i k size bs fl t id ∉ log := by
      intro hx
      rcases m2 _ hx with hq | hq
      · exact hq
      · cases hq
    rw [h3] at hm ha1 ⊢
    have hidx : ∀ j : Int, (match st.dev with | none => some (-1) | some d => netlinkIndex d : Option Int) = some j →
        (.list ∉ opts → deviceOf (cliWords opts) = none → (if 0 ≤ j then some j.toNat else none : Option Nat) = none) ∧
        (.list ∉ opts → ∀ ds x, deviceOf (cliWords opts) = some (ascii "/dev/nbd" ++ ds) → Decimal ds x → x < 2 ^ 31 →
          (if 0 ≤ j then some j.toNat else none : Option Nat) = some x) := by
      intro j hj
      constructor
      · intro hl hd
        rw [ht.dev hl, hd] at hj
        cases hj
        rfl
      · intro hl ds x hd hx hlt
        rw [ht.dev hl, hd] at hj
        simp only [] at hj
        rw [netlinkIndex_decimal hx hlt] at hj
        cases hj
        simp
    unfold netlinkMain at hm ha1 ⊢
    dsimp only at hm ha1 ⊢
    split at hm
    · exact absurd hm hnot
    · rename_i j hj
      obtain ⟨hi1, hi2⟩ := hidx j hj
      rw [hj] at ha1
      dsimp only at ha1 hm ⊢
      rcases List.mem_append.mp hm with hm | hm
      · exact absurd hm hnot
      · rw [List.mem_singleton] at hm
        cases hm
        refine ⟨log, rfl, rfl, ?_, m3, ?_, ?_, ?_, ?_, ?_, ?_, hi1, hi2⟩
        · intro e he
          rcases connecting_allowed (m2 e he) (ha2 e (by rw [← ha1]; simp [he])) with hq | hq
          · exact .inl hq
          · rw [hq]; exact .inr (negoFor_of ht)
        · intro hp
          have : st.cl.preinit = false := by
            cases hx : st.cl.preinit with
            | false => rfl
            | true => exact absurd (ht.preinit.mp hx) hp
          rw [m4, this]
          rfl
        · intro hp hk
          have : st.cl.preinit = false := by
            cases hx : st.cl.preinit with
            | false => rfl
            | true => exact absurd (ht.preinit.mp hx) hp
          obtain ⟨s, f, e1, e2⟩ := m5 hk this
          obtain ⟨g1, g2, g3⟩ := adjust_eq ht s f
          subst e2
          exact ⟨s, f, e1, g1, fun x hx0 hx => adjust_asked ht hx0 hx (s, f), g2, g3⟩
        · intro x hx
          have := ht.nconn
          rw [show (1 : Int) = ((1 : Nat) : Int) from rfl, asked_wrap hx] at this
          omega
        · intro x hx
          have := ht.bs
          rw [show (512 : Int) = ((512 : Nat) : Int) from rfl, asked_wrap hx] at this
          exact this
        · intro x hx
          have := ht.timeout
          rw [show (0 : Int) = ((0 : Nat) : Int) from rfl, asked_wrap hx] at this
          exact this
        · exact ht.ident

example : .netlink (some 0) 1 1048576 512 1 0 none ∈ (cliMain true okOs none 0 portOpts).1 ∧
    deviceOf (cliWords portOpts) = some (ascii "/dev/nbd" ++ ascii "0") := by decide +kernel

/-- -b, -t, -C, -R and -i, some of them twice. -/
example : (cliMain true okOs none 0 [.blockSize (ascii "1024"), .connections (ascii "2"), .readonly, .arg (ascii "server"),
      .timeout (ascii "30"), .identifier (ascii "me"), .arg (ascii "/dev/nbd3"), .blockSize (ascii "4096")]).1.getLast? =
    some (.netlink (some 3) 2 1048576 4096 3 30 (some (ascii "me"))) := by decide +kernel

example : Asked bsOf [.blockSize (ascii "1024"), .blockSize (ascii "4096")] 512 4096 := by
  refine ⟨⟨by decide +kernel, by decide +kernel, by decide +kernel⟩, by decide +kernel, by decide⟩

/-- C79 (part). A client that uses netlink, was not asked for anything else (-h, -V, -c, -d, -l) and ends with success has called the
kernel. (It is assumed that a negotiation that fails ends the program with failure.) -/
theorem C79_success_partial {os : CliOs} {table : Option (List Byte)} {n : Nat} {opts : List CliOpt} {h : List Byte}
    (hD : Direct opts h) (hn : .noNetlink ∉ opts) (h1 : .help ∉ opts) (h2 : .version ∉ opts) (h3 : ∀ d, .check d ∉ opts)
    (h4 : ∀ d, .disconnect d ∉ opts) (h5 : .list ∉ opts) (hnego : ∀ log, os.nego log ≠ .exits 0)
    (hx : (cliMain true os table n opts).2 = .exit 0) :
    ∃ i k size bs fl t id, .netlink i k size bs fl t id ∈ (cliMain true os table n opts).1 := by
  have hex : ∀ opts, .help ∉ opts → .version ∉ opts → ∀ st, cliLoop true opts st ≠ .exit 0 := by
    intro opts
    induction opts with
    | nil => intro _ _ st hh; cases hh
    | cons o os ih =>
      intro a b st hh
      unfold cliLoop at hh
      cases hs : cliStep true st o with
      | go st1 => rw [hs] at hh; exact ih (fun hm => a (by simp [hm])) (fun hm => b (by simp [hm])) st1 hh
      | check d => rw [hs] at hh; cases hh
      | exit k =>
        rw [hs] at hh
        cases hh
        cases o <;> (simp only [cliStep, cliBlockSize, cliTimeout] at hs; try (repeat' split at hs) <;> first | (cases hs; done) | skip)
        · exact a (by simp)
        · exact b (by simp)
  have hck : ∀ opts, (∀ d, .check d ∉ opts) → ∀ st d, cliLoop true opts st ≠ .check d := by
    intro opts
    induction opts with
    | nil => intro _ st d hh; cases hh
    | cons o os ih =>
      intro a st d hh
      unfold cliLoop at hh
      cases hs : cliStep true st o with
      | go st1 => rw [hs] at hh; exact ih (fun d hm => a d (by simp [hm])) st1 d hh
      | exit k => rw [hs] at hh; cases hh
      | check d' =>
        cases o <;> (simp only [cliStep, cliBlockSize, cliTimeout] at hs; try (repeat' split at hs) <;> first | (cases hs; done) | skip)
        rename_i v
        exact a v (by simp)
  rcases cliMain_cases true os table n opts with ⟨r, g1, s, g2, g3⟩ | ⟨r, g1, st, g2, g3, g4⟩ | ⟨d, g1, -⟩ | ⟨st, g1, g2, -⟩ |
    ⟨st0, st, hl, hd, hr, g1⟩
  · rw [g1, g3] at hx
    cases hx
    exact absurd g2 (hex opts h1 h2 _)
  · exfalso
    have hready : cliReady table st ≠ .exit 0 := by
      intro hh
      unfold cliReady at hh
      have hsettle : ∀ st, cliSettle st ≠ .exit 0 := by
        intro st hh
        unfold cliSettle at hh
        extract_lets at hh
        repeat' split at hh
        all_goals cases hh
      repeat' split at hh
      all_goals first
        | (cases hh; done)
        | exact hsettle _ hh
    unfold cliMain at hx
    rw [g2] at hx
    simp only [g3, Bool.false_eq_true, if_false] at hx
    cases hc : cliReady table st with
    | val s => exact g4 s hc
    | exit s => rw [hc] at hx; cases hx; exact hready hc
    | ub => rw [hc] at hx; cases hx
    | running => rw [hc] at hx; cases hx
  · exact absurd g1 (hck opts h3 _ d)
  · exfalso
    have := cliLoop_flag true (fun s => s.disc) CliOpt.isDisc (step_disc true) opts _ _ g1
    rw [g2] at this
    have h5 : opts.any CliOpt.isDisc = false := by
      rw [List.any_eq_false]
      intro o ho
      cases o <;> simp [CliOpt.isDisc]
      exact h4 _ ho
    rw [h5] at this
    cases this
  · have ht := direct_told hD hl hd hr
    have hnet : st.netlink = true := ht.netlink.mpr ⟨rfl, hn⟩
    rw [g1] at hx ⊢
    rcases cliConnect_netlink os n st hnet with ⟨_, e2⟩ | ⟨log, r, e0, e2, e3, e4, e5⟩ | ⟨log, cur, e0, e2, e3⟩
    · rw [e2] at hx; cases hx
    · exfalso
      have := e5 0 hx
      subst this
      exact connectAll_netlink_exit os st hnet (by
        cases hli : st.list with
        | false => rfl
        | true => exact absurd (ht.list.mp hli) h5) hnego _ _ _ _ (by rw [e2])
    · rw [e3] at hx ⊢
      unfold netlinkMain at hx ⊢
      dsimp only at hx ⊢
      split at hx
      · cases hx
      · rename_i j hj
        exact ⟨_, _, _, _, _, _, _, List.mem_append.mpr (.inr (List.mem_singleton.mpr rfl))⟩

example : (∀ log, okOs.nego log ≠ .exits 0) := by intro log h; cases h

/-- Nothing but making connections, handing them over and locking memory. -/
theorem connecting_filter {more : List CliEv} (h : ∀ e ∈ more, Connecting e ∨ e = .sock ∨ e = .lock) :
    more.filter setsDevice = [] ∧ more.filter setsTimeout = [] ∧ .doIt ∉ more := by
  refine ⟨?_, ?_, ?_⟩
  · rw [List.filter_eq_nil_iff]
    intro e he hx
    rcases h e he with (hq | hq) | rfl | rfl
    · cases e <;> first | (cases hx; done) | exact hq
    · cases e <;> first | (cases hx; done) | (cases hq; done)
    · cases hx
    · cases hx
  · rw [List.filter_eq_nil_iff]
    intro e he hx
    rcases h e he with (hq | hq) | rfl | rfl
    · cases e <;> first | (cases hx; done) | exact hq
    · cases e <;> first | (cases hx; done) | (cases hq; done)
    · cases hx
    · cases hx
  · intro hx
    rcases h _ hx with (hq | hq) | hq | hq
    · exact hq
    · cases hq
    · cases hq
    · cases hq

theorem seek_filter {more : List CliEv} (h : ∀ e ∈ more, Seeks e) :
    more.filter setsDevice = [] ∧ more.filter setsTimeout = [] ∧ .doIt ∉ more ∧ more.countP (fun e => decide (e = .sock)) = 0 := by
  obtain ⟨h1, h2, h3⟩ := connecting_filter (more := more) (fun e he => .inl (.inl (h e he)))
  refine ⟨h1, h2, h3, ?_⟩
  rw [List.countP_eq_zero]
  intro e he hx
  simp only [decide_eq_true_eq] at hx
  subst hx
  exact h _ he

theorem attend_prefix (os : CliOs) (st : CliState) (n : Nat) (cur : Nat) (log : List CliEv) :
    ∃ m, (attend os st n cur log).1 = log ++ m ∧ (0 < n → ∃ m', m = .doIt :: m') := by
  induction n generalizing cur log with
  | zero => exact ⟨[], by simp [attend], by omega⟩
  | succ n ih =>
    unfold attend
    dsimp only
    split
    · exact ⟨[.doIt, .clearSock], by simp, fun _ => ⟨_, rfl⟩⟩
    · exact ⟨[.doIt, .clearSock], by simp, fun _ => ⟨_, rfl⟩⟩
    · split
      · split
        · exact ⟨[.doIt], rfl, fun _ => ⟨_, rfl⟩⟩
        obtain ⟨b, h1, h2, h3⟩ := again_ex os st (n + 1) cur (log ++ [.doIt])
        rcases ha : again os st (n + 1) cur (log ++ [.doIt]) with ⟨l1, r⟩
        rw [ha] at h1
        dsimp only at h1
        subst h1
        simp only [ha]
        cases r with
        | exit k => exact ⟨.doIt :: b, by simp, fun _ => ⟨_, rfl⟩⟩
        | ub => exact ⟨.doIt :: b, by simp, fun _ => ⟨_, rfl⟩⟩
        | running => exact ⟨.doIt :: b, by simp, fun _ => ⟨_, rfl⟩⟩
        | val s =>
          obtain ⟨m, g1, -⟩ := ih s (log ++ [.doIt] ++ b)
          exact ⟨.doIt :: (b ++ m), by rw [g1]; simp, fun _ => ⟨_, rfl⟩⟩
      · exact ⟨[.doIt, .clearSock], by simp, fun _ => ⟨_, rfl⟩⟩

/-- What a client with the ioctl interface has done by the time it begins to wait, in terms of its settings. -/
theorem ioctl_run (os : CliOs) (n : Nat) (st : CliState) (hnet : st.netlink = false) (hlist : st.list = false) {k b t : Nat}
    (hkk : st.cl.nconn = k) (hk0 : 0 < k) (hbs : st.cl.bs = b) (htm : st.cl.timeout = t) (hd : .doIt ∈ (cliConnect os n st []).1) :
    ∃ pre post, (cliConnect os n st []).1 = pre ++ .doIt :: post ∧ .doIt ∉ pre ∧ pre.countP opened = k ∧
      pre.countP negotiated = (if st.cl.preinit then 0 else k) ∧ (∀ e ∈ pre, negotiated e = true → e = st.negoEv) ∧
      pre.countP (fun e => decide (e = .sock)) = k ∧
      pre.filter setsTimeout = (if t = 0 then [] else [.timeout t]) ∧
      ∃ p s f d, pre.filter setsDevice = [.device d b] ∧ p <+: pre ∧ (st.cl.preinit = false → os.nego p = .ready s f) ∧
        setsizes os.W os.blkOk (st.adjust (s, f)).1 b (st.adjust (s, f)).2 = .val d := by
  obtain ⟨all, ha1, ha2⟩ := cliConnect_grows os n st []
  rw [List.nil_append] at ha1
  obtain ⟨log, cur, e1, e2⟩ := cliConnect_ioctl os n st hnet hlist hd
  obtain ⟨j, rfl⟩ : ∃ j, k = j + 1 := ⟨k - 1, by omega⟩
  rw [hkk] at e1
  have e1' : connectAll os st (j + 1) true (0, 0) [.openDev (st.dev.getD [])] = (log, .val cur) := e1
  obtain ⟨seek, nego, sf, d, more, q1, q2, q3, q4, q5, q6, q7, q8, q9, q10, q11, q12, q13⟩ :=
    connectAll_ioctl os st hnet j (0, 0) cur _ log e1'
  obtain ⟨s1, s2, s3, s4⟩ := seek_filter q1
  obtain ⟨r1, r2, r3⟩ := connecting_filter q9
  obtain ⟨m, g1, g2⟩ := attend_prefix os st n cur.1 (if st.nofork then log else log ++ [.daemon])
  have hn0 : 0 < n := by
    rcases n with _ | n
    · exfalso
      rw [e2] at hd
      simp only [attend] at hd
      have hno : .doIt ∉ log := by
        rw [q8, q4]
        intro hx
        simp only [List.mem_append, List.mem_singleton] at hx
        rcases hx with (((((hx | hx) | hx) | hx) | hx) | hx) | hx
        · cases hx
        · exact s3 hx
        · split at hx <;> simp [CliState.negoEv] at hx
        · cases hx
        · split at hx <;> simp at hx
        · split at hx <;> simp at hx
        · exact r3 hx
      split at hd
      · exact hno hd
      · rcases List.mem_append.mp hd with hd | hd
        · exact hno hd
        · simp at hd
    · omega
  obtain ⟨m', rfl⟩ := g2 hn0
  have hlog : log = [.openDev (st.dev.getD [])] ++ seek ++ (if st.cl.preinit then [] else [st.negoEv]) ++ [.device d b] ++
      (if t = 0 then [] else [.timeout t]) ++ (if st.cl.swap then [.sock, .lock] else [.sock]) ++ more := by
    rw [q8, q4, hbs, htm]
    simp
  obtain ⟨dm, hdm, hdm'⟩ : ∃ dm, (if st.nofork then log else log ++ [.daemon]) = log ++ dm ∧ (dm = [] ∨ dm = [.daemon]) := by
    cases st.nofork
    · exact ⟨[.daemon], rfl, .inr rfl⟩
    · exact ⟨[], by simp, .inl rfl⟩
  rw [hdm] at g1
  have hsub : ∀ e ∈ log ++ dm, st.Allows e := by
    intro e he
    refine ha2 e ?_
    rw [← ha1, e2, hdm, g1]
    exact List.mem_append_left _ he
  refine ⟨log ++ dm, m', by rw [e2, hdm, g1], ?_, ?_, ?_, ?_, ?_, ?_, ?_⟩
  · intro hx
    rcases List.mem_append.mp hx with hx | hx
    · rw [hlog] at hx
      simp only [List.mem_append, List.mem_singleton] at hx
      rcases hx with (((((hx | hx) | hx) | hx) | hx) | hx) | hx
      · cases hx
      · exact s3 hx
      · split at hx <;> simp [CliState.negoEv] at hx
      · cases hx
      · split at hx <;> simp at hx
      · split at hx <;> simp at hx
      · exact r3 hx
    · rcases hdm' with rfl | rfl <;> simp at hx
  · rw [hlog]
    simp only [List.countP_append, q2, q10]
    rcases hdm' with rfl | rfl <;> cases st.cl.preinit <;> cases st.cl.swap <;> by_cases h0 : t = 0 <;>
      simp [h0, opened, CliState.negoEv] <;> omega
  · rw [hlog]
    simp only [List.countP_append, q3, q11]
    rcases hdm' with rfl | rfl <;> cases st.cl.preinit <;> cases st.cl.swap <;> by_cases h0 : t = 0 <;>
      simp [h0, negotiated, CliState.negoEv] <;> omega
  · intro e he hq
    have hall := hsub e he
    cases e <;> try (cases hq; done)
    obtain ⟨x1, x2, x3, x4⟩ := hall
    subst x1 x2 x3 x4
    rfl
  · rw [hlog]
    simp only [List.countP_append, s4, q12]
    rcases hdm' with rfl | rfl <;> cases st.cl.preinit <;> cases st.cl.swap <;> by_cases h0 : t = 0 <;>
      simp [h0, CliState.negoEv] <;> omega
  · rw [hlog]
    simp only [List.filter_append, s2, r2]
    rcases hdm' with rfl | rfl <;> cases st.cl.preinit <;> cases st.cl.swap <;> by_cases h0 : t = 0 <;>
      simp [h0, setsTimeout, CliState.negoEv]
  · refine ⟨[.openDev (st.dev.getD [])] ++ seek ++ nego, sf.1, sf.2, d, ?_, ?_, ?_, ?_⟩
    · rw [hlog]
      simp only [List.filter_append, s1, r1]
      rcases hdm' with rfl | rfl <;> cases st.cl.preinit <;> cases st.cl.swap <;> by_cases h0 : t = 0 <;>
        simp [h0, setsDevice, CliState.negoEv]
    · rw [hlog, q4]
      simp only [List.append_assoc]
      exact ⟨_, by simp only [List.append_assoc]; rfl⟩
    · exact q6
    · rw [hbs] at q7
      exact q7

/-- C79 (part). Whatever the options, their order and the world: when a client that does not need the table begins to wait for the end of
the connection (and at least one connection was asked for), it has made as many connections as were asked for, with one negotiation each
(unless -P is given) for the name, and with TLS if and only if that was asked for; it has handed each of them to the kernel; it has set
the size of the device once, with the block size that was asked for, to what the first negotiation gave, or -B, and read-only with -R;
and the timeout once, if there is one. -/
theorem C79_ioctl_partial {nl : Bool} {os : CliOs} {table : Option (List Byte)} {n : Nat} {opts : List CliOpt} {h : List Byte}
    (hD : Direct opts h) (hl : .list ∉ opts) {k b t : Nat} (hk : Asked connectionsOf opts 1 k) (hk0 : 0 < k)
    (hb : Asked bsOf opts 512 b) (ht : Asked timeoutOf opts 0 t)
    (hd : .doIt ∈ (cliMain nl os table n opts).1) :
    ∃ pre post, (cliMain nl os table n opts).1 = pre ++ .doIt :: post ∧ .doIt ∉ pre ∧ pre.countP opened = k ∧
      pre.countP negotiated = (if .preinit ∈ opts then 0 else k) ∧ (∀ e ∈ pre, negotiated e = true → negoFor opts e) ∧
      pre.countP (fun e => decide (e = .sock)) = k ∧
      pre.filter setsTimeout = (if t = 0 then [] else [.timeout t]) ∧
      ∃ p s f d, pre.filter setsDevice = [.device d b] ∧ p <+: pre ∧ (.preinit ∉ opts → os.nego p = .ready s f) ∧
        (lastGiven forceSizeOf opts = none → setsizes os.W os.blkOk s b (if .readonly ∈ opts then f ||| 2 else f) = .val d) ∧
        (∀ x, 0 < x → AskedSize opts x → setsizes os.W os.blkOk x b (if .readonly ∈ opts then f ||| 2 else f) = .val d) := by
  obtain ⟨st, htold, ha, h1⟩ := direct_event hD hd id
  have hnet : st.netlink = false := ha
  have hlist : st.list = false := by
    cases hx : st.list with
    | false => rfl
    | true => exact absurd (htold.list.mp hx) hl
  have hbs : st.cl.bs = b := by
    have := htold.bs
    rwa [show (512 : Int) = ((512 : Nat) : Int) from rfl, asked_wrap hb] at this
  have htm : st.cl.timeout = t := by
    have := htold.timeout
    rwa [show (0 : Int) = ((0 : Nat) : Int) from rfl, asked_wrap ht] at this
  have hkk : st.cl.nconn = k := by
    have := htold.nconn
    rwa [show (1 : Int) = ((1 : Nat) : Int) from rfl, asked_wrap hk] at this
  have hpre : (if CliOpt.preinit ∈ opts then 0 else k) = (if st.cl.preinit then 0 else k) := by
    by_cases hp : CliOpt.preinit ∈ opts
    · rw [if_pos hp, if_pos (htold.preinit.mpr hp)]
    · rw [if_neg hp, if_neg (fun hx => hp (htold.preinit.mp hx))]
  rw [h1] at hd ⊢
  obtain ⟨pre, post, g1, g2, g3, g4, g5, g6, g7, p, s, f, d, g8, g9, g10, g11⟩ := ioctl_run os n st hnet hlist hkk hk0 hbs htm hd
  refine ⟨pre, post, g1, g2, g3, hpre ▸ g4, ?_, g6, g7, p, s, f, d, g8, g9, ?_, ?_, ?_⟩
  · intro e he hq
    rw [g5 e he hq]
    exact negoFor_of htold
  · intro hp
    refine g10 ?_
    cases hx : st.cl.preinit with
    | false => rfl
    | true => exact absurd (htold.preinit.mp hx) hp
  · intro hs
    obtain ⟨x1, x2, x3⟩ := adjust_eq htold s f
    rw [x1 hs] at g11
    by_cases hr : CliOpt.readonly ∈ opts
    · rw [x3 hr] at g11; rw [if_pos hr]; exact g11
    · rw [x2 hr] at g11; rw [if_neg hr]; exact g11
  · intro x hx0 hx
    obtain ⟨x1, x2, x3⟩ := adjust_eq htold s f
    rw [adjust_asked htold hx0 hx (s, f)] at g11
    by_cases hr : CliOpt.readonly ∈ opts
    · rw [x3 hr] at g11; rw [if_pos hr]; exact g11
    · rw [x2 hr] at g11; rw [if_neg hr]; exact g11

/-- -L -n -C 2 -t 5 -/
def ioctlOpts : List CliOpt := [.noNetlink, .nofork, .connections (ascii "2"), .timeout (ascii "5"), .name (ascii "disk"),
  .arg (ascii "server"), .arg (ascii "/dev/nbd0")]

example : (cliMain true okOs none 1 ioctlOpts) =
    ([.openDev (ascii "/dev/nbd0"), .lookup (ascii "server") (some (ascii "10809")), .connect 1 false, .connect 2 true,
      .nego (ascii "disk") false false false, .device ⟨1048576, 1, false⟩ 512, .timeout 5, .sock,
      .lookup (ascii "server") (some (ascii "10809")), .connect 1 false, .connect 2 true,
      .nego (ascii "disk") false false false, .sock, .doIt, .clearSock], .exit 0) := by decide +kernel

/-- C79 is false: with netlink -s has no effect. No run of such a client locks its memory, and it succeeds. -/
theorem C79_false_swap :
    (∀ (os : CliOs) (table : Option (List Byte)) (n : Nat) (opts : List CliOpt) (h : List Byte), Direct opts h → .noNetlink ∉ opts →
      .lock ∉ (cliMain true os table n opts).1) ∧
    ∃ (os : CliOs) (opts : List CliOpt), .swap ∈ opts ∧ .noNetlink ∉ opts ∧ (cliMain true os none 0 opts).2 = .exit 0 := by
  constructor
  · intro os table n opts h hD hn hm
    obtain ⟨st, ht, ha, -⟩ := direct_event hD hm id
    have hnet := ht.netlink.mpr ⟨rfl, hn⟩
    have : st.netlink = false := ha.1
    rw [hnet] at this
    cases this
  · exact ⟨okOs, .swap :: portOpts, by decide +kernel, by decide +kernel, by decide +kernel⟩

/-- A server whose export grows between two connections. -/
def growOs : CliOs := { okOs with nego := fun log => if 6 < log.length then .ready 2097152 1 else .ready 1048576 1 }

/-- C79 is false: the connections of one device can have exports of different sizes; nothing is compared, and the kernel is told the size
of the last. -/
theorem C79_false_sizes : ∃ (pre mid : List CliEv) (s : Nat) (fl : Nat),
    cliMain true growOs none 0 (.connections (ascii "2") :: portOpts) = (pre ++ mid ++ [.netlink (some 0) 2 s 512 fl 0 none], .exit 0) ∧
    growOs.nego pre = .ready 1048576 1 ∧ growOs.nego (pre ++ mid) = .ready 2097152 1 ∧ s = 2097152 := by
  refine ⟨[.lookup (ascii "server") (some (ascii "10809")), .connect 1 false, .connect 2 true, .nego (ascii "disk") false false false],
    [.lookup (ascii "server") (some (ascii "10809")), .connect 1 false, .connect 2 true, .nego (ascii "disk") false false false],
    2097152, 1, by decide +kernel, by decide +kernel, by decide +kernel, rfl⟩

/-! ### C80: -persist -/

theorem attend_once (os : CliOs) (st : CliState) (hc : st.cont = false) (n cur : Nat) (log : List CliEv) :
    (attend os st n cur log).1 = log ∨ (attend os st n cur log).1 = log ++ [.doIt, .clearSock] := by
  rcases n with _ | n
  · exact .inl rfl
  · right
    unfold attend
    dsimp only
    split
    · simp
    · simp
    · rw [hc]
      simp

theorem two_waits {log a b c : List CliEv} (hno : .doIt ∉ log) (h : log ++ [.doIt, .clearSock] = a ++ .doIt :: (b ++ .doIt :: c)) : False := by
  have h1 := congrArg (List.count .doIt) h
  simp only [List.count_append, List.count_cons, List.count_nil] at h1
  rw [List.count_eq_zero.mpr hno] at h1
  simp at h1
  omega

/-- C80 (part). Whatever the options, their order and the world: between two successive waits of a client that does not need the table, it
has done the following and nothing else: it tried to connect until that worked; opened the device; negotiated for the name, with TLS if
and only if that was asked for; got the same size as before (all along, it is one `size`); set the size and the timeout of the device; and
handed the connection to the kernel. And -p was given. -/
theorem C80_rejoin_partial {nl : Bool} {os : CliOs} {table : Option (List Byte)} {n : Nat} {opts : List CliOpt} {h : List Byte}
    (hD : Direct opts h) (hl : .list ∉ opts) {bs t : Nat} (hb : Asked bsOf opts 512 bs) (ht : Asked timeoutOf opts 0 t) :
    ∃ size, ∀ a b c, (cliMain nl os table n opts).1 = a ++ .doIt :: (b ++ .doIt :: c) → .doIt ∉ b →
      .persist ∈ opts ∧ ∃ seek f d nego dev, negoFor opts nego ∧ (∀ e ∈ seek, Seeks e ∨ e = .sleep) ∧ seek.countP opened = 1 ∧
        dev = (deviceOf (cliWords opts)).getD [] ∧
        os.nego (a ++ .doIt :: seek ++ [.openDev dev, nego]) = .ready size f ∧ setsizes os.W os.blkOk size bs f = .val d ∧
        b = seek ++ [.openDev dev, nego, .device d bs] ++ (if t = 0 then [] else [.timeout t]) ++
          (if .swap ∈ opts then [.sock, .lock] else [.sock]) := by
  by_cases hd : .doIt ∈ (cliMain nl os table n opts).1
  · obtain ⟨st, htold, ha, h1⟩ := direct_event hD hd id
    have hnet : st.netlink = false := ha
    have hlist : st.list = false := by
      cases hx : st.list with
      | false => rfl
      | true => exact absurd (htold.list.mp hx) hl
    have hbs : st.cl.bs = bs := by
      have := htold.bs
      rwa [show (512 : Int) = ((512 : Nat) : Int) from rfl, asked_wrap hb] at this
    have htm : st.cl.timeout = t := by
      have := htold.timeout
      rwa [show (0 : Int) = ((0 : Nat) : Int) from rfl, asked_wrap ht] at this
    rw [h1] at hd ⊢
    obtain ⟨log, cur, e1, e2⟩ := cliConnect_ioctl os n st hnet hlist hd
    obtain ⟨m, g1, g2⟩ := connectAll_nodo os st st.cl.nconn.toNat true (0, 0) [.openDev (st.dev.getD [])]
    rw [e1] at g1
    dsimp only at g1
    have hno : .doIt ∉ (if st.nofork then log else log ++ [.daemon]) := by
      have : .doIt ∉ log := by
        rw [g1]
        intro hx
        rcases List.mem_append.mp hx with hx | hx
        · simp at hx
        · exact g2 hx
      split
      · exact this
      · intro hx
        rcases List.mem_append.mp hx with hx | hx
        · exact this hx
        · simp at hx
    refine ⟨cur.1, ?_⟩
    intro a b c he hbn
    rw [e2] at he
    refine ⟨?_, ?_⟩
    · cases hc : st.cont with
      | true => exact htold.cont.mp hc
      | false =>
        exfalso
        rcases attend_once os st hc n cur.1 (if st.nofork then log else log ++ [.daemon]) with hx | hx
        · rw [hx] at he
          exact hno (by rw [he]; simp)
        · rw [hx] at he
          exact two_waits hno he
    · have hall := attend_rejoins os st n cur.1 (if st.nofork then log else log ++ [.daemon])
        (by intro a b c hx; exact absurd (by rw [hx]; simp) hno) (by intro a b hx; exact absurd (by rw [hx]; simp) hno)
      obtain ⟨seek, f, d, r1, r2, r3, r4, r5⟩ := hall a b c he hbn
      refine ⟨seek, f, d, st.negoEv, st.dev.getD [], negoFor_of htold, r1, r2, by rw [htold.dev hl], ?_, ?_, ?_⟩
      · rw [← r3]
        simp
      · rw [← hbs]; exact r4
      · rw [r5, hbs, htm]
        have : (if st.cl.swap = true then [CliEv.sock, CliEv.lock] else [CliEv.sock]) =
            (if CliOpt.swap ∈ opts then [CliEv.sock, CliEv.lock] else [CliEv.sock]) := by
          by_cases hs : CliOpt.swap ∈ opts
          · rw [if_pos hs, if_pos (htold.swap.mpr hs)]
          · rw [if_neg hs, if_neg (fun hx => hs (htold.swap.mp hx))]
        rw [this]
        simp
  · exact ⟨0, fun a b c he _ => absurd (by rw [he]; simp) hd⟩

theorem setUp_steady (os : CliOs) {size flags bs : Nat} (hS : Steady os size flags bs) (c : TabClient) (hbs : c.bs = bs) (log : List CliEv) :
    ∃ l, setUp os c size flags log = (l, .val ()) := by
  obtain ⟨d, hd⟩ := hS.sizes
  unfold setUp setDevice
  rw [hbs, hd]
  dsimp only
  unfold setTimeout finishSock
  by_cases h0 : c.timeout = 0
  · simp only [if_pos h0, hS.socks]
    exact ⟨_, rfl⟩
  · simp only [if_neg h0, hS.timeouts, hS.socks, Bool.not_true, Bool.false_eq_true, if_false]
    exact ⟨_, rfl⟩

theorem again_steady (os : CliOs) {size flags bs : Nat} (hS : Steady os size flags bs) (st : CliState) (hbs : st.cl.bs = bs) (hli : st.list = false) (n : Nat)
    (log : List CliEv) : (again os st n size log).2 = .val size ∨ (again os st n size log).2 = .running := by
  obtain ⟨seek, -, -, h3⟩ := retry_ex os st.cl n log
  unfold again
  rcases hr : retry os st.cl n log with ⟨l1, r⟩
  rw [hr] at h3
  rcases h3 with ⟨e, -⟩ | e
  · dsimp only at e
    subst e
    simp only [hS.opens, Bool.not_true, Bool.false_eq_true, if_false]
    unfold negoWith
    simp only [hS.nego, hli, Bool.false_eq_true, if_false]
    obtain ⟨l, hl⟩ := setUp_steady os hS st.cl hbs
      (l1 ++ [CliEv.openDev (st.dev.getD [])] ++ [CliEv.nego (st.cl.name.getD []) st.cl.tls st.cl.noOptgo false])
    simp only [hl, ne_eq, not_true, if_false]
    exact .inl trivial
  · dsimp only at e
    subst e
    exact .inr rfl

theorem attend_steady (os : CliOs) {size flags bs : Nat} (hS : Steady os size flags bs) (st : CliState) (hbs : st.cl.bs = bs)
    (hc : st.cont = true) (hli : st.list = false) (hk : 0 < st.cl.nconn) (n : Nat) : ∀ log, (attend os st n size log).2 = .running := by
  induction n with
  | zero => intro log; rfl
  | succ n ih =>
    intro log
    unfold attend
    simp only [hS.lost, hc, if_true, if_neg (by omega : ¬ st.cl.nconn ≤ 0)]
    rcases ha : again os st (n + 1) size (log ++ [.doIt]) with ⟨l1, r⟩
    have := again_steady os hS st hbs hli (n + 1) (log ++ [.doIt])
    rw [ha] at this
    rcases this with e | e <;> dsimp only at e <;> subst e <;> simp only [ha]
    exact ih l1

/-- C80 (part). A client with -p, one connection and neither -B nor -P, that has begun to wait: as long as the kernel accepts what it is
told and the export stays as it is, the client does not end, however often the connection gets lost and however many attempts to connect
fail. -/
theorem C80_steady_partial {nl : Bool} {os : CliOs} {table : Option (List Byte)} {n : Nat} {opts : List CliOpt} {h : List Byte}
    (hD : Direct opts h) (hl : .list ∉ opts) {size flags bs : Nat} (hb : Asked bsOf opts 512 bs) (hk : Asked connectionsOf opts 1 1)
    (hS : Steady os size flags bs) (hp : .persist ∈ opts) (hB : lastGiven forceSizeOf opts = none) (hP : .preinit ∉ opts)
    (hd : .doIt ∈ (cliMain nl os table n opts).1) : (cliMain nl os table n opts).2 = .running := by
  obtain ⟨st, htold, ha, h1⟩ := direct_event hD hd id
  have hnet : st.netlink = false := ha
  have hlist : st.list = false := by
    cases hx : st.list with
    | false => rfl
    | true => exact absurd (htold.list.mp hx) hl
  have hbs : st.cl.bs = bs := by
    have := htold.bs
    rwa [show (512 : Int) = ((512 : Nat) : Int) from rfl, asked_wrap hb] at this
  have hkk : st.cl.nconn = (1 : Nat) := by
    have := htold.nconn
    rwa [show (1 : Int) = ((1 : Nat) : Int) from rfl, asked_wrap hk] at this
  have hpre : st.cl.preinit = false := by
    cases hx : st.cl.preinit with
    | false => rfl
    | true => exact absurd (htold.preinit.mp hx) hP
  rw [h1] at hd ⊢
  obtain ⟨log, cur, e1, e2⟩ := cliConnect_ioctl os n st hnet hlist hd
  rw [hkk] at e1
  have e1' : connectAll os st (0 + 1) true (0, 0) [.openDev (st.dev.getD [])] = (log, .val cur) := e1
  obtain ⟨seek, nego, sf, d, more, q1, q2, q3, q4, q5, q6, q7, q8, q9, q10, q11, q12, q13⟩ :=
    connectAll_ioctl os st hnet 0 (0, 0) cur _ log e1'
  have h6 := q6 hpre
  rw [hS.nego] at h6
  simp only [NegoEnd.ready.injEq] at h6
  have hcur : cur.1 = size := by
    rw [q13 rfl, show sf = (sf.1, sf.2) from rfl, (adjust_eq htold sf.1 sf.2).1 hB]
    exact h6.1.symm
  rw [e2, hcur]
  exact attend_steady os hS st hbs (htold.cont.mpr hp) hlist (by omega) n _

/-- -L -n -p -/
def keepOpts : List CliOpt := [.noNetlink, .nofork, .persist, .name (ascii "disk"), .arg (ascii "server"), .arg (ascii "/dev/nbd0")]

example : Direct keepOpts (ascii "server") := by
  refine ⟨by decide +kernel, .inl ⟨by decide +kernel, by decide +kernel⟩⟩

example : Steady okOs 1048576 1 512 :=
  ⟨fun _ => rfl, fun _ => rfl, fun _ => rfl, fun _ => rfl, fun _ => rfl, ⟨1048576, 1, false⟩, by decide +kernel⟩

example : Asked bsOf keepOpts 512 512 ∧ Asked connectionsOf keepOpts 1 1 ∧ Asked timeoutOf keepOpts 0 0 := ⟨rfl, rfl, rfl⟩

/-- Two waits, and what comes between them. -/
example : (cliMain true okOs none 2 keepOpts) =
    ([.openDev (ascii "/dev/nbd0"), .lookup (ascii "server") (some (ascii "10809")), .connect 1 false, .connect 2 true,
      .nego (ascii "disk") false false false, .device ⟨1048576, 1, false⟩ 512, .sock, .doIt,
      .lookup (ascii "server") (some (ascii "10809")), .connect 1 false, .connect 2 true, .openDev (ascii "/dev/nbd0"),
      .nego (ascii "disk") false false false, .device ⟨1048576, 1, false⟩ 512, .sock, .doIt,
      .lookup (ascii "server") (some (ascii "10809")), .connect 1 false, .connect 2 true, .openDev (ascii "/dev/nbd0"),
      .nego (ascii "disk") false false false, .device ⟨1048576, 1, false⟩ 512, .sock], .running) := by decide +kernel

/-- C80 is false: with netlink -p has no effect. No run of such a client waits for the end of a connection, and once it has told the kernel
it has ended. -/
theorem C80_false_netlink :
    (∀ (os : CliOs) (table : Option (List Byte)) (n : Nat) (opts : List CliOpt) (h : List Byte), Direct opts h → .noNetlink ∉ opts →
      .doIt ∉ (cliMain true os table n opts).1) ∧
    ∃ (os : CliOs) (opts : List CliOpt), .persist ∈ opts ∧ .noNetlink ∉ opts ∧ ∀ n, (cliMain true os none n opts).2 = .exit 0 := by
  constructor
  · intro os table n opts h hD hn hm
    obtain ⟨st, ht, ha, -⟩ := direct_event hD hm id
    have hnet := ht.netlink.mpr ⟨rfl, hn⟩
    have : st.netlink = false := ha
    rw [hnet] at this
    cases this
  · exact ⟨okOs, .persist :: portOpts, by decide +kernel, by decide +kernel, fun n => rfl⟩

/-- C80 is false: `persist` in the table has no effect. The client ends when the connection is lost. -/
theorem C80_false_table : ∃ log, cliMain true okOs (some (ascii "nbd0 server disk persist\n")) 5
    [.noNetlink, .nofork, .arg (ascii "nbd0")] = (log ++ [.doIt, .clearSock], .exit 0) ∧ .doIt ∉ log := by
  refine ⟨[.openDev (ascii "nbd0"), .lookup (ascii "server") (some (ascii "10809")), .connect 1 false, .connect 2 true,
      .nego (ascii "disk") false false false, .device ⟨1048576, 1, false⟩ 512, .sock], ?_, ?_⟩ <;> decide +kernel

/-- C80 is false: of several connections only one is made again. -/
theorem C80_false_connections : ∃ pre post, cliMain true okOs none 2 (.connections (ascii "3") :: keepOpts) =
      (pre ++ .doIt :: (post ++ .doIt :: post), .running) ∧ pre.countP (fun e => decide (e = .sock)) = 3 ∧
      post.countP (fun e => decide (e = .sock)) = 1 := by
  let one : List CliEv := [.lookup (ascii "server") (some (ascii "10809")), .connect 1 false, .connect 2 true]
  refine ⟨.openDev (ascii "/dev/nbd0") :: one ++ [.nego (ascii "disk") false false false, .device ⟨1048576, 1, false⟩ 512, .sock] ++
    one ++ [.nego (ascii "disk") false false false, .sock] ++ one ++ [.nego (ascii "disk") false false false, .sock],
    one ++ [.openDev (ascii "/dev/nbd0"), .nego (ascii "disk") false false false, .device ⟨1048576, 1, false⟩ 512, .sock], ?_, ?_, ?_⟩ <;>
  decide +kernel

/-- C80 is false: with -B the client ends the first time the connection is lost, if the size is not that of the export. -/
theorem C80_false_size : ∃ log, cliMain true okOs none 5 (.size (ascii "524288") :: keepOpts) = (log, .exit 1) ∧
    log.countP (fun e => decide (e = .doIt)) = 1 ∧ .device ⟨524288, 1, false⟩ 512 ∈ log := by
  refine ⟨(cliMain true okOs none 5 (.size (ascii "524288") :: keepOpts)).1, ?_, ?_, ?_⟩ <;> decide +kernel

/-- A server that refuses once, after the connection got lost. -/
def refuseOs : CliOs := { okOs with nego := fun log => if .doIt ∈ log then .exits 1 else .ready 1048576 1 }

/-- C80 is false: the client ends when the server refuses the negotiation after the connection was lost (for instance while it is being
restarted with another configuration); only failing to connect is tried again. -/
theorem C80_false_refused : ∃ log, cliMain true refuseOs none 5 keepOpts = (log, .exit 1) ∧
    log.countP (fun e => decide (e = .doIt)) = 1 := by
  refine ⟨(cliMain true refuseOs none 5 keepOpts).1, ?_, ?_⟩ <;> decide +kernel

/-- C80 is false: a client that must not negotiate (-P) does so when it reconnects. -/
theorem C80_false_preinit : ∃ pre post, cliMain true okOs none 1 (.preinit :: .size (ascii "1048576") :: keepOpts) =
      (pre ++ .doIt :: post, .running) ∧ pre.countP negotiated = 0 ∧ post.countP negotiated = 1 := by
  let one : List CliEv := [.lookup (ascii "server") (some (ascii "10809")), .connect 1 false, .connect 2 true]
  refine ⟨.openDev (ascii "/dev/nbd0") :: one ++ [.device ⟨1048576, 0, false⟩ 512, .sock],
    one ++ [.openDev (ascii "/dev/nbd0"), .nego (ascii "disk") false false false, .device ⟨1048576, 1, false⟩ 512, .sock], ?_, ?_, ?_⟩ <;>
  decide +kernel

/-! ### C81: -check and -disconnect -/

theorem takeWhile_name {b r : List Byte} (hb : ∀ c ∈ b, c ≠ 112) (hr : r = [] ∨ r.head? = some 112) :
    (b ++ r).takeWhile (fun c => decide (c ≠ 112)) = b := by
  rw [List.takeWhile_append_of_pos (by intro c hc; simpa using hb c hc)]
  rcases hr with rfl | hr
  · simp
  · cases r with
    | nil => simp
    | cons x xs =>
      simp only [List.head?_cons, Option.some.injEq] at hr
      subst hr
      simp

theorem afterSlash {p r : List Byte} (hr : (47 : Byte) ∉ r) :
    ((p ++ 47 :: r).reverse.takeWhile (fun c => decide (c ≠ 47))).reverse = r := by
  have h1 : (p ++ 47 :: r).reverse = r.reverse ++ 47 :: p.reverse := by simp
  rw [h1, List.takeWhile_append_of_pos]
  · simp
  · intro c hc
    simp only [decide_eq_true_eq]
    rintro rfl
    exact hr (by simpa using hc)

/-- C81 (-c). `nbd-client -c dev`, where `dev` is the name of a block device, or of a partition of it, with or without a directory: the
client looks at that device only. If it is connected, the client prints what the kernel says (the process) and succeeds; if it is not, or
there is none, it ends with 1, and if that cannot be found out, with 2; then it prints nothing. Whatever other options follow. -/
theorem C81_check {nl : Bool} {os : CliOs} {table : Option (List Byte)} {n : Nat} {rest : List CliOpt} {name dir part : List Byte}
    (hname : ∀ c ∈ name, c ≠ 112 ∧ c ≠ 47) (hdir : dir = [] ∨ ∃ p, dir = p ++ [47]) (hpart : part = [] ∨ part.head? = some 112)
    (hpart' : (47 : Byte) ∉ part) (hlen : name.length ≤ 240) :
    cliMain nl os table n (.check (dir ++ name ++ part) :: rest) =
      match os.sys (ascii "/sys/block/" ++ name ++ ascii "/pid") with
      | .text bs => ([.print (cstr (bs.take 255) ++ [10])], .exit 0)
      | .absent => ([], .exit 1)
      | _ => ([], .exit 2) := by
  have hnp : (47 : Byte) ∉ name ++ part := by
    intro hx
    rcases List.mem_append.mp hx with hx | hx
    · exact (hname _ hx).2 rfl
    · exact hpart' hx
  have hb : blockName (dir ++ name ++ part) = name := by
    unfold blockName
    rw [List.append_assoc]
    rcases hdir with rfl | ⟨p, rfl⟩
    · rw [List.nil_append, if_neg hnp]
      exact takeWhile_name (fun c hc => (hname c hc).1) hpart
    · rw [if_pos (by simp), List.append_assoc, List.singleton_append, afterSlash hnp]
      exact takeWhile_name (fun c hc => (hname c hc).1) hpart
  have htake : (ascii "/sys/block/" ++ name ++ ascii "/pid").take 255 = ascii "/sys/block/" ++ name ++ ascii "/pid" := by
    apply List.take_of_length_le
    have h1 : (ascii "/sys/block/").length = 11 := rfl
    have h2 : (ascii "/pid").length = 4 := rfl
    simp only [List.length_append, h1, h2]
    omega
  have : cliMain nl os table n (.check (dir ++ name ++ part) :: rest) = checkConn os (dir ++ name ++ part) [] := rfl
  rw [this]
  unfold checkConn
  rw [hb, htake]
  cases os.sys (ascii "/sys/block/" ++ name ++ ascii "/pid") <;> rfl

example : (∀ c ∈ ascii "nbd0", c ≠ 112 ∧ c ≠ 47) ∧ ascii "/dev/nbd0p1" = ascii "/dev/" ++ ascii "nbd0" ++ ascii "p1" := by decide +kernel

/-- C81 (-d). `nbd-client -d /dev/nbdN` (with netlink) tells the kernel to disconnect device `N`, and nothing else, and succeeds exactly if
the kernel does. -/
theorem C81_disconnect_netlink {os : CliOs} {table : Option (List Byte)} {n : Nat} {ds : List Byte} {x : Nat} (h : Decimal ds x)
    (hx : x < 2 ^ 31) : cliMain true os table n [.disconnect (ascii "/dev/nbd" ++ ds)] =
      ([.netlinkDisc x], .exit (if os.discOk [.netlinkDisc x] then 0 else 1)) := by
  have : cliMain true os table n [.disconnect (ascii "/dev/nbd" ++ ds)] = cliDisconnect os true (ascii "/dev/nbd" ++ ds) [] := rfl
  rw [this]
  unfold cliDisconnect
  rw [if_pos rfl, netlinkIndex_decimal h hx]
  dsimp only
  rw [if_neg (by omega)]
  simp

example : Decimal (ascii "15") 15 := ⟨by decide +kernel, by decide +kernel, by decide +kernel⟩

/-- C81 (-d). Without netlink: the device is opened and disconnected, and no other; the client succeeds exactly if all that worked. -/
theorem C81_disconnect_ioctl {os : CliOs} {table : Option (List Byte)} {n : Nat} {dev : List Byte} :
    (∀ e ∈ (cliMain true os table n [.noNetlink, .disconnect dev]).1, e = .openDev dev ∨ e = .ioctlDisc dev ∨ e = .clearSock) ∧
    ((cliMain true os table n [.noNetlink, .disconnect dev]).2 = .exit 0 ↔
      os.openOk [] = true ∧ os.discOk [.openDev dev, .ioctlDisc dev] = true ∧
        os.discOk [.openDev dev, .ioctlDisc dev, .clearSock] = true) ∧
    ((cliMain true os table n [.noNetlink, .disconnect dev]).2 = .exit 0 → .ioctlDisc dev ∈ (cliMain true os table n
      [.noNetlink, .disconnect dev]).1) := by
  have : cliMain true os table n [.noNetlink, .disconnect dev] = cliDisconnect os false dev [] := rfl
  rw [this]
  unfold cliDisconnect
  simp only [Bool.false_eq_true, if_false, List.nil_append]
  cases h1 : os.openOk [] <;> simp only [Bool.not_true, Bool.not_false, if_true, Bool.false_eq_true, if_false]
  · simp
  · cases h2 : os.discOk [.openDev dev, .ioctlDisc dev] <;> simp only [Bool.not_true, Bool.not_false, if_true, Bool.false_eq_true, if_false]
    · simp
    · by_cases h3 : os.discOk [.openDev dev, .ioctlDisc dev, .clearSock] = true <;> simp [h3]

/-- C81 (-d). Any other way to write the device is refused with netlink, before the kernel is told anything. -/
theorem C81_disconnect_refused {os : CliOs} {table : Option (List Byte)} {n : Nat} {dev : List Byte}
    (h : ¬ ascii "/dev/nbd" <+: dev) : cliMain true os table n [.disconnect dev] = ([], .exit 1) := by
  have : cliMain true os table n [.disconnect dev] = cliDisconnect os true dev [] := rfl
  rw [this]
  unfold cliDisconnect netlinkIndex
  have : netlinkDevOk dev = false := by
    unfold netlinkDevOk
    rw [Bool.and_eq_false_iff]
    left
    cases hx : (ascii "/dev/nbd").isPrefixOf dev with
    | false => rfl
    | true => exact absurd (List.isPrefixOf_iff_prefix.mp hx) h
  rw [this]
  rfl

example : ¬ ascii "/dev/nbd" <+: ascii "nbd0" := by decide +kernel

/-! ### C82: TLS -/

/-- C82 (part). Whatever the options, their order and the world: if any of -x, -F, -K, -A and -H is given to a client that does not need
the table, each negotiation in each run, also after a lost connection, is one with TLS; and no connection is made that is not negotiated.
If none is given, none is with TLS. -/
theorem C82_tls_partial {nl : Bool} {os : CliOs} {table : Option (List Byte)} {n : Nat} {opts : List CliOpt} {h : List Byte}
    (hD : Direct opts h) :
    (∀ name t g l, .nego name t g l ∈ (cliMain nl os table n opts).1 → (t = true ↔ ∃ o ∈ opts, AsksTls o)) ∧
    ((∃ o ∈ opts, AsksTls o) → .preinit ∈ opts → ∀ e ∈ (cliMain nl os table n opts).1, ¬ Seeks e ∧ e ≠ .sock) := by
  constructor
  · intro name t g l he
    obtain ⟨st, ht, ha, -⟩ := direct_event hD he id
    obtain ⟨-, h2, -, -⟩ := ha
    rw [h2]
    exact ht.tls
  · intro ho hp e he
    have key : ¬ Aside e → False := by
      intro hna
      obtain ⟨st, ht, ha, -⟩ := direct_event hD he hna
      have h1 := (ht.preinit_tls (ht.preinit.mpr hp)).1
      rw [ht.tls.mpr ho] at h1
      cases h1
    constructor
    · intro hs
      apply key
      cases e <;> first | exact id | exact hs.elim
    · rintro rfl
      exact key id

example : .nego (ascii "disk") true false false ∈ (cliMain true okOs none 0 (.cacert (ascii "ca.pem") :: portOpts)).1 := by decide +kernel

/-- C82 is false: if the table has a line for another device before the one that is used, TLS asked for on the command line is forgotten.
The client negotiates without it, and goes on. -/
theorem C82_false_table : ∃ log, cliMain true okOs (some (ascii "nbd0 other x\nnbd1 server disk\n")) 1
      [.noNetlink, .nofork, .tls, .cacert (ascii "ca.pem"), .arg (ascii "nbd1")] = (log ++ [.sock, .doIt, .clearSock], .exit 0) ∧
    .nego (ascii "disk") false false false ∈ log ∧ (∀ name g l, .nego name true g l ∉ log) := by
  refine ⟨[.openDev (ascii "nbd1"), .lookup (ascii "server") none, .connect 1 false, .connect 2 true,
      .nego (ascii "disk") false false false, .device ⟨1048576, 1, false⟩ 512], by decide +kernel, by decide +kernel, ?_⟩
  intro name g l
  simp

end Props

end Nbd
