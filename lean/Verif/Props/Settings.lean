import Verif.Props.Names
import Verif.Props.Parent
/-!
# The settings of the server

C104 (what the [generic] section says is what the server runs with), C62 (a server without exports does not run), C63 (a file name that is not
absolute; numbers in octal and hexadecimal), C70 (no command, nothing is run).
-/

set_option autoImplicit false

namespace Nbd.Spec

/-- A text setting: the value in the file, or what was there before. A faulty value is not accepted. -/
def TextSetting (v : KVal (List Byte)) (before after : Option (List Byte)) : Prop :=
  match v with
  | .ok t => after = some t
  | .missing => after = before
  | .bad => False

/-- A number. -/
def IntSetting (v : KVal Int) (before after : Int) : Prop :=
  match v with
  | .ok n => after = n
  | .missing => after = before
  | .bad => False

/-- A switch. -/
def SwitchSetting (v : KVal Bool) (before after : Bool) : Prop :=
  match v with
  | .ok b => after = b
  | .missing => after = before
  | .bad => False

/-- The value of one digit in a base up to sixteen, in either case. -/
inductive Digit : Byte → Nat → Prop where
  | dec (n : Nat) (h : n < 10) : Digit (UInt8.ofNat (48 + n)) n
  | lower (n : Nat) (h : n < 6) : Digit (UInt8.ofNat (97 + n)) (10 + n)
  | upper (n : Nat) (h : n < 6) : Digit (UInt8.ofNat (65 + n)) (10 + n)

/-- A number in a base: its digits, most significant first. -/
inductive WrittenIn (base : Nat) : List Byte → Nat → Prop where
  | nil : WrittenIn base [] 0
  | snoc (ds : List Byte) (n : Nat) (d : Byte) (v : Nat) (h : WrittenIn base ds n) (hd : Digit d v) (hv : v < base) :
      WrittenIn base (ds ++ [d]) (n * base + v)

/-- A number as C writes it: decimal, octal with a leading `0`, or hexadecimal with a leading `0x` or `0X`. -/
inductive CNumber : List Byte → Nat → Prop where
  | dec (d : Byte) (ds : List Byte) (n : Nat) (h : WrittenIn 10 (d :: ds) n) (h0 : d ≠ 48) : CNumber (d :: ds) n
  | oct (ds : List Byte) (n : Nat) (h : WrittenIn 8 ds n) : CNumber (48 :: ds) n
  | hex (x d : Byte) (ds : List Byte) (n : Nat) (hx : x = 120 ∨ x = 88) (h : WrittenIn 16 (d :: ds) n) : CNumber (48 :: x :: d :: ds) n

end Nbd.Spec

namespace Nbd.Props

open Nbd Nbd.Spec

/-! ### The [generic] section -/

/-- The field of a setting. -/
def fieldOf : GField → GState → Option (List Byte)
  | .user, st => st.c.user
  | .group, st => st.c.group
  | .modernaddr, st => st.c.modernaddr
  | .modernport, st => st.c.modernport
  | .includedir, st => st.cfdir
  | .unixsock, st => st.c.unixsock
  | .certfile, st => st.c.certfile
  | .keyfile, st => st.c.keyfile
  | .cacertfile, st => st.c.cacertfile
  | .tlsprio, st => st.c.tlsprio

theorem fieldOf_set (f f' : GField) (st : GState) (v : List Byte) :
    fieldOf f (setGField st f' v) = if f' = f then some v else fieldOf f st := by
  cases f <;> cases f' <;> rfl

/-- A step of the table leaves everything else alone. -/
theorem stepG_field {g : KGroup} {st st' : GState} {p : GParam} (h : stepGParam g st p = some st') (f : GField) :
    (∀ k, p ≠ .str k f) → fieldOf f st' = fieldOf f st := by
  intro hp
  cases p with
  | str k f' =>
    have hne : f' ≠ f := by rintro rfl; exact hp k rfl
    cases hv : g.str k with
    | ok v => simp only [stepGParam, hv, Option.some.injEq] at h; rw [← h, fieldOf_set, if_neg hne]
    | missing => simp only [stepGParam, hv, Option.some.injEq] at h; rw [h]
    | bad => simp [stepGParam, hv] at h
  | threads k =>
    cases hv : g.int k with
    | ok v => simp only [stepGParam, hv, Option.some.injEq] at h; subst h; cases f <;> rfl
    | missing => simp only [stepGParam, hv, Option.some.injEq] at h; rw [h]
    | bad => simp [stepGParam, hv] at h
  | bool k fl =>
    cases hv : g.bool k with
    | ok v => simp only [stepGParam, hv, Option.some.injEq] at h; subst h; cases f <;> rfl
    | missing => simp only [stepGParam, hv, Option.some.injEq] at h; rw [h]
    | bad => simp [stepGParam, hv] at h

theorem stepG_flags {g : KGroup} {st st' : GState} {p : GParam} (h : stepGParam g st p = some st') (i : Nat)
    (hp : ∀ k fl, p = .bool k fl → ∃ j, j ≠ i ∧ fl = 2 ^ j) : st'.c.flags.testBit i = st.c.flags.testBit i := by
  cases p with
  | str k f' =>
    cases hv : g.str k with
    | ok v => simp only [stepGParam, hv, Option.some.injEq] at h; subst h; cases f' <;> rfl
    | missing => simp only [stepGParam, hv, Option.some.injEq] at h; rw [h]
    | bad => simp [stepGParam, hv] at h
  | threads k =>
    cases hv : g.int k with
    | ok v => simp only [stepGParam, hv, Option.some.injEq] at h; subst h; rfl
    | missing => simp only [stepGParam, hv, Option.some.injEq] at h; rw [h]
    | bad => simp [stepGParam, hv] at h
  | bool k fl =>
    cases hv : g.bool k with
    | ok v =>
      simp only [stepGParam, hv, Option.some.injEq] at h
      obtain ⟨j, hj, rfl⟩ := hp k fl rfl
      subst h
      show (putFlag st.c.flags (2 ^ j) v).testBit i = _
      rw [putFlag_testBit, if_neg (fun e => hj e.symm)]
    | missing => simp only [stepGParam, hv, Option.some.injEq] at h; rw [h]
    | bad => simp [stepGParam, hv] at h

theorem stepG_threads {g : KGroup} {st st' : GState} {p : GParam} (h : stepGParam g st p = some st')
    (hp : ∀ k, p ≠ .threads k) : st'.c.threads = st.c.threads := by
  cases p with
  | str k f' =>
    cases hv : g.str k with
    | ok v => simp only [stepGParam, hv, Option.some.injEq] at h; subst h; cases f' <;> rfl
    | missing => simp only [stepGParam, hv, Option.some.injEq] at h; rw [h]
    | bad => simp [stepGParam, hv] at h
  | threads k => exact absurd rfl (hp k)
  | bool k fl =>
    cases hv : g.bool k with
    | ok v => simp only [stepGParam, hv, Option.some.injEq] at h; subst h; rfl
    | missing => simp only [stepGParam, hv, Option.some.injEq] at h; rw [h]
    | bad => simp [stepGParam, hv] at h

theorem runG_split {g : KGroup} {ps : List GParam} {p : GParam} : ∀ {qs : List GParam} {st st' : GState},
    runGParams g (qs ++ p :: ps) st = some st' →
    ∃ st1 st2, runGParams g qs st = some st1 ∧ stepGParam g st1 p = some st2 ∧ runGParams g ps st2 = some st' := by
  intro qs
  induction qs with
  | nil =>
    intro st st' h
    simp only [List.nil_append, runGParams] at h
    cases hs : stepGParam g st p with
    | none => simp [hs] at h
    | some st2 => rw [hs] at h; exact ⟨st, st2, rfl, hs, h⟩
  | cons q qs ih =>
    intro st st' h
    simp only [List.cons_append, runGParams] at h ⊢
    cases hs : stepGParam g st q with
    | none => simp [hs] at h
    | some st2 => rw [hs] at h; simp only []; exact ih h

theorem runG_keep {α : Type} (get : GState → α) {g : KGroup} {ps : List GParam}
    (hp : ∀ p ∈ ps, ∀ st st', stepGParam g st p = some st' → get st' = get st) :
    ∀ {st st' : GState}, runGParams g ps st = some st' → get st' = get st := by
  induction ps with
  | nil => intro st st' h; simp only [runGParams, Option.some.injEq] at h; rw [h]
  | cons p ps ih =>
    intro st st' h
    simp only [runGParams] at h
    cases hs : stepGParam g st p with
    | none => simp [hs] at h
    | some st2 =>
      rw [hs] at h
      rw [ih (fun q hq => hp q (by simp [hq])) h, hp p (by simp) st st2 hs]

theorem gp_text {g : KGroup} {st st' : GState} (h : runGParams g gp st = some st') (qs ps : List GParam) (k : List Byte) (f : GField)
    (hg : gp = qs ++ .str k f :: ps) (hq : ∀ p ∈ qs ++ ps, ∀ k, p ≠ .str k f) :
    TextSetting (g.str k) (fieldOf f st) (fieldOf f st') := by
  rw [hg] at h
  obtain ⟨st1, st2, h1, h2, h3⟩ := runG_split h
  have e1 := runG_keep (fieldOf f) (fun p hp _ _ hs => stepG_field hs f (hq p (by simp [hp]))) h1
  have e3 := runG_keep (fieldOf f) (fun p hp _ _ hs => stepG_field hs f (hq p (by simp [hp]))) h3
  rw [e3, ← e1]
  unfold TextSetting
  cases hv : g.str k with
  | ok v => simp only [stepGParam, hv, Option.some.injEq] at h2; rw [← h2, fieldOf_set, if_pos rfl]
  | missing => simp only [stepGParam, hv, Option.some.injEq] at h2; rw [h2]
  | bad => simp [stepGParam, hv] at h2

theorem gp_switch {g : KGroup} {st st' : GState} (h : runGParams g gp st = some st') (qs ps : List GParam) (k : List Byte) (i : Nat)
    (hg : gp = qs ++ .bool k (2 ^ i) :: ps) (hq : ∀ p ∈ qs ++ ps, ∀ k fl, p = .bool k fl → ∃ j, j ≠ i ∧ fl = 2 ^ j) :
    SwitchSetting (g.bool k) (has st.c.flags (2 ^ i)) (has st'.c.flags (2 ^ i)) := by
  rw [hg] at h
  obtain ⟨st1, st2, h1, h2, h3⟩ := runG_split h
  have e1 := runG_keep (fun s => s.c.flags.testBit i) (fun p hp _ _ hs => stepG_flags hs i (hq p (by simp [hp]))) h1
  have e3 := runG_keep (fun s => s.c.flags.testBit i) (fun p hp _ _ hs => stepG_flags hs i (hq p (by simp [hp]))) h3
  rw [has_two_pow, has_two_pow, e3, ← e1]
  unfold SwitchSetting
  cases hv : g.bool k with
  | ok v =>
    simp only [stepGParam, hv, Option.some.injEq] at h2
    subst h2
    show (putFlag st1.c.flags (2 ^ i) v).testBit i = v
    rw [putFlag_testBit, if_pos rfl]
  | missing => simp only [stepGParam, hv, Option.some.injEq] at h2; rw [h2]
  | bad => simp [stepGParam, hv] at h2

/-- The switches of the section, with their bits. -/
theorem gp_bools : ∀ p ∈ gp, ∀ k fl, p = .bool k fl → ∃ j, j ∈ [0, 1, 3, 14] ∧ fl = 2 ^ j := by
  intro p hp k fl he
  subst he
  simp only [gp, List.mem_cons, List.not_mem_nil, or_false, reduceCtorEq, false_or, GParam.bool.injEq] at hp
  rcases hp with ⟨-, rfl⟩ | ⟨-, rfl⟩ | ⟨-, rfl⟩ | ⟨-, rfl⟩
  · exact ⟨0, by decide, rfl⟩
  · exact ⟨1, by decide, rfl⟩
  · exact ⟨3, by decide, rfl⟩
  · exact ⟨14, by decide, rfl⟩

theorem other_bools {ps : List GParam} {i : Nat} (h : ∀ p ∈ ps, p ∈ gp ∧ ∀ k, p ≠ .bool k (2 ^ i)) :
    ∀ p ∈ ps, ∀ k fl, p = .bool k fl → ∃ j, j ≠ i ∧ fl = 2 ^ j := by
  intro p hp k fl he
  obtain ⟨j, -, rfl⟩ := gp_bools p (h p hp).1 k fl he
  exact ⟨j, fun e => (h p hp).2 k (by rw [he, e]), rfl⟩

theorem parse_generic {b : Build} {disk : Disk} {c conf : GenConf} {ss : List Srv} {e : Bool} {g : KGroup} {gs : List KGroup}
    (hm : disk.main = some (g :: gs)) (h : parseCfile b disk (some c) = .ok ss conf e) :
    ∃ st, runGParams g gp ⟨c, none⟩ = some st ∧ st.c = conf ∧ has conf.flags F_OLDSTYLE = false := by
  unfold parseCfile at h
  rw [hm] at h
  simp only [genStart] at h
  by_cases hn : g.name = ascii "generic"
  · rw [if_neg (by simp [hn])] at h
    cases hr : runGParams g gp ⟨c, none⟩ with
    | none => rw [hr] at h; cases h
    | some st =>
      rw [hr] at h
      simp only [] at h
      cases ho : has st.c.flags F_OLDSTYLE with
      | true => rw [ho] at h; cases h
      | false =>
        rw [ho, if_neg (by decide)] at h
        refine ⟨st, rfl, ?_⟩
        cases hp : parseExports b gs with
        | none => rw [hp] at h; cases h
        | some xs =>
          rw [hp] at h
          simp only [] at h
          cases hd : st.cfdir with
          | none => rw [hd] at h; cases h; exact ⟨rfl, ho⟩
          | some dir =>
            rw [hd] at h
            simp only [] at h
            cases hes : disk.dir dir with
            | none => rw [hes] at h; cases h
            | some es =>
              rw [hes] at h
              simp only [] at h
              cases hl : cfileLoop b es [] with
              | none => rw [hl] at h; cases h
              | some extra => rw [hl] at h; cases h; exact ⟨rfl, ho⟩
  · rw [if_pos hn] at h; cases h

/-- **C104**. If the configuration is accepted, then every setting of the server is the one the section gives,
or, if the section does not mention it, the one that was there before (from the command line, or of the running server); there is no
other setting, and a value that cannot be read is never accepted. `c` is the configuration before. -/
theorem C104_generic {b : Build} {disk : Disk} {c conf : GenConf} {ss : List Srv} {e : Bool} {g : KGroup} {gs : List KGroup}
    (hm : disk.main = some (g :: gs)) (h : parseCfile b disk (some c) = .ok ss conf e) :
    TextSetting (g.str (ascii "user")) c.user conf.user ∧
    TextSetting (g.str (ascii "group")) c.group conf.group ∧
    TextSetting (g.str (ascii "listenaddr")) c.modernaddr conf.modernaddr ∧
    TextSetting (g.str (ascii "port")) c.modernport conf.modernport ∧
    TextSetting (g.str (ascii "unixsock")) c.unixsock conf.unixsock ∧
    TextSetting (g.str (ascii "certfile")) c.certfile conf.certfile ∧
    TextSetting (g.str (ascii "keyfile")) c.keyfile conf.keyfile ∧
    TextSetting (g.str (ascii "cacertfile")) c.cacertfile conf.cacertfile ∧
    TextSetting (g.str (ascii "tlsprio")) c.tlsprio conf.tlsprio ∧
    IntSetting (g.int (ascii "max_threads")) c.threads conf.threads ∧
    SwitchSetting (g.bool (ascii "allowlist")) (has c.flags F_LIST) (has conf.flags F_LIST) ∧
    SwitchSetting (g.bool (ascii "duallisten")) (has c.flags F_DUAL_LISTEN) (has conf.flags F_DUAL_LISTEN) ∧
    SwitchSetting (g.bool (ascii "force_tls")) (has c.flags F_FORCEDTLS) (has conf.flags F_FORCEDTLS) ∧
    SwitchSetting (g.bool (ascii "oldstyle")) (has c.flags F_OLDSTYLE) false ∧
    ∀ i, 2 ^ i ∉ [F_OLDSTYLE, F_LIST, F_DUAL_LISTEN, F_FORCEDTLS] → conf.flags.testBit i = c.flags.testBit i := by
  obtain ⟨st, hr, rfl, hold⟩ := parse_generic hm h
  have text : ∀ (n : Nat) (k : List Byte) (f : GField), gp[n]? = some (.str k f) →
      (∀ p ∈ gp.take n ++ gp.drop (n + 1), ∀ k, p ≠ .str k f) → TextSetting (g.str k) (fieldOf f ⟨c, none⟩) (fieldOf f st) := by
    intro n k f hn ho
    have hl : n < gp.length := (List.getElem?_eq_some_iff.mp hn).1
    have hg : gp = gp.take n ++ .str k f :: gp.drop (n + 1) := by
      rw [← (List.getElem?_eq_some_iff.mp hn).2, ← List.drop_eq_getElem_cons hl, List.take_append_drop]
    exact gp_text hr _ _ k f hg ho
  have sw : ∀ (n : Nat) (k : List Byte) (i : Nat), gp[n]? = some (.bool k (2 ^ i)) →
      (∀ p ∈ gp.take n ++ gp.drop (n + 1), ∀ k, p ≠ .bool k (2 ^ i)) → SwitchSetting (g.bool k) (has c.flags (2 ^ i)) (has st.c.flags (2 ^ i)) := by
    intro n k i hn ho
    have hl : n < gp.length := (List.getElem?_eq_some_iff.mp hn).1
    have hg : gp = gp.take n ++ .bool k (2 ^ i) :: gp.drop (n + 1) := by
      rw [← (List.getElem?_eq_some_iff.mp hn).2, ← List.drop_eq_getElem_cons hl, List.take_append_drop]
    refine gp_switch hr _ _ k i hg (other_bools fun p hp => ⟨?_, ho p hp⟩)
    rcases List.mem_append.mp hp with hp | hp
    · exact List.mem_of_mem_take hp
    · exact List.mem_of_mem_drop hp
  refine ⟨text 0 _ .user rfl (by simp [gp]), text 1 _ .group rfl (by simp [gp]), text 3 _ .modernaddr rfl (by simp [gp]),
    text 4 _ .modernport rfl (by simp [gp]), text 7 _ .unixsock rfl (by simp [gp]), text 11 _ .certfile rfl (by simp [gp]),
    text 12 _ .keyfile rfl (by simp [gp]), text 13 _ .cacertfile rfl (by simp [gp]), text 14 _ .tlsprio rfl (by simp [gp]), ?_,
    sw 6 _ 1 rfl (by simp [gp, F_OLDSTYLE, F_DUAL_LISTEN, F_FORCEDTLS]), sw 8 _ 3 rfl (by simp [gp, F_OLDSTYLE, F_LIST, F_FORCEDTLS]),
    sw 10 _ 14 rfl (by simp [gp, F_OLDSTYLE, F_LIST, F_DUAL_LISTEN]), ?_, ?_⟩
  · have hg : gp = gp.take 9 ++ .threads (ascii "max_threads") :: gp.drop 10 := rfl
    have hno : ∀ p ∈ gp.take 9 ++ gp.drop 10, ∀ k, p ≠ .threads k := by simp [gp]
    have hr' := hr
    rw [hg] at hr'
    obtain ⟨st1, st2, h1, h2, h3⟩ := runG_split hr'
    have e1 := runG_keep (fun s => s.c.threads) (fun p hp _ _ hs => stepG_threads hs (hno p (by simp [hp]))) h1
    have e3 := runG_keep (fun s => s.c.threads) (fun p hp _ _ hs => stepG_threads hs (hno p (by simp [hp]))) h3
    simp only [] at e1 e3
    rw [e3, ← e1]
    unfold IntSetting
    cases hv : g.int (ascii "max_threads") with
    | ok v => simp only [stepGParam, hv, Option.some.injEq] at h2; subst h2; rfl
    | missing => simp only [stepGParam, hv, Option.some.injEq] at h2; rw [h2]
    | bad => simp [stepGParam, hv] at h2
  · rw [← hold]
    exact sw 2 _ 0 rfl (by simp [gp, F_LIST, F_DUAL_LISTEN, F_FORCEDTLS])
  · intro i hi
    refine runG_keep (fun s => s.c.flags.testBit i) (fun p hp _ _ hs => stepG_flags hs i ?_) hr
    intro k fl he
    obtain ⟨j, hj, rfl⟩ := gp_bools p hp k fl he
    refine ⟨j, ?_, rfl⟩
    rintro rfl
    apply hi
    simp only [List.mem_cons, List.not_mem_nil, or_false] at hj
    rcases hj with rfl | rfl | rfl | rfl <;> decide

/-- **C62**: a server that has no export, neither from the files nor from the command line, does not run; and one that runs with a table of
exports has all of the files, in order, and then the one of the command line. -/
theorem C62_started (b : Build) (disk : Disk) (c : GenConf) (serve : Option Srv) :
    (∀ conf e, parseCfile b disk (some c) = .ok [] conf e → serve = none → startServers (parseCfile b disk (some c)) serve = .quit) ∧
    (∀ table, startServers (parseCfile b disk (some c)) serve = .table table →
      table ≠ [] ∧ ∃ ss conf e, parseCfile b disk (some c) = .ok ss conf e ∧ table = ss ++ serve.toList) := by
  constructor
  · intro conf e h hs
    rw [h, hs]
    rfl
  · intro table h
    cases hp : parseCfile b disk (some c) with
    | err => rw [hp] at h; cases serve <;> cases h
    | null => rw [hp] at h; cases serve <;> cases h
    | ok ss conf e =>
      rw [hp] at h
      cases serve with
      | some s => cases h; exact ⟨by simp, ss, conf, e, rfl, rfl⟩
      | none =>
        cases ss with
        | nil => cases h
        | cons s ss => cases h; exact ⟨by simp, _, conf, e, rfl, by simp⟩

/-- A section that sets a port, allows lists and forbids plain connections. -/
def plainGeneric : KGroup where
  name := ascii "generic"
  str k := if k = ascii "port" then .ok (ascii "10810") else .missing
  int _ := .missing
  int64 _ := .missing
  bool k := if k = ascii "allowlist" ∨ k = ascii "force_tls" then .ok true else if k = ascii "duallisten" then .ok false else .missing

/-- An export. -/
def plainExport : KGroup where
  name := ascii "a"
  str k := if k = ascii "exportname" then .ok (ascii "/a") else .missing
  int _ := .missing
  int64 _ := .missing
  bool _ := .missing

/-- The section changes the port and the switches, and leaves the user alone. -/
example : ∃ ss conf e, parseCfile ⟨false, false⟩ ⟨some [plainGeneric, plainExport], fun _ => none⟩
    (some { user := some (ascii "nbd"), modernport := some (ascii "10809"), flags := F_DUAL_LISTEN }) = .ok ss conf e ∧ ss.length = 1 ∧
    conf.user = some (ascii "nbd") ∧ conf.modernport = some (ascii "10810") ∧ has conf.flags F_LIST = true ∧
    has conf.flags F_FORCEDTLS = true ∧ has conf.flags F_DUAL_LISTEN = false := by
  refine ⟨_, _, _, rfl, ?_⟩
  decide +kernel

example : ∃ conf e, parseCfile ⟨false, false⟩ ⟨some [plainGeneric], fun _ => none⟩ (some {}) = .ok [] conf e := ⟨_, _, rfl⟩

/-! ### The command line -/

theorem cmdLoop_relative (opts : List CmdOpt) (f : List Byte) (rest : List (List Byte)) (hf : f.head? ≠ some 47) :
    ∀ (st : CmdState), (∀ o ∈ opts, o ≠ .version ∧ o ≠ .unknown ∧ ∀ v, o ≠ .output v) →
      (st.nonspecial = 1 ∧ argsOf opts = f :: rest ∨ st.nonspecial = 0 ∧ ∃ l, l ≠ [] ∧ argsOf opts = l :: f :: rest) →
      cmdLoop opts st = .exit := by
  induction opts with
  | nil => rintro st _ (⟨_, h⟩ | ⟨_, l, _, h⟩) <;> simp [argsOf] at h
  | cons o os ih =>
    intro st hr h
    have hr' : ∀ x ∈ os, x ≠ .version ∧ x ≠ .unknown ∧ ∀ v, x ≠ .output v := fun x hx => hr x (by simp [hx])
    by_cases ho : ∃ v, o = .arg v
    · obtain ⟨v, rfl⟩ := ho
      have e : argsOf (.arg v :: os) = v :: argsOf os := by simp [argsOf]
      rw [e] at h
      rcases h with ⟨h0, h⟩ | ⟨h0, l, hl, h⟩
      · simp only [List.cons.injEq] at h
        obtain ⟨rfl, -⟩ := h
        simp only [cmdLoop, cmdStep, h0]
        rw [if_pos hf]
      · simp only [List.cons.injEq] at h
        obtain ⟨rfl, h⟩ := h
        simp only [cmdLoop, cmdStep, h0]
        rw [if_neg hl]
        exact ih _ hr' (.inl ⟨rfl, h⟩)
    · have hv : ∀ v, o ≠ .arg v := fun v e => ho ⟨v, e⟩
      obtain ⟨r, h1, h2⟩ := cmdStep_switch st o (hr o (by simp)) hv
      have hn : r.nonspecial = st.nonspecial := by simp only [argPart, Prod.mk.injEq] at h2; exact h2.1
      have e : argsOf (o :: os) = argsOf os := by cases o <;> simp_all [argsOf]
      rw [e] at h
      simp only [cmdLoop, h1]
      exact ih r hr' (by rw [hn]; exact h)

/-- **C63**: a file name on the command line that is not an absolute path is refused, whatever else the command line says. -/
theorem C63_relative (digits : Int → List Byte) (opts : List CmdOpt) (l f : List Byte) (rest : List (List Byte)) (hl : l ≠ [])
    (hargs : argsOf opts = l :: f :: rest) (hrun : Runs opts) (hf : f.head? ≠ some 47) : cmdline digits opts = .exited := by
  unfold cmdline
  rw [cmdLoop_relative opts f rest hf _ hrun (.inr ⟨rfl, l, hl, hargs⟩)]

example : cmdline (fun _ => []) [.readOnly, .arg (ascii "10809"), .maxConn (ascii "3"), .arg (ascii "disk.img")] = .exited :=
  C63_relative _ _ (ascii "10809") (ascii "disk.img") [] (by decide) (by decide) (by intro o ho; simp only [List.mem_cons, List.not_mem_nil, or_false] at ho; rcases ho with rfl | rfl | rfl | rfl <;> simp) (by decide)

theorem digit_of {d : Byte} {v : Nat} (h : Digit d v) : digitOf d = v := by
  cases h with
  | dec _ h => revert v; decide
  | lower n h => revert n; decide
  | upper n h => revert n; decide

theorem digitsIn_append {base : Nat} (bs : List Byte) (hb : ∀ b ∈ bs, digitOf b < base) (cs : List Byte) (acc : Nat) :
    digitsIn base (bs ++ cs) acc = digitsIn base cs (digitsIn base bs acc) := by
  induction bs generalizing acc with
  | nil => rfl
  | cons b bs ih =>
    rw [List.cons_append, digitsIn, digitsIn, if_pos (hb b (by simp)), if_pos (hb b (by simp))]
    exact ih (fun x hx => hb x (by simp [hx])) _

theorem written_digits {base : Nat} {ds : List Byte} {n : Nat} (h : WrittenIn base ds n) :
    (∀ d ∈ ds, digitOf d < base) ∧ digitsIn base ds 0 = n := by
  induction h with
  | nil => exact ⟨(by intro d hd; cases hd), rfl⟩
  | snoc ds n d v _ hd hv ih =>
    have e := digit_of hd
    refine ⟨fun x hx => ?_, ?_⟩
    · rcases List.mem_append.mp hx with hx | hx
      · exact ih.1 x hx
      · simp only [List.mem_singleton] at hx; rw [hx, e]; exact hv
    · rw [digitsIn_append ds ih.1, ih.2, digitsIn, if_pos (by rw [e]; exact hv), e, digitsIn]

theorem written_first {base : Nat} {d : Byte} {ds : List Byte} {n : Nat} (h : WrittenIn base (d :: ds) n) (hb : base ≤ 16) : digitOf d < 16 :=
  Nat.lt_of_lt_of_le ((written_digits h).1 d (by simp)) hb

theorem digits0_number {t : List Byte} {n : Nat} (h : CNumber t n) : digits0 t = n := by
  cases h with
  | dec d ds n h h0 =>
    rw [← (written_digits h).2]
    unfold digits0
    split
    · rename_i e; simp only [List.cons.injEq] at e; exact absurd e.1 h0
    · rename_i e; simp only [List.cons.injEq] at e; exact absurd e.1 h0
    · rfl
  | oct ds n h =>
    rw [← (written_digits h).2]
    rcases ds with _ | ⟨x, _ | ⟨d, ds⟩⟩
    · rfl
    · rfl
    · have hx : digitOf x < 8 := (written_digits h).1 x (by simp)
      have hn : ¬ ((x = 120 ∨ x = 88) ∧ digitOf d < 16) := by
        rintro ⟨rfl | rfl, -⟩ <;> revert hx <;> decide
      show (if (x = 120 ∨ x = 88) ∧ digitOf d < 16 then _ else _) = _
      rw [if_neg hn]
  | hex x d ds n hx h =>
    rw [← (written_digits h).2]
    show (if (x = 120 ∨ x = 88) ∧ digitOf d < 16 then _ else _) = _
    rw [if_pos ⟨hx, written_first h (Nat.le_refl _)⟩]

theorem digit_plain {d : Byte} (h : digitOf d < 16) : isSpace d = false ∧ d ≠ 45 ∧ d ≠ 43 := by
  have key : ∀ n : Fin 256, digitOf (UInt8.ofFin n) < 16 → isSpace (UInt8.ofFin n) = false ∧ UInt8.ofFin n ≠ 45 ∧ UInt8.ofFin n ≠ 43 := by
    decide +kernel
  exact key d.toFin h

theorem strtol0_number {t : List Byte} {n : Nat} (h : CNumber t n) (hn : n < 2 ^ 63) : strtol0 t = n := by
  have hd := digits0_number h
  have hfirst : ∃ d ds, t = d :: ds ∧ digitOf d < 16 := by
    cases h with
    | dec d ds n h h0 => exact ⟨d, ds, rfl, written_first h (by omega)⟩
    | oct ds n h => exact ⟨48, ds, rfl, by decide⟩
    | hex x d ds n hx h => exact ⟨48, x :: d :: ds, rfl, by decide⟩
  obtain ⟨d, ds, rfl, hd16⟩ := hfirst
  obtain ⟨h1, h2, h3⟩ := digit_plain hd16
  unfold strtol0
  rw [List.dropWhile_cons_of_neg (by simp [h1])]
  split
  · rename_i e; simp only [List.cons.injEq] at e; exact absurd e.1 h2
  · rename_i e; simp only [List.cons.injEq] at e; exact absurd e.1 h3
  · rw [hd]; omega

theorem cmdLoop_maxconn (pre post : List CmdOpt) (v : List Byte) (hpost : ∀ w, .maxConn w ∉ post) (st r : CmdState)
    (h : cmdLoop (pre ++ .maxConn v :: post) st = .val r) : r.serve.maxConn = (strtol0 v + 2 ^ 31) % 2 ^ 32 - 2 ^ 31 := by
  have keep : ∀ (os : List CmdOpt) (st r : CmdState), (∀ w, .maxConn w ∉ os) → cmdLoop os st = .val r → r.serve.maxConn = st.serve.maxConn := by
    intro os
    induction os with
    | nil => intro st r _ h; simp only [cmdLoop, Out.val.injEq] at h; rw [h]
    | cons o os ih =>
      intro st r hno h
      simp only [cmdLoop] at h
      cases hs : cmdStep st o with
      | ub => rw [hs] at h; cases h
      | exit => rw [hs] at h; cases h
      | val st1 =>
        rw [hs] at h
        rw [ih st1 r (fun w hw => hno w (by simp [hw])) h]
        cases o with
        | maxConn w => exact absurd (List.mem_cons_self) (hno w)
        | arg v =>
          simp only [cmdStep] at hs
          split at hs
          · split at hs
            · cases hs
            · cases hs; rfl
          · split at hs
            · cases hs
            · cases hs; rfl
          · split at hs <;> cases hs
            rfl
          · cases hs; rfl
        | version => cases hs
        | unknown => cases hs
        | _ => cases hs; rfl
  induction pre generalizing st with
  | nil =>
    simp only [List.nil_append, cmdLoop, cmdStep] at h
    rw [keep post _ r hpost h]
  | cons o os ih =>
    simp only [List.cons_append, cmdLoop] at h
    cases hs : cmdStep st o with
    | ub => rw [hs] at h; cases h
    | exit => rw [hs] at h; cases h
    | val st1 => rw [hs] at h; exact ih st1 h

/-- **C63**, the connection limit: the number after the last `-M` is the limit of the export of the command line, in whichever of C's
notations it is written. -/
theorem C63_limit {digits : Int → List Byte} {pre post : List CmdOpt} {v : List Byte} {n : Nat} (hv : CNumber v n) (hn : n < 2 ^ 31)
    (hpost : ∀ w, .maxConn w ∉ post) {s : Srv} {st : CmdState} (h : cmdline digits (pre ++ .maxConn v :: post) = .run (some s) st) :
    s.maxConn = n := by
  unfold cmdline at h
  cases hl : cmdLoop (pre ++ .maxConn v :: post) { serve := { authname := some defaultAuth, virtstyle := .iplit } } with
  | ub => rw [hl] at h; cases h
  | exit => rw [hl] at h; cases h
  | val r =>
    rw [hl] at h
    have hm := cmdLoop_maxconn pre post v hpost _ r hl
    rw [strtol0_number hv (by omega)] at hm
    have hm' : r.serve.maxConn = n := by rw [hm]; omega
    simp only [] at h
    cases hsec : r.section_ with
    | none =>
      rw [hsec] at h
      by_cases h2 : r.nonspecial < 2
      · rw [if_pos h2] at h; cases h
      · rw [if_neg h2] at h; cases h; exact hm'
    | some sect =>
      rw [hsec] at h
      by_cases h2 : r.nonspecial < 2
      · rw [if_pos h2] at h; cases h
      · rw [if_neg h2] at h; cases h

/-- `-M 0X1f` sets 31. -/
example : CNumber (ascii "0X1f") 31 :=
  .hex 88 49 [102] 31 (.inr rfl)
    (.snoc [49] 1 102 15 (.snoc [] 0 49 1 .nil (.dec 1 (by decide)) (by decide)) (.lower 5 (by decide)) (by decide))

example : ∃ s st, cmdline (fun _ => []) ([.arg (ascii "10809")] ++ .maxConn (ascii "0X1f") :: [.arg (ascii "/x")]) = .run (some s) st ∧ s.maxConn = 31 :=
  ⟨_, _, rfl, by decide +kernel⟩

/-! ### The commands of an export -/

/-- **C70**: an export without a command before (or after) a session, or with an empty one, runs nothing then. -/
theorem C70_no_command (v6 : List Byte → List Byte → List Byte) (s : Srv) (p : Peer) (pid : Nat) {names : SessionNames}
    (h : sessionNames v6 s p pid = .val names) :
    (s.prerun = none ∨ s.prerun = some [] → names.prerun = none) ∧ (s.postrun = none ∨ s.postrun = some [] → names.postrun = none) := by
  unfold sessionNames at h
  cases he : s.exportname with
  | none => rw [he] at h; cases h
  | some t =>
    rw [he] at h
    simp only [] at h
    cases hp : setPeername v6 s.virtstyle s.cidrlen t p with
    | ub => rw [hp] at h; cases h
    | exit => rw [hp] at h; cases h
    | val r =>
      rw [hp] at h
      simp only [] at h
      cases hr : runCommand s.prerun r.1 with
      | ub => rw [hr] at h; cases h
      | exit => rw [hr] at h; cases h
      | val a =>
        rw [hr] at h
        simp only [] at h
        split at h
        · cases h
        · cases h
        · rename_i post hpost
          cases h
          refine ⟨fun hc => ?_, fun hc => ?_⟩
          · rcases hc with hc | hc <;> rw [hc] at hr <;> cases hr <;> rfl
          · rcases hc with hc | hc <;> rw [hc] at hpost <;> cases hpost <;> rfl

example : ∃ names, sessionNames (fun _ _ => []) { exportname := some (ascii "/a/b"), virtstyle := .none, prerun := some [], postrun := none } (.inet [0, 9] [10, 0, 0, 1]) 7 = .val names :=
  ⟨_, rfl⟩

/-- **C70** fails for exports with `virtstyle = iphash`: no file name is ever made for their clients, and the commands are run with the
text `(null)` in its place. -/
theorem C70_false_iphash (v6 : List Byte → List Byte → List Byte) (s : Srv) (p : Peer) (pid : Nat) {t c pre post : List Byte}
    (he : s.exportname = some t) (hs : s.virtstyle = .iphash) (hc : s.prerun = some c) (hc' : s.postrun = some c) (hm : Spec.Marked c pre post)
    (hflags : has s.flags F_COPYONWRITE = false) (hw : has s.flags F_WAIT = false) :
    ∃ names, sessionNames v6 s p pid = .val names ∧ names.opened = none ∧ names.prerun = some (pre ++ ascii "(null)" ++ post) ∧
      names.postrun = some (pre ++ ascii "(null)" ++ post) := by
  have hnull : runCommand (some c) none = .val (some (pre ++ ascii "(null)" ++ post)) := by
    rw [← runCommand_marked hm (ascii "(null)")]
    cases c <;> rfl
  unfold sessionNames
  rw [he, hs]
  simp only [setPeername, hc, hc', hnull, hflags, hw, Bool.or_false, Bool.false_eq_true, if_false]
  exact ⟨_, rfl, rfl, rfl, rfl⟩

example : Spec.Marked (ascii "mount %s &") (ascii "mount ") (ascii " &") := ⟨by decide, by decide, by decide⟩

end Nbd.Props
