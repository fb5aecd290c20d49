import Verif.Config
import Verif.Props.Acl
import Verif.Props.Nego
/-!
# Properties of the configuration: C42, C50, C60, C61, C62, C63
-/

set_option autoImplicit false

namespace Nbd.Spec

/-- nbd-server(5): the boolean options of an export section and the export property each one turns on. -/
def boolOptions : List (String × Nat) :=
  [("readonly", F_READONLY), ("multifile", F_MULTIFILE), ("treefiles", F_TREEFILES), ("copyonwrite", F_COPYONWRITE),
   ("waitfile", F_WAIT), ("sparse_cow", F_SPARSE), ("sdp", F_SDP), ("sync", F_SYNC), ("flush", F_FLUSH), ("fua", F_FUA),
   ("rotational", F_ROTATIONAL), ("temporary", F_TEMPORARY), ("trim", F_TRIM), ("datalog", F_DATALOG),
   ("force_tls", F_FORCEDTLS), ("splice", F_SPLICE)]

/-- The section turns an option on. -/
def On (g : KGroup) (k : String) : Prop := g.bool (ascii k) = .ok true

/-- A text option of the section, if given. -/
def textOf (g : KGroup) (k : String) : Option (List Byte) :=
  match g.str (ascii k) with
  | .ok v => some v
  | _ => none

/-- The values of `virtstyle`: a word, matched by its beginning, and for `cidrhash` at least two more characters. -/
def StyleOk (v : List Byte) : Prop :=
  ascii "none" <+: v ∨ ascii "ipliteral" <+: v ∨ ascii "iphash" <+: v ∨ (ascii "cidrhash" <+: v ∧ 10 ≤ v.length)

/-- What makes an export section acceptable: it names a file, every option given has a value of its type, the style is known,
and the options do not contradict each other or the build. -/
structure Acceptable (b : Build) (g : KGroup) : Prop where
  named : ∃ v, g.str (ascii "exportname") = .ok v
  texts : ∀ k ∈ ["authfile", "virtstyle", "prerun", "postrun", "transactionlog", "cowdir", "listenaddr"],
    g.str (ascii k) ≠ .bad
  size : g.int64 (ascii "filesize") ≠ .bad
  conns : g.int (ascii "maxconnections") ≠ .bad
  bools : ∀ k ∈ boolOptions, g.bool (ascii k.1) ≠ .bad
  style : ∀ v, g.str (ascii "virtstyle") = .ok v → StyleOk v
  cowSplice : ¬ (On g "copyonwrite" ∧ On g "splice")
  cowWait : ¬ (On g "copyonwrite" ∧ On g "waitfile")
  logSplice : ¬ (On g "datalog" ∧ On g "splice")
  splice : On g "splice" → b.splice = true
  sdp : On g "sdp" → b.sdp = true

/-- The sizes nbd-server(1) allows: a number, in bytes or with a suffix. -/
def Suffix (suf : List Byte) (mult : Nat) : Prop :=
  (suf = [] ∧ mult = 1) ∨ ((suf = ascii "k" ∨ suf = ascii "K") ∧ mult = 1024) ∨
  ((suf = ascii "m" ∨ suf = ascii "M") ∧ mult = 1024 * 1024)

/-- The non-option arguments of a command line. -/
def argsOf (opts : List CmdOpt) : List (List Byte) :=
  opts.filterMap fun o => match o with
    | .arg v => some v
    | _ => none

/-- A command line that runs the server: no request for the version or for a printed section, and nothing that is not an
option. -/
def Runs (opts : List CmdOpt) : Prop :=
  ∀ o ∈ opts, o ≠ .version ∧ o ≠ .unknown ∧ ∀ v, o ≠ .output v

/-- The value of the last of several options. -/
def lastOf (f : CmdOpt → Option (List Byte)) (opts : List CmdOpt) : Option (List Byte) := (opts.filterMap f).getLast?

/-- `ip:port`, `ip6@port`, `ip@port` or `port`. -/
inductive Listen : List Byte → Option (List Byte) → List Byte → Prop where
  | port (p : List Byte) (hne : p ≠ []) (h : (58 : Byte) ∉ p) (h' : (64 : Byte) ∉ p) : Listen p none p
  | colon (a p : List Byte) (h : (58 : Byte) ∉ a) (h' : (58 : Byte) ∉ p) : Listen (a ++ [58] ++ p) (some a) p
  | at4 (a p : List Byte) (h : (58 : Byte) ∉ a) (h' : (58 : Byte) ∉ p) (h'' : (64 : Byte) ∉ a) :
      Listen (a ++ [64] ++ p) (some a) p
  | at6 (a p : List Byte) (h : 2 ≤ a.count 58) (h'' : (64 : Byte) ∉ a) : Listen (a ++ [64] ++ p) (some a) p

/-- What a key file reader finds in a section that consists of the given lines: every value is read back as it was printed (the
file name and the name of the access list contain no backslash or line break and do not start with a blank). -/
structure ReadsAs (digits : Int → List Byte) (sect : List Byte) (lines : List (List Byte × List Byte)) (g : KGroup) :
    Prop where
  name : g.name = sect
  str : ∀ k v, (k, v) ∈ lines → g.str k = .ok v
  bool : ∀ k, (k, ascii "true") ∈ lines → g.bool k = .ok true
  num : ∀ k n, (k, digits n) ∈ lines → g.int64 k = .ok n
  rest : ∀ k, (∀ v, (k, v) ∉ lines) → g.str k = .missing ∧ g.int k = .missing ∧ g.int64 k = .missing ∧ g.bool k = .missing

/-- nbd-server(5), `tlsprio`: the default. -/
def documentedPrio : String := "NORMAL:+VERS-TLS-ALL:-VERS-TLS1.0:-VERS-TLS1.1:%SERVER_PRECEDENCE"

/-- Two lists correspond element by element. -/
inductive Each {α β : Type} (R : α → β → Prop) : List α → List β → Prop where
  | nil : Each R [] []
  | cons {a : α} {b : β} {as : List α} {bs : List β} (h : R a b) (t : Each R as bs) : Each R (a :: as) (b :: bs)

/-- The command line without `-o`. -/
def withoutOutput (opts : List CmdOpt) : List CmdOpt :=
  opts.filter fun o => match o with
    | .output _ => false
    | _ => true

end Nbd.Spec

namespace Nbd.Props
open Nbd.Spec

/-! ### The table of parameters -/

/-- Is the value of the parameter acceptable? -/
def paramOk (g : KGroup) : Param → Bool
  | .str k req _ => match g.str k with
    | .ok _ => true
    | .missing => !req
    | .bad => false
  | .offt k => match g.int64 k with
    | .bad => false
    | _ => true
  | .int k => match g.int k with
    | .bad => false
    | _ => true
  | .bool k _ => match g.bool k with
    | .bad => false
    | _ => true

/-- The effect of a parameter. -/
def applyParam (g : KGroup) (st : PState) : Param → PState
  | .str k _ f => match g.str k with
    | .ok v => setField st f v
    | _ => st
  | .offt k => match g.int64 k with
    | .ok v => { st with s := { st.s with expected := (v % 2 ^ 64).toNat } }
    | _ => st
  | .int k => match g.int k with
    | .ok v => { st with s := { st.s with maxConn := v } }
    | _ => st
  | .bool k f => match g.bool k with
    | .ok v => { st with s := { st.s with flags := putFlag st.s.flags f v } }
    | _ => st

theorem stepParam_eq (g : KGroup) (st : PState) (p : Param) :
    stepParam g st p = if paramOk g p then some (applyParam g st p) else none := by
  cases p with
  | str k r f =>
    match h : g.str k with
    | .ok v => simp [stepParam, paramOk, applyParam, h]
    | .missing => cases r <;> simp [stepParam, paramOk, applyParam, h]
    | .bad => simp [stepParam, paramOk, h]
  | offt k =>
    match h : g.int64 k with
    | .ok v => simp [stepParam, paramOk, applyParam, h]
    | .missing => simp [stepParam, paramOk, applyParam, h]
    | .bad => simp [stepParam, paramOk, h]
  | int k =>
    match h : g.int k with
    | .ok v => simp [stepParam, paramOk, applyParam, h]
    | .missing => simp [stepParam, paramOk, applyParam, h]
    | .bad => simp [stepParam, paramOk, h]
  | bool k f =>
    match h : g.bool k with
    | .ok v => simp [stepParam, paramOk, applyParam, h]
    | .missing => simp [stepParam, paramOk, applyParam, h]
    | .bad => simp [stepParam, paramOk, h]

theorem runParams_eq (g : KGroup) (ps : List Param) : ∀ st : PState,
    runParams g ps st = if ps.all (paramOk g) then some (ps.foldl (applyParam g) st) else none := by
  induction ps with
  | nil => intro st; rfl
  | cons p ps ih =>
    intro st
    simp only [runParams, stepParam_eq, List.all_cons, List.foldl_cons]
    by_cases h : paramOk g p = true
    · simp [h, ih]
    · simp [h]

/-- The boolean parameters of a table. -/
def boolsOf : List Param → List (List Byte × Nat)
  | [] => []
  | .bool k f :: ps => (k, f) :: boolsOf ps
  | .str .. :: ps => boolsOf ps
  | .offt _ :: ps => boolsOf ps
  | .int _ :: ps => boolsOf ps

theorem setField_flags (st : PState) (f : SField) (v : List Byte) : (setField st f v).s.flags = st.s.flags := by
  cases f <;> rfl

theorem putFlag_testBit (x j i : Nat) (b : Bool) :
    (putFlag x (2 ^ j) b).testBit i = if i = j then b else x.testBit i := by
  unfold putFlag
  by_cases h : i = j
  · subst h; cases b <;> simp [Nat.testBit_or, Nat.testBit_xor, Nat.testBit_two_pow]
  · have h' : ¬ j = i := fun e => h e.symm
    cases b <;> simp [Nat.testBit_or, Nat.testBit_xor, Nat.testBit_two_pow, h, h']

theorem flags_fold (g : KGroup) (ps : List Param) : ∀ st : PState,
    (∀ kf ∈ boolsOf ps, ∃ j, kf.2 = 2 ^ j) → ((boolsOf ps).map (·.2)).Nodup →
    ∀ i, (ps.foldl (applyParam g) st).s.flags.testBit i = true ↔
      (∃ k, (k, 2 ^ i) ∈ boolsOf ps ∧ g.bool k = .ok true) ∨
      (st.s.flags.testBit i = true ∧ ∀ k, (k, 2 ^ i) ∈ boolsOf ps → g.bool k ≠ .ok false ∧ g.bool k ≠ .ok true) := by
  induction ps with
  | nil => intro st _ _ i; simp [boolsOf]
  | cons p ps ih =>
    intro st hp hn i
    cases p with
    | str k r f =>
      have h : (applyParam g st (.str k r f)).s.flags = st.s.flags := by
        simp only [applyParam]; cases g.str k <;> simp [setField_flags]
      rw [List.foldl_cons, ih _ hp hn i, h]; rfl
    | offt k =>
      have h : (applyParam g st (.offt k)).s.flags = st.s.flags := by
        simp only [applyParam]; cases g.int64 k <;> rfl
      rw [List.foldl_cons, ih _ hp hn i, h]; rfl
    | int k =>
      have h : (applyParam g st (.int k)).s.flags = st.s.flags := by
        simp only [applyParam]; cases g.int k <;> rfl
      rw [List.foldl_cons, ih _ hp hn i, h]; rfl
    | bool k f =>
      obtain ⟨j, hj⟩ := hp (k, f) (by simp [boolsOf])
      simp only [] at hj
      subst hj
      simp only [boolsOf, List.map_cons, List.nodup_cons] at hn
      rw [List.foldl_cons, ih _ (fun kf h => hp kf (by simp [boolsOf, h])) hn.2 i]
      have hflag : (applyParam g st (.bool k (2 ^ j))).s.flags.testBit i =
          match g.bool k with
          | .ok v => if i = j then v else st.s.flags.testBit i
          | _ => st.s.flags.testBit i := by
        simp only [applyParam]
        cases g.bool k with
        | ok v => exact putFlag_testBit ..
        | missing => rfl
        | bad => rfl
      rw [hflag]
      have hno : ∀ k', (k', 2 ^ j) ∈ boolsOf ps → False := fun k' h =>
        hn.1 (List.mem_map.mpr ⟨_, h, rfl⟩)
      by_cases hij : i = j
      · subst hij
        have e1 : (∃ k', (k', 2 ^ i) ∈ boolsOf ps ∧ g.bool k' = .ok true) ↔ False :=
          ⟨fun ⟨k', h, _⟩ => hno k' h, False.elim⟩
        have e2 : (∀ k', (k', 2 ^ i) ∈ boolsOf ps → g.bool k' ≠ .ok false ∧ g.bool k' ≠ .ok true) ↔ True :=
          ⟨fun _ => trivial, fun _ k' h => (hno k' h).elim⟩
        rw [e1, e2]
        simp only [boolsOf, List.mem_cons, Prod.mk.injEq]
        have e3 : (∃ k', ((k' = k ∧ True) ∨ (k', 2 ^ i) ∈ boolsOf ps) ∧ g.bool k' = .ok true) ↔ g.bool k = .ok true := by
          constructor
          · rintro ⟨k', ⟨rfl, _⟩ | h, h2⟩
            · exact h2
            · exact (hno k' h).elim
          · intro h; exact ⟨k, .inl ⟨rfl, trivial⟩, h⟩
        have e4 : (∀ k', ((k' = k ∧ True) ∨ (k', 2 ^ i) ∈ boolsOf ps) → g.bool k' ≠ .ok false ∧ g.bool k' ≠ .ok true) ↔
            g.bool k ≠ .ok false ∧ g.bool k ≠ .ok true := by
          constructor
          · intro h; exact h k (.inl ⟨rfl, trivial⟩)
          · rintro h k' (⟨rfl, _⟩ | h')
            · exact h
            · exact (hno k' h').elim
        rw [e3, e4]
        cases g.bool k with
        | ok v => cases v <;> simp
        | missing => simp
        | bad => simp
      · have hne : (2 : Nat) ^ i ≠ 2 ^ j := fun e => hij ((Nat.pow_right_inj (by decide)).mp e)
        have e3 : ∀ k', (k', 2 ^ i) ∈ boolsOf (.bool k (2 ^ j) :: ps) ↔ (k', 2 ^ i) ∈ boolsOf ps := by
          intro k'; simp [boolsOf, hne]
        simp only [e3]
        have e5 : (match g.bool k with
          | .ok v => if i = j then v else st.s.flags.testBit i
          | _ => st.s.flags.testBit i) = st.s.flags.testBit i := by
          cases g.bool k <;> simp [hij]
        rw [e5]

theorem boolsOf_lp : boolsOf lp = [(ascii "readonly", F_READONLY), (ascii "multifile", F_MULTIFILE),
    (ascii "treefiles", F_TREEFILES), (ascii "copyonwrite", F_COPYONWRITE), (ascii "waitfile", F_WAIT),
    (ascii "sparse_cow", F_SPARSE), (ascii "sdp", F_SDP), (ascii "sync", F_SYNC), (ascii "flush", F_FLUSH),
    (ascii "fua", F_FUA), (ascii "rotational", F_ROTATIONAL), (ascii "temporary", F_TEMPORARY), (ascii "trim", F_TRIM),
    (ascii "datalog", F_DATALOG), (ascii "force_tls", F_FORCEDTLS), (ascii "splice", F_SPLICE)] := rfl

theorem boolOptions_eq : boolsOf lp = boolOptions.map (fun kf => (ascii kf.1, kf.2)) := rfl

theorem boolOptions_pow : ∀ kf ∈ boolOptions, ∃ j, kf.2 = 2 ^ j := by
  intro kf h
  have : ∃ j < 18, kf.2 = 2 ^ j := by
    revert kf; decide
  obtain ⟨j, _, h⟩ := this; exact ⟨j, h⟩

theorem boolOptions_nodup : (boolOptions.map (·.2)).Nodup := by decide

theorem lp_flags (g : KGroup) (i : Nat) :
    (lp.foldl (applyParam g) {}).s.flags.testBit i = true ↔ ∃ kf ∈ boolOptions, kf.2 = 2 ^ i ∧ On g kf.1 := by
  rw [flags_fold g lp {} ?_ ?_ i, boolOptions_eq]
  · constructor
    · rintro (⟨k, h1, h2⟩ | ⟨h, _⟩)
      · obtain ⟨kf, h3, h4⟩ := List.mem_map.mp h1
        simp only [Prod.mk.injEq] at h4
        exact ⟨kf, h3, h4.2, by unfold On; rw [h4.1]; exact h2⟩
      · simp at h
    · rintro ⟨kf, h1, h2, h3⟩
      exact .inl ⟨ascii kf.1, List.mem_map.mpr ⟨kf, h1, by rw [h2]⟩, h3⟩
  · rw [boolOptions_eq]
    intro kf h
    obtain ⟨x, h1, rfl⟩ := List.mem_map.mp h
    exact boolOptions_pow x h1
  · rw [boolOptions_eq, List.map_map]; exact boolOptions_nodup

theorem boolOptions_inj : ∀ kf ∈ boolOptions, ∀ kf' ∈ boolOptions, kf.2 = kf'.2 → kf = kf' := by decide

theorem lp_has (g : KGroup) (kf : String × Nat) (h : kf ∈ boolOptions) :
    has (lp.foldl (applyParam g) {}).s.flags kf.2 = true ↔ On g kf.1 := by
  obtain ⟨j, hj⟩ := boolOptions_pow kf h
  rw [hj, has_two_pow, lp_flags]
  constructor
  · rintro ⟨kf', h1, h2, h3⟩
    rw [boolOptions_inj kf h kf' h1 (by rw [hj, h2])]; exact h3
  · intro h3; exact ⟨kf, h, hj, h3⟩

theorem parseExport_some {b : Build} {g : KGroup} {s : Srv} (h : parseExport b g = some s) :
    lp.all (paramOk g) = true ∧ ∃ v c, virtOf (lp.foldl (applyParam g) {}).virt = some (v, c) ∧
      refusedFlags b (lp.foldl (applyParam g) {}).s.flags = false ∧
      s = { (lp.foldl (applyParam g) {}).s with virtstyle := v, cidrlen := c, servename := some g.name } := by
  unfold parseExport at h
  rw [runParams_eq] at h
  cases hall : lp.all (paramOk g) with
  | false => simp [hall] at h
  | true =>
    simp only [hall, if_true] at h
    refine ⟨rfl, ?_⟩
    cases hv : virtOf (lp.foldl (applyParam g) {}).virt with
    | none => simp [hv] at h
    | some vc =>
      obtain ⟨v, c⟩ := vc
      simp only [hv] at h
      cases hr : refusedFlags b (lp.foldl (applyParam g) {}).s.flags with
      | true => simp [hr] at h
      | false =>
        simp only [hr, Bool.false_eq_true, if_false, Option.some.injEq] at h
        exact ⟨v, c, rfl, rfl, h.symm⟩

/-- **C50** (part 1). In an accepted export section every boolean option turns on exactly its own export flag: the flag is set if
and only if the option is given as true, and no flag is set that no option stands for. -/
theorem C50_flags {b : Build} {g : KGroup} {s : Srv} (h : parseExport b g = some s) :
    (∀ kf ∈ boolOptions, has s.flags kf.2 = true ↔ On g kf.1) ∧
    (∀ i, s.flags.testBit i = true → ∃ kf ∈ boolOptions, kf.2 = 2 ^ i ∧ On g kf.1) := by
  obtain ⟨_, v, c, _, _, rfl⟩ := parseExport_some h
  exact ⟨fun kf hk => lp_has g kf hk, fun i hi => (lp_flags g i).mp hi⟩

theorem foldl_field {α : Type} (g : KGroup) (proj : PState → α) (upd : Param → α → α)
    (h : ∀ st p, proj (applyParam g st p) = upd p (proj st)) (ps : List Param) :
    ∀ st, proj (ps.foldl (applyParam g) st) = ps.foldl (fun a p => upd p a) (proj st) := by
  induction ps with
  | nil => intro st; rfl
  | cons p ps ih => intro st; simp only [List.foldl_cons]; rw [ih, h]

/-- A text field after one parameter. -/
def updText (g : KGroup) (f : SField) (p : Param) (a : Option (List Byte)) : Option (List Byte) :=
  match p with
  | .str k _ f' => if f' = f then (match g.str k with
    | .ok v => some v
    | _ => a) else a
  | _ => a

/-- The text field `f` of the state. -/
def textField (f : SField) (st : PState) : Option (List Byte) :=
  match f with
  | .exportname => st.s.exportname
  | .authname => st.s.authname
  | .virtstyle => st.virt
  | .prerun => st.s.prerun
  | .postrun => st.s.postrun
  | .transactionlog => st.s.transactionlog
  | .cowdir => st.s.cowdir
  | .listenaddr => st.s.listenaddr

theorem textField_set (st : PState) (f f' : SField) (v : List Byte) :
    textField f (setField st f' v) = if f' = f then some v else textField f st := by
  cases f <;> cases f' <;> rfl

theorem textField_apply (g : KGroup) (f : SField) (st : PState) (p : Param) :
    textField f (applyParam g st p) = updText g f p (textField f st) := by
  cases p with
  | str k r f' =>
    match h : g.str k with
    | .ok v => simp [applyParam, updText, h, textField_set]
    | .missing => simp [applyParam, updText, h]
    | .bad => simp [applyParam, updText, h]
  | offt k =>
    match h : g.int64 k with
    | .ok v => cases f <;> simp [applyParam, updText, h, textField]
    | .missing => simp [applyParam, updText, h]
    | .bad => simp [applyParam, updText, h]
  | int k =>
    match h : g.int k with
    | .ok v => cases f <;> simp [applyParam, updText, h, textField]
    | .missing => simp [applyParam, updText, h]
    | .bad => simp [applyParam, updText, h]
  | bool k b =>
    match h : g.bool k with
    | .ok v => cases f <;> simp [applyParam, updText, h, textField]
    | .missing => simp [applyParam, updText, h]
    | .bad => simp [applyParam, updText, h]

theorem lp_text (g : KGroup) (f : SField) (k : String)
    (h : lp.foldl (fun a p => updText g f p a) none = textOf g k) :
    textField f (lp.foldl (applyParam g) {}) = textOf g k := by
  rw [foldl_field g (textField f) (updText g f) (textField_apply g f), ← h]
  cases f <;> rfl

/-- `expected_size` and `max_connections` after one parameter. -/
def updNums (g : KGroup) (p : Param) (a : Nat × Int) : Nat × Int :=
  match p with
  | .offt k => (match g.int64 k with
    | .ok v => ((v % 2 ^ 64).toNat, a.2)
    | _ => a)
  | .int k => (match g.int k with
    | .ok v => (a.1, v)
    | _ => a)
  | _ => a

theorem nums_apply (g : KGroup) (st : PState) (p : Param) :
    ((applyParam g st p).s.expected, (applyParam g st p).s.maxConn) = updNums g p (st.s.expected, st.s.maxConn) := by
  cases p with
  | str k r f' =>
    match h : g.str k with
    | .ok v => cases f' <;> simp [applyParam, updNums, h, setField]
    | .missing => simp [applyParam, updNums, h]
    | .bad => simp [applyParam, updNums, h]
  | offt k =>
    match h : g.int64 k with
    | .ok v => simp [applyParam, updNums, h]
    | .missing => simp [applyParam, updNums, h]
    | .bad => simp [applyParam, updNums, h]
  | int k =>
    match h : g.int k with
    | .ok v => simp [applyParam, updNums, h]
    | .missing => simp [applyParam, updNums, h]
    | .bad => simp [applyParam, updNums, h]
  | bool k b =>
    match h : g.bool k with
    | .ok v => simp [applyParam, updNums, h]
    | .missing => simp [applyParam, updNums, h]
    | .bad => simp [applyParam, updNums, h]

theorem lp_nums (g : KGroup) : ((lp.foldl (applyParam g) {}).s.expected, (lp.foldl (applyParam g) {}).s.maxConn) =
    (((match g.int64 (ascii "filesize") with
      | .ok v => (v % 2 ^ 64).toNat
      | _ => 0),
     (match g.int (ascii "maxconnections") with
      | .ok v => v
      | _ => 0)) : Nat × Int) := by
  rw [foldl_field g (fun st => (st.s.expected, st.s.maxConn)) (updNums g) (nums_apply g)]
  simp only [lp, List.foldl_cons, List.foldl_nil, updNums]
  cases g.int64 (ascii "filesize") <;> cases g.int (ascii "maxconnections") <;> rfl

/-- The number option of a section, 0 if it is not given. -/
def numOf (v : KVal Int) : Int :=
  match v with
  | .ok v => v
  | _ => 0

/-- **C50** (part 2). Every other option of an accepted export section sets exactly its own setting, to the value given, or
leaves it unset. The name of the section is the name of the export. -/
theorem C50_fields {b : Build} {g : KGroup} {s : Srv} (h : parseExport b g = some s) :
    s.exportname = textOf g "exportname" ∧ s.authname = textOf g "authfile" ∧ s.prerun = textOf g "prerun" ∧
    s.postrun = textOf g "postrun" ∧ s.transactionlog = textOf g "transactionlog" ∧ s.cowdir = textOf g "cowdir" ∧
    s.listenaddr = textOf g "listenaddr" ∧ s.servename = some g.name ∧
    (s.expected : Int) = numOf (g.int64 (ascii "filesize")) % 2 ^ 64 ∧
    s.maxConn = numOf (g.int (ascii "maxconnections")) := by
  obtain ⟨_, v, c, _, _, rfl⟩ := parseExport_some h
  have hn := lp_nums g
  have h1 := congrArg Prod.fst hn
  have h2 := congrArg Prod.snd hn
  simp only [] at h1 h2
  refine ⟨lp_text g .exportname _ ?_, lp_text g .authname _ ?_, lp_text g .prerun _ ?_, lp_text g .postrun _ ?_,
    lp_text g .transactionlog _ ?_, lp_text g .cowdir _ ?_, lp_text g .listenaddr _ ?_, rfl, ?_, ?_⟩
  any_goals (simp only [lp, List.foldl_cons, List.foldl_nil, updText, textOf]; rfl)
  · simp only [] at h1 ⊢
    rw [h1]
    unfold numOf
    cases g.int64 (ascii "filesize") with
    | ok v => simp only []; omega
    | missing => rfl
    | bad => rfl
  · simp only [] at h2 ⊢
    rw [h2]; rfl

theorem paramOk_opt (g : KGroup) (k : List Byte) (f : SField) : paramOk g (.str k false f) = true ↔ g.str k ≠ .bad := by
  match h : g.str k with
  | .ok v => simp [paramOk, h]
  | .missing => simp [paramOk, h]
  | .bad => simp [paramOk, h]

theorem paramOk_req (g : KGroup) (k : List Byte) (f : SField) :
    paramOk g (.str k true f) = true ↔ ∃ v, g.str k = .ok v := by
  match h : g.str k with
  | .ok v => simp [paramOk, h]
  | .missing => simp [paramOk, h]
  | .bad => simp [paramOk, h]

theorem paramOk_offt (g : KGroup) (k : List Byte) : paramOk g (.offt k) = true ↔ g.int64 k ≠ .bad := by
  match h : g.int64 k with
  | .ok v => simp [paramOk, h]
  | .missing => simp [paramOk, h]
  | .bad => simp [paramOk, h]

theorem paramOk_int (g : KGroup) (k : List Byte) : paramOk g (.int k) = true ↔ g.int k ≠ .bad := by
  match h : g.int k with
  | .ok v => simp [paramOk, h]
  | .missing => simp [paramOk, h]
  | .bad => simp [paramOk, h]

theorem paramOk_bool (g : KGroup) (k : List Byte) (f : Nat) : paramOk g (.bool k f) = true ↔ g.bool k ≠ .bad := by
  match h : g.bool k with
  | .ok v => simp [paramOk, h]
  | .missing => simp [paramOk, h]
  | .bad => simp [paramOk, h]

theorem lp_all (g : KGroup) : lp.all (paramOk g) = true ↔
    (∃ v, g.str (ascii "exportname") = .ok v) ∧
    (∀ k ∈ ["authfile", "virtstyle", "prerun", "postrun", "transactionlog", "cowdir", "listenaddr"], g.str (ascii k) ≠ .bad) ∧
    g.int64 (ascii "filesize") ≠ .bad ∧ g.int (ascii "maxconnections") ≠ .bad ∧
    (∀ k ∈ boolOptions, g.bool (ascii k.1) ≠ .bad) := by
  simp only [lp, List.all_cons, List.all_nil, Bool.and_true, Bool.and_eq_true, paramOk_opt, paramOk_req, paramOk_offt,
    paramOk_int, paramOk_bool, boolOptions, List.mem_cons, forall_eq_or_imp, List.not_mem_nil, false_implies, implies_true,
    and_true]
  apply iff_of_eq
  ac_rfl

theorem isPrefixOf_iff (a b : List Byte) : a.isPrefixOf b = true ↔ a <+: b := List.isPrefixOf_iff_prefix

theorem virtOf_isSome (v : List Byte) : (∃ x, virtOf (some v) = some x) ↔ StyleOk v := by
  have hs : StyleOk v ↔ ((ascii "none").isPrefixOf v = true ∨ (ascii "ipliteral").isPrefixOf v = true ∨
      (ascii "iphash").isPrefixOf v = true ∨ ((ascii "cidrhash").isPrefixOf v = true ∧ 10 ≤ v.length)) := by
    simp only [isPrefixOf_iff]; rfl
  rw [hs]
  unfold virtOf
  by_cases h1 : (ascii "none").isPrefixOf v = true
  · simp [h1]
  by_cases h2 : (ascii "ipliteral").isPrefixOf v = true
  · simp [h1, h2]
  by_cases h3 : (ascii "iphash").isPrefixOf v = true
  · simp [h1, h2, h3]
  by_cases h4 : (ascii "cidrhash").isPrefixOf v = true
  · by_cases h5 : v.length < 10
    · simp [h1, h2, h3, h4, h5]
    · simp [h1, h2, h3, h4, h5]; omega
  · simp [h1, h2, h3, h4]

theorem lp_virt (g : KGroup) : (lp.foldl (applyParam g) {}).virt = textOf g "virtstyle" := by
  refine lp_text g .virtstyle _ ?_
  simp only [lp, List.foldl_cons, List.foldl_nil, updText, textOf]; rfl

theorem refusedFlags_iff (b : Build) (g : KGroup) : refusedFlags b (lp.foldl (applyParam g) {}).s.flags = false ↔
    ¬ (On g "copyonwrite" ∧ On g "splice") ∧ ¬ (On g "copyonwrite" ∧ On g "waitfile") ∧
    ¬ (On g "datalog" ∧ On g "splice") ∧ (On g "splice" → b.splice = true) ∧ (On g "sdp" → b.sdp = true) := by
  rw [← lp_has g ("copyonwrite", F_COPYONWRITE) (by decide), ← lp_has g ("splice", F_SPLICE) (by decide),
    ← lp_has g ("waitfile", F_WAIT) (by decide), ← lp_has g ("datalog", F_DATALOG) (by decide),
    ← lp_has g ("sdp", F_SDP) (by decide)]
  unfold refusedFlags
  generalize (lp.foldl (applyParam g) {}).s.flags = fl
  cases b.splice <;> cases b.sdp <;> cases has fl F_COPYONWRITE <;> cases has fl F_SPLICE <;> cases has fl F_WAIT <;>
    cases has fl F_DATALOG <;> cases has fl F_SDP <;> simp

/-- **C50** (part 3). An export section is accepted exactly if it is acceptable: contradictory combinations are rejected, and
nothing else than the listed faults is. -/
theorem C50_accepted (b : Build) (g : KGroup) : (∃ s, parseExport b g = some s) ↔ Acceptable b g := by
  constructor
  · rintro ⟨s, h⟩
    obtain ⟨hall, v, c, hv, hr, _⟩ := parseExport_some h
    obtain ⟨h1, h2, h3, h4, h5⟩ := (lp_all g).mp hall
    obtain ⟨r1, r2, r3, r4, r5⟩ := (refusedFlags_iff b g).mp hr
    refine ⟨h1, h2, h3, h4, h5, ?_, r1, r2, r3, r4, r5⟩
    intro t ht
    rw [lp_virt] at hv
    have : textOf g "virtstyle" = some t := by unfold textOf; rw [ht]
    rw [this] at hv
    exact (virtOf_isSome t).mp ⟨_, hv⟩
  · rintro ⟨h1, h2, h3, h4, h5, h6, r1, r2, r3, r4, r5⟩
    have hall := (lp_all g).mpr ⟨h1, h2, h3, h4, h5⟩
    have hr := (refusedFlags_iff b g).mpr ⟨r1, r2, r3, r4, r5⟩
    have hv : ∃ x, virtOf (lp.foldl (applyParam g) {}).virt = some x := by
      rw [lp_virt]
      match h : g.str (ascii "virtstyle") with
      | .ok t => simp only [textOf, h]; exact (virtOf_isSome t).mpr (h6 t h)
      | .missing => simp only [textOf, h]; exact ⟨_, rfl⟩
      | .bad => exact absurd h (h2 "virtstyle" (by simp))
    obtain ⟨⟨v, c⟩, hv⟩ := hv
    unfold parseExport
    rw [runParams_eq, hall]
    simp only [if_true, hv, hr, Bool.false_eq_true, if_false]
    exact ⟨_, rfl⟩

/-- A section given by its lines. -/
def groupOf (name : List Byte) (strs : List (String × List Byte)) (ints : List (String × Int)) (bools : List (String × Bool)) :
    KGroup where
  name := name
  str := fun k => match strs.find? (fun x => ascii x.1 == k) with
    | some x => .ok x.2
    | none => .missing
  int := fun k => match ints.find? (fun x => ascii x.1 == k) with
    | some x => .ok x.2
    | none => .missing
  int64 := fun k => match ints.find? (fun x => ascii x.1 == k) with
    | some x => .ok x.2
    | none => .missing
  bool := fun k => match bools.find? (fun x => ascii x.1 == k) with
    | some x => .ok x.2
    | none => .missing

/-- A section `[a]` that is accepted, and what it means. -/
example : parseExport ⟨true, false⟩ (groupOf (ascii "a")
      [("exportname", ascii "/x"), ("virtstyle", ascii "cidrhash 24")] [("filesize", 4096), ("maxconnections", 2)]
      [("readonly", true), ("flush", true), ("fua", false)]) =
    some { exportname := some (ascii "/x"), expected := 4096, maxConn := 2, flags := F_READONLY + F_FLUSH,
           virtstyle := .cidr, cidrlen := 24, servename := some (ascii "a") } := by decide +kernel

/-- A contradictory section. -/
example : parseExport ⟨true, false⟩ (groupOf (ascii "a") [("exportname", ascii "/x")] []
      [("copyonwrite", true), ("waitfile", true)]) = none := by decide +kernel

/-! ### Sizes and addresses on the command line -/

theorem isSpace_digit {d : Byte} (h : 48 ≤ d ∧ d ≤ 57) : isSpace d = false := by
  obtain ⟨h1, h2⟩ := h
  have h1' : 48 ≤ d.toNat := h1
  have h2' : d.toNat ≤ 57 := h2
  unfold isSpace
  simp only [decide_eq_false_iff_not, not_or, not_and]
  refine ⟨fun e => by subst e; simp at h1', fun _ h => ?_⟩
  have : d.toNat ≤ 13 := h
  omega

theorem atoll_decimal {ds : List Byte} {n : Nat} (h : Decimal ds n) (hn : n < 2 ^ 63) : atoll ds = n := by
  obtain ⟨h1, h2, h3⟩ := h
  have hv : digitsVal ds 0 = n := by rw [digitsVal_eq ds h2, h3]
  cases ds with
  | nil => exact absurd rfl h1
  | cons d ds =>
    have hd := h2 d (by simp)
    have hsp : (d :: ds).dropWhile isSpace = d :: ds := by simp [isSpace_digit hd]
    have hne1 : d ≠ 45 := by rintro rfl; exact absurd hd.1 (by decide)
    have hne2 : d ≠ 43 := by rintro rfl; exact absurd hd.1 (by decide)
    have : atoll (d :: ds) = min (digitsVal (d :: ds) 0 : Int) (2 ^ 63 - 1) := by
      unfold atoll
      rw [hsp]
      split
      · rename_i heq; simp only [List.cons.injEq] at heq; exact absurd heq.1 hne1
      · rename_i heq; simp only [List.cons.injEq] at heq; exact absurd heq.1 hne2
      · rfl
    rw [this, hv]; omega

theorem decimal_last {ds : List Byte} {n : Nat} (h : Decimal ds n) :
    ∃ d, ds.getLast? = some d ∧ 48 ≤ d ∧ d ≤ 57 := by
  have hl : ds.getLast? = some (ds.getLast h.some) := List.getLast?_eq_some_getLast h.some
  exact ⟨_, hl, h.digits _ (List.getLast_mem h.some)⟩

theorem sizeArg_ok {ds suf : List Byte} {n mult : Nat} (hd : Decimal ds n) (hs : Suffix suf mult)
    (hn : n * mult < 2 ^ 63) : sizeArg (ds ++ suf) = .val (n * mult) := by
  rcases hs with ⟨rfl, rfl⟩ | ⟨h, rfl⟩ | ⟨h, rfl⟩
  · obtain ⟨d, hl, h1, h2⟩ := decimal_last hd
    rw [List.append_nil]
    have e1 : ¬ (d = 107 ∨ d = 75) := by
      rintro (rfl | rfl)
      · exact absurd h2 (by decide)
      · exact absurd h2 (by decide)
    have e2 : ¬ (d = 109 ∨ d = 77) := by
      rintro (rfl | rfl)
      · exact absurd h2 (by decide)
      · exact absurd h2 (by decide)
    simp only [sizeArg, hl, e1, e2, or_self, if_false, atoll_decimal hd (by omega)]
    congr 1; omega
  · have hm : ∃ c : Byte, suf = [c] ∧ (c = 107 ∨ c = 75) := by
      rcases h with rfl | rfl
      · exact ⟨107, rfl, .inl rfl⟩
      · exact ⟨75, rfl, .inr rfl⟩
    obtain ⟨c, rfl, hc⟩ := hm
    have e2 : ¬ (c = 109 ∨ c = 77) := by rcases hc with rfl | rfl <;> decide
    simp only [sizeArg, List.getLast?_append, List.getLast?_singleton, Option.some_or, hc, e2, or_false, if_true, if_false,
      List.dropLast_concat, atoll_decimal hd (by omega), shl10]
    rw [if_neg (by omega)]
    simp only []
    congr 1; omega
  · have hm : ∃ c : Byte, suf = [c] ∧ (c = 109 ∨ c = 77) := by
      rcases h with rfl | rfl
      · exact ⟨109, rfl, .inl rfl⟩
      · exact ⟨77, rfl, .inr rfl⟩
    obtain ⟨c, rfl, hc⟩ := hm
    simp only [sizeArg, List.getLast?_append, List.getLast?_singleton, Option.some_or, hc, or_true, if_true,
      List.dropLast_concat, atoll_decimal hd (by omega), shl10]
    rw [if_neg (by omega)]
    simp only []
    rw [if_neg (by omega)]
    simp only []
    congr 1; omega

/-- The part of the state of `cmdline` that the non-option arguments determine. -/
def argPart (st : CmdState) : Nat × Option (List Byte) × Nat × Option (List Byte) × Option (List Byte) :=
  (st.nonspecial, st.serve.exportname, st.serve.expected, st.conf.modernaddr, st.conf.modernport)

theorem cmdStep_arg {st st' r : CmdState} (v : List Byte) (h : argPart st = argPart st')
    (hr : cmdStep st' (.arg v) = .val r) : ∃ r', cmdStep st (.arg v) = .val r' ∧ argPart r' = argPart r := by
  simp only [argPart, Prod.mk.injEq] at h
  obtain ⟨h1, h2, h3, h4, h5⟩ := h
  unfold cmdStep at hr ⊢
  simp only [h1] at hr ⊢
  match hn : st'.nonspecial with
  | 0 =>
    simp only [hn] at hr ⊢
    split at hr
    · cases hr
    · rename_i hh
      simp only [Out.val.injEq] at hr
      subst hr
      rw [if_neg hh]
      exact ⟨_, rfl, by simp only [argPart, h2, h3]⟩
  | 1 =>
    simp only [hn] at hr ⊢
    split at hr
    · cases hr
    · rename_i hh
      simp only [Out.val.injEq] at hr
      subst hr
      rw [if_neg hh]
      exact ⟨_, rfl, by simp only [argPart, h3, h4, h5]⟩
  | 2 =>
    simp only [hn] at hr ⊢
    cases hz : sizeArg v with
    | ub => simp [hz] at hr
    | exit => simp [hz] at hr
    | val n =>
      simp only [hz, Out.val.injEq] at hr ⊢
      subst hr
      exact ⟨_, rfl, by simp only [argPart, h2, h4, h5]⟩
  | n + 3 =>
    simp only [hn, Out.val.injEq] at hr ⊢
    subst hr
    exact ⟨_, rfl, by simp only [argPart, h2, h3, h4, h5]⟩

theorem cmdStep_switch (st : CmdState) (o : CmdOpt) (h : o ≠ .version ∧ o ≠ .unknown ∧ ∀ v, o ≠ .output v)
    (hv : ∀ v, o ≠ .arg v) : ∃ r, cmdStep st o = .val r ∧ argPart r = argPart st := by
  cases o with
  | arg v => exact absurd rfl (hv v)
  | version => exact absurd rfl h.1
  | unknown => exact absurd rfl h.2.1
  | output v => exact absurd rfl (h.2.2 v)
  | _ => exact ⟨_, rfl, rfl⟩

theorem cmdLoop_args (opts : List CmdOpt) : ∀ (st st' r : CmdState), Runs opts → argPart st = argPart st' →
    cmdLoop ((argsOf opts).map .arg) st' = .val r → ∃ r', cmdLoop opts st = .val r' ∧ argPart r' = argPart r := by
  induction opts with
  | nil =>
    intro st st' r _ h hr
    simp only [argsOf, List.filterMap_nil, List.map_nil, cmdLoop, Out.val.injEq] at hr
    subst hr
    exact ⟨st, rfl, h⟩
  | cons o os ih =>
    intro st st' r hrun h hr
    have hos : Runs os := fun x hx => hrun x (by simp [hx])
    by_cases ho : ∃ v, o = .arg v
    · obtain ⟨v, rfl⟩ := ho
      have e : argsOf (.arg v :: os) = v :: argsOf os := by simp [argsOf]
      rw [e] at hr
      simp only [List.map_cons, cmdLoop] at hr ⊢
      cases hs : cmdStep st' (.arg v) with
      | ub => simp [hs] at hr
      | exit => simp [hs] at hr
      | val r1 =>
        simp only [hs] at hr
        obtain ⟨r2, h1, h2⟩ := cmdStep_arg v h hs
        simp only [h1]
        exact ih r2 r1 r hos h2 hr
    · have hv : ∀ v, o ≠ .arg v := fun v e => ho ⟨v, e⟩
      have e : argsOf (o :: os) = argsOf os := by
        cases o <;> simp_all [argsOf]
      rw [e] at hr
      obtain ⟨r1, h1, h2⟩ := cmdStep_switch st o (hrun o (by simp)) hv
      simp only [cmdLoop, h1]
      exact ih r1 st' r hos (h2.trans h) hr

theorem cmdLoop_section (opts : List CmdOpt) : ∀ (st r : CmdState), Runs opts → cmdLoop opts st = .val r →
    r.section_ = st.section_ := by
  induction opts with
  | nil => intro st r _ h; simp only [cmdLoop, Out.val.injEq] at h; subst h; rfl
  | cons o os ih =>
    intro st r hrun h
    have hos : Runs os := fun x hx => hrun x (by simp [hx])
    have ho := hrun o (by simp)
    simp only [cmdLoop] at h
    cases hs : cmdStep st o with
    | ub => simp [hs] at h
    | exit => simp [hs] at h
    | val r1 =>
      simp only [hs] at h
      rw [ih r1 r hos h]
      cases o with
      | version => exact absurd rfl ho.1
      | unknown => exact absurd rfl ho.2.1
      | output v => exact absurd rfl (ho.2.2 v)
      | arg v =>
        unfold cmdStep at hs
        match hn : st.nonspecial with
        | 0 =>
          simp only [hn] at hs
          split at hs
          · cases hs
          · simp only [Out.val.injEq] at hs; subst hs; rfl
        | 1 =>
          simp only [hn] at hs
          split at hs
          · cases hs
          · simp only [Out.val.injEq] at hs; subst hs; rfl
        | 2 =>
          simp only [hn] at hs
          cases hz : sizeArg v with
          | ub => simp [hz] at hs
          | exit => simp [hz] at hs
          | val n => simp only [hz, Out.val.injEq] at hs; subst hs; rfl
        | n + 3 => simp only [hn, Out.val.injEq] at hs; subst hs; rfl
      | _ => simp only [cmdStep, Out.val.injEq] at hs; subst hs; rfl

/-- **C42** (partial: sizes below 2^63, the largest file offset). However the options are mixed in, a size argument of decimal
digits with an optional suffix configures exactly that many bytes, KiB or MiB. -/
theorem C42_size_partial (digits : Int → List Byte) (opts : List CmdOpt) (p f ds suf : List Byte) (n mult : Nat)
    (hp : p ≠ []) (hargs : argsOf opts = [p, 47 :: f, ds ++ suf]) (hrun : Runs opts) (hd : Decimal ds n) (hs : Suffix suf mult)
    (hn : n * mult < 2 ^ 63) :
    ∃ s st, cmdline digits opts = .run (some s) st ∧ s.expected = n * mult ∧ s.exportname = some (47 :: f) := by
  have hz := sizeArg_ok hd hs hn
  generalize hst : ({ serve := { authname := some defaultAuth, virtstyle := .iplit } } : CmdState) = st0
  have hstart : cmdLoop ((argsOf opts).map .arg) st0 = .val { st0 with
      nonspecial := 3
      conf := { st0.conf with modernaddr := (addrPort p).1, modernport := some (addrPort p).2 }
      serve := { st0.serve with exportname := some (47 :: f), expected := n * mult } } := by
    rw [hargs]
    subst hst
    simp [cmdLoop, cmdStep, hz, hp]
  obtain ⟨r, h1, h2⟩ := cmdLoop_args opts st0 st0 _ hrun rfl hstart
  simp only [argPart, Prod.mk.injEq] at h2
  have h3 : r.section_ = none := by rw [cmdLoop_section opts st0 r hrun h1, ← hst]
  refine ⟨{ r.serve with servename := some [] }, r, ?_, h2.2.2.1, h2.2.1⟩
  unfold cmdline
  rw [hst, h1]
  simp only [h2.1, h3]
  rfl

example : ascii "10809" ≠ [] ∧ Runs [.readOnly, .arg (ascii "10809"), .arg (ascii "/x"), .maxConn (ascii "3"), .arg (ascii "10M")] ∧
    argsOf [.readOnly, .arg (ascii "10809"), .arg (ascii "/x"), .maxConn (ascii "3"), .arg (ascii "10M")] =
      [ascii "10809", 47 :: ascii "x", ascii "10" ++ ascii "M"] ∧ Decimal (ascii "10") 10 ∧
    Suffix (ascii "M") (1024 * 1024) ∧ 10 * (1024 * 1024) < 2 ^ 63 := by
  refine ⟨by decide, ?_, by decide, ⟨by decide, by decide, by decide⟩, .inr (.inr ⟨.inr rfl, rfl⟩), by decide⟩
  intro o ho
  simp only [List.mem_cons, List.not_mem_nil, or_false] at ho
  rcases ho with rfl | rfl | rfl | rfl | rfl <;> simp

/-- **C42 fails** in full: a size with a suffix that is 2^63 bytes or more is undefined behaviour, and one without is silently
cut to 2^63 - 1. -/
theorem C42_false :
    (Decimal (ascii "9007199254740992") (2 ^ 53) ∧ sizeArg (ascii "9007199254740992" ++ ascii "k") = .ub) ∧
    (Decimal (ascii "9223372036854775808") (2 ^ 63) ∧
      sizeArg (ascii "9223372036854775808") = .val (2 ^ 63 - 1)) := by
  refine ⟨⟨⟨by decide, by decide, by decide⟩, by decide +kernel⟩, ⟨⟨by decide, by decide, by decide⟩, by decide +kernel⟩⟩

theorem split2_none {sep : Byte} {v : List Byte} (h : sep ∉ v) : split2 sep v = (v, none) := by
  unfold split2
  have : v.dropWhile (· ≠ sep) = [] := by
    have hall : ∀ x ∈ v, (fun x => decide (x ≠ sep)) x = true := by
      intro x hx
      simp only [ne_eq, decide_not, Bool.not_eq_true', decide_eq_false_iff_not]
      rintro rfl; exact h hx
    have := List.dropWhile_append_of_pos (l₂ := []) hall
    simpa using this
  rw [this]

theorem split2_some {sep : Byte} {a p : List Byte} (h : sep ∉ a) : split2 sep (a ++ [sep] ++ p) = (a, some p) := by
  have hall : ∀ x ∈ a, (fun x => decide (x ≠ sep)) x = true := by
    intro x hx
    simp only [ne_eq, decide_not, Bool.not_eq_true', decide_eq_false_iff_not]
    rintro rfl; exact h hx
  have h1 : (a ++ [sep] ++ p).dropWhile (· ≠ sep) = sep :: p := by
    rw [List.append_assoc, List.dropWhile_append_of_pos hall]; simp
  have h2 : (a ++ [sep] ++ p).takeWhile (· ≠ sep) = a := by
    rw [List.append_assoc, List.takeWhile_append_of_pos hall]; simp
  unfold split2
  rw [h1, h2]

theorem addrPort_listen {v p : List Byte} {a : Option (List Byte)} (h : Listen v a p) : addrPort v = (a, p) := by
  cases h with
  | port _ _ h h' =>
    have hc : v.count 58 = 0 := List.count_eq_zero.mpr h
    simp only [addrPort, hc, Nat.zero_le, if_true, split2_none h, split2_none h']
  | colon a p h h' =>
    have hc : (a ++ [58] ++ p).count 58 = 1 := by
      simp [List.count_append, List.count_eq_zero.mpr h, List.count_eq_zero.mpr h']
    simp only [addrPort, hc, Nat.le_refl, if_true, split2_some h]
  | at4 a p h h' h'' =>
    have hn : (58 : Byte) ∉ a ++ [64] ++ p := by simp [h, h']
    have hc : (a ++ [64] ++ p).count 58 = 0 := List.count_eq_zero.mpr hn
    simp only [addrPort, hc, Nat.zero_le, if_true, split2_none hn, split2_some h'']
  | at6 a p h h'' =>
    have hc : ¬ (a ++ [64] ++ p).count 58 ≤ 1 := by
      simp only [List.count_append]; omega
    simp only [addrPort, hc, if_false, split2_some h'']

theorem listen_ne {v p : List Byte} {a : Option (List Byte)} (h : Listen v a p) : v ≠ [] := by
  cases h with
  | port _ h _ _ => exact h
  | colon a p _ _ => simp
  | at4 a p _ _ _ => simp
  | at6 a p _ _ => simp

/-- The switches seen so far. -/
structure Seen (opts : List CmdOpt) (st : CmdState) : Prop where
  ro : has st.serve.flags F_READONLY = true ↔ .readOnly ∈ opts
  multi : has st.serve.flags F_MULTIFILE = true ↔ .multiFile ∈ opts
  cow : has st.serve.flags F_COPYONWRITE = true ↔ .copyOnWrite ∈ opts
  bits : ∀ i, st.serve.flags.testBit i = true → i ≤ 2
  auth : st.serve.authname = some ((lastOf (fun o => match o with
    | .authFile v => some v
    | _ => none) opts).getD defaultAuth)
  maxc : st.serve.maxConn = match lastOf (fun o => match o with
    | .maxConn v => some v
    | _ => none) opts with
    | some v => (strtol0 v + 2 ^ 31) % 2 ^ 32 - 2 ^ 31
    | none => 0
  df : st.dontfork = true ↔ .dontFork ∈ opts
  virt : st.serve.virtstyle = .iplit

theorem has_flag_or (x i j : Nat) : has (x ||| 2 ^ j) (2 ^ i) = (has x (2 ^ i) || decide (i = j)) := by
  simp only [has_two_pow, Nat.testBit_or, Nat.testBit_two_pow]
  by_cases h : j = i
  · subst h; simp
  · have : ¬ i = j := fun e => h e.symm
    simp [h, this]

theorem Seen.step {opts : List CmdOpt} {st r : CmdState} {o : CmdOpt} (h : Seen opts st) (hs : cmdStep st o = .val r) :
    Seen (opts ++ [o]) r := by
  obtain ⟨h1, h2, h3, h4, h5, h6, h7, h8⟩ := h
  have f0 : F_READONLY = 2 ^ 0 := rfl
  have f1 : F_MULTIFILE = 2 ^ 1 := rfl
  have f2 : F_COPYONWRITE = 2 ^ 2 := rfl
  have keep : ∀ r : CmdState, r.serve.flags = st.serve.flags → r.serve.authname = st.serve.authname →
      r.serve.maxConn = st.serve.maxConn → r.dontfork = st.dontfork → r.serve.virtstyle = st.serve.virtstyle →
      (o ≠ .readOnly ∧ o ≠ .multiFile ∧ o ≠ .copyOnWrite ∧ o ≠ .dontFork ∧ (∀ v, o ≠ .authFile v) ∧ ∀ v, o ≠ .maxConn v) →
      Seen (opts ++ [o]) r := by
    intro r e1 e2 e3 e4 e5 ⟨n1, n2, n3, n4, n5, n6⟩
    have n1' := n1.symm; have n2' := n2.symm; have n3' := n3.symm; have n4' := n4.symm
    refine ⟨by rw [e1, h1]; simp [n1'], by rw [e1, h2]; simp [n2'], by rw [e1, h3]; simp [n3'], by rw [e1]; exact h4,
      ?_, ?_, by rw [e4, h7]; simp [n4'], by rw [e5, h8]⟩
    · rw [e2, h5]
      simp only [lastOf, List.filterMap_append]
      cases o <;> simp_all
    · rw [e3, h6]
      simp only [lastOf, List.filterMap_append]
      cases o <;> simp_all
  cases o with
  | version => cases hs
  | unknown => cases hs
  | arg v =>
    unfold cmdStep at hs
    have hk : ∀ r : CmdState, r.serve.flags = st.serve.flags → r.serve.authname = st.serve.authname →
      r.serve.maxConn = st.serve.maxConn → r.dontfork = st.dontfork → r.serve.virtstyle = st.serve.virtstyle →
      Seen (opts ++ [.arg v]) r := fun r a b c d e => keep r a b c d e (by simp)
    match hn : st.nonspecial with
    | 0 =>
      simp only [hn] at hs
      split at hs
      · cases hs
      · simp only [Out.val.injEq] at hs; subst hs; exact hk _ rfl rfl rfl rfl rfl
    | 1 =>
      simp only [hn] at hs
      split at hs
      · cases hs
      · simp only [Out.val.injEq] at hs; subst hs; exact hk _ rfl rfl rfl rfl rfl
    | 2 =>
      simp only [hn] at hs
      cases hz : sizeArg v with
      | ub => simp [hz] at hs
      | exit => simp [hz] at hs
      | val n => simp only [hz, Out.val.injEq] at hs; subst hs; exact hk _ rfl rfl rfl rfl rfl
    | n + 3 => simp only [hn, Out.val.injEq] at hs; subst hs; exact hk _ rfl rfl rfl rfl rfl
  | noDaemon => simp only [cmdStep, Out.val.injEq] at hs; subst hs; exact keep _ rfl rfl rfl rfl rfl (by simp)
  | configFile v => simp only [cmdStep, Out.val.injEq] at hs; subst hs; exact keep _ rfl rfl rfl rfl rfl (by simp)
  | pidFile v => simp only [cmdStep, Out.val.injEq] at hs; subst hs; exact keep _ rfl rfl rfl rfl rfl (by simp)
  | output v => simp only [cmdStep, Out.val.injEq] at hs; subst hs; exact keep _ rfl rfl rfl rfl rfl (by simp)
  | readOnly =>
    simp only [cmdStep, Out.val.injEq] at hs; subst hs
    refine ⟨?_, ?_, ?_, ?_, ?_, ?_, ?_, h8⟩
    · simp only [f0, has_flag_or]; simp
    · simp only [f0, f1, has_flag_or] at h2 ⊢; simp [h2]
    · simp only [f0, f2, has_flag_or] at h3 ⊢; simp [h3]
    · intro i hi
      simp only [f0, Nat.testBit_or, Nat.testBit_two_pow, Bool.or_eq_true, decide_eq_true_eq] at hi
      rcases hi with hi | hi
      · exact h4 i hi
      · omega
    · simpa [lastOf] using h5
    · simpa [lastOf] using h6
    · simp [h7]
  | multiFile =>
    simp only [cmdStep, Out.val.injEq] at hs; subst hs
    refine ⟨?_, ?_, ?_, ?_, ?_, ?_, ?_, h8⟩
    · simp only [f0, f1, has_flag_or] at h1 ⊢; simp [h1]
    · simp only [f1, has_flag_or]; simp
    · simp only [f1, f2, has_flag_or] at h3 ⊢; simp [h3]
    · intro i hi
      simp only [f1, Nat.testBit_or, Nat.testBit_two_pow, Bool.or_eq_true, decide_eq_true_eq] at hi
      rcases hi with hi | hi
      · exact h4 i hi
      · omega
    · simpa [lastOf] using h5
    · simpa [lastOf] using h6
    · simp [h7]
  | copyOnWrite =>
    simp only [cmdStep, Out.val.injEq] at hs; subst hs
    refine ⟨?_, ?_, ?_, ?_, ?_, ?_, ?_, h8⟩
    · simp only [f0, f2, has_flag_or] at h1 ⊢; simp [h1]
    · simp only [f1, f2, has_flag_or] at h2 ⊢; simp [h2]
    · simp only [f2, has_flag_or]; simp
    · intro i hi
      simp only [f2, Nat.testBit_or, Nat.testBit_two_pow, Bool.or_eq_true, decide_eq_true_eq] at hi
      rcases hi with hi | hi
      · exact h4 i hi
      · omega
    · simpa [lastOf] using h5
    · simpa [lastOf] using h6
    · simp [h7]
  | dontFork =>
    simp only [cmdStep, Out.val.injEq] at hs; subst hs
    refine ⟨by simp [h1], by simp [h2], by simp [h3], h4, ?_, ?_, by simp, h8⟩
    · simpa [lastOf] using h5
    · simpa [lastOf] using h6
  | authFile v =>
    simp only [cmdStep, Out.val.injEq] at hs; subst hs
    refine ⟨by simp [h1], by simp [h2], by simp [h3], h4, ?_, ?_, by simp [h7], h8⟩
    · simp [lastOf]
    · simpa [lastOf] using h6
  | maxConn v =>
    simp only [cmdStep, Out.val.injEq] at hs; subst hs
    refine ⟨by simp [h1], by simp [h2], by simp [h3], h4, ?_, ?_, by simp [h7], h8⟩
    · simpa [lastOf] using h5
    · simp [lastOf]

theorem Seen.loop (opts : List CmdOpt) : ∀ (pre : List CmdOpt) (st r : CmdState), Seen pre st → cmdLoop opts st = .val r →
    Seen (pre ++ opts) r := by
  induction opts with
  | nil => intro pre st r h hr; simp only [cmdLoop, Out.val.injEq] at hr; subst hr; simpa using h
  | cons o os ih =>
    intro pre st r h hr
    simp only [cmdLoop] at hr
    cases hs : cmdStep st o with
    | ub => simp [hs] at hr
    | exit => simp [hs] at hr
    | val r1 =>
      simp only [hs] at hr
      have := ih (pre ++ [o]) r1 r (h.step hs) hr
      simpa using this

theorem Seen.start : Seen [] { serve := { authname := some defaultAuth, virtstyle := .iplit } } :=
  ⟨by decide, by decide, by decide, by intro i hi; simp at hi, rfl, rfl, by decide, rfl⟩

theorem wrap32 (n : Nat) (h : n < 2 ^ 31) : ((n : Int) + 2 ^ 31) % 2 ^ 32 - 2 ^ 31 = n := by omega

/-- **C63**. An export given on the command line is configured as written, in whatever order the options come: the address and
port, the file, read-only, multi-file and copy-on-write exactly if asked for (and no other flag), the last access list
named or the default one, the last connection limit given, and the export is the one with the empty name. -/
theorem C63_cmdline (digits : Int → List Byte) (opts : List CmdOpt) (l f p : List Byte) (a : Option (List Byte))
    (hargs : argsOf opts = [l, 47 :: f]) (hrun : Runs opts) (hl : Listen l a p) :
    ∃ s st, cmdline digits opts = .run (some s) st ∧ st.conf.modernaddr = a ∧ st.conf.modernport = some p ∧
      s.exportname = some (47 :: f) ∧ s.expected = 0 ∧ s.servename = some [] ∧
      (has s.flags F_READONLY = true ↔ .readOnly ∈ opts) ∧ (has s.flags F_MULTIFILE = true ↔ .multiFile ∈ opts) ∧
      (has s.flags F_COPYONWRITE = true ↔ .copyOnWrite ∈ opts) ∧
      (∀ i, s.flags.testBit i = true → 2 ^ i ∈ [F_READONLY, F_MULTIFILE, F_COPYONWRITE]) ∧
      s.authname = some ((lastOf (fun o => match o with
        | .authFile v => some v
        | _ => none) opts).getD defaultAuth) ∧
      (∀ n : Nat, n < 2 ^ 31 → (∀ v, lastOf (fun o => match o with
        | .maxConn v => some v
        | _ => none) opts = some v → strtol0 v = n) →
        s.maxConn = if opts.any (fun o => match o with
          | .maxConn _ => true
          | _ => false) then (n : Int) else 0) := by
  generalize hst : ({ serve := { authname := some defaultAuth, virtstyle := .iplit } } : CmdState) = st0
  have hstart : cmdLoop ((argsOf opts).map .arg) st0 = .val { st0 with
      nonspecial := 2
      conf := { st0.conf with modernaddr := (addrPort l).1, modernport := some (addrPort l).2 }
      serve := { st0.serve with exportname := some (47 :: f) } } := by
    rw [hargs]
    subst hst
    simp [cmdLoop, cmdStep, listen_ne hl]
  obtain ⟨r, h1, h2⟩ := cmdLoop_args opts st0 st0 _ hrun rfl hstart
  simp only [argPart, Prod.mk.injEq] at h2
  have h3 : r.section_ = none := by rw [cmdLoop_section opts st0 r hrun h1, ← hst]
  have hseen : Seen opts r := by
    have := Seen.loop opts [] st0 r (hst ▸ Seen.start) h1
    simpa using this
  rw [addrPort_listen hl] at h2
  refine ⟨{ r.serve with servename := some [] }, r, ?_, h2.2.2.2.1, h2.2.2.2.2, h2.2.1, ?_, rfl, hseen.ro, hseen.multi,
    hseen.cow, ?_, hseen.auth, ?_⟩
  · unfold cmdline
    rw [hst, h1]
    simp only [h2.1, h3]
    rfl
  · simp only [h2.2.2.1]; subst hst; rfl
  · intro i hi
    have := hseen.bits i hi
    rcases i with _ | _ | _ | i
    · simp [F_READONLY]
    · simp [F_MULTIFILE]
    · simp [F_COPYONWRITE]
    · omega
  · intro n hn hv
    have hm := hseen.maxc
    simp only [] at hm ⊢
    rw [hm]
    split
    · rename_i v hv'
      have : opts.any (fun o => match o with
          | .maxConn _ => true
          | _ => false) = true := by
        unfold lastOf at hv'
        have := List.mem_of_getLast? hv'
        obtain ⟨o, ho, he⟩ := List.mem_filterMap.mp this
        rw [List.any_eq_true]
        refine ⟨o, ho, ?_⟩
        cases o with
        | maxConn x => rfl
        | _ => simp at he
      rw [if_pos this, hv v hv']
      exact wrap32 n hn
    · rename_i hv'
      have : ¬ opts.any (fun o => match o with
          | .maxConn _ => true
          | _ => false) = true := by
        rw [List.any_eq_true]
        rintro ⟨o, ho, he⟩
        obtain ⟨v, rfl⟩ : ∃ v, o = .maxConn v := by
          cases o with
          | maxConn x => exact ⟨x, rfl⟩
          | _ => simp at he
        have hv'' := ho
        unfold lastOf at hv'
        rw [List.getLast?_eq_none_iff] at hv'
        have : v ∈ opts.filterMap (fun o => match o with
          | .maxConn v => some v
          | _ => none) := List.mem_filterMap.mpr ⟨_, hv'', rfl⟩
        rw [hv'] at this
        cases this
      rw [if_neg this]

example : ∃ l f p a, argsOf [.arg (ascii "[::1]@10809"), .readOnly, .arg (ascii "/x"), .maxConn (ascii "3")] = [l, 47 :: f] ∧
    Runs [.arg (ascii "[::1]@10809"), .readOnly, .arg (ascii "/x"), .maxConn (ascii "3")] ∧ Listen l a p ∧
    a = some (ascii "[::1]") ∧ p = ascii "10809" := by
  refine ⟨ascii "[::1]@10809", ascii "x", ascii "10809", some (ascii "[::1]"), by decide, ?_, ?_, rfl, rfl⟩
  · intro o ho
    simp only [List.mem_cons, List.not_mem_nil, or_false] at ho
    rcases ho with rfl | rfl | rfl | rfl <;> simp
  · exact Listen.at6 (ascii "[::1]") (ascii "10809") (by decide) (by decide)

/-- An empty first argument is neither a port nor an address: the program then reads behind the end of the vector that
`g_strsplit` answers, whatever else is on the command line. -/
theorem C63_empty (digits : Int → List Byte) (opts : List CmdOpt) (pre : List CmdOpt) (hrun : Runs pre) (hno : argsOf pre = []) :
    cmdline digits (pre ++ .arg [] :: opts) = .ub := by
  have key : ∀ (pre : List CmdOpt) (st : CmdState), Runs pre → argsOf pre = [] → st.nonspecial = 0 →
      cmdLoop (pre ++ .arg [] :: opts) st = .ub := by
    intro pre
    induction pre with
    | nil => intro st _ _ h0; simp [cmdLoop, cmdStep, h0]
    | cons o os ih =>
      intro st hr ha h0
      have hv : ∀ v, o ≠ .arg v := by rintro v rfl; simp [argsOf] at ha
      have ha' : argsOf os = [] := by cases o <;> simp_all [argsOf]
      obtain ⟨r, h1, h2⟩ := cmdStep_switch st o (hr o (by simp)) hv
      simp only [argPart, Prod.mk.injEq] at h2
      rw [List.cons_append]
      simp only [cmdLoop, h1]
      exact ih r (fun x hx => hr x (by simp [hx])) ha' (h2.1.trans h0)
  unfold cmdline
  rw [key pre _ hrun hno rfl]

example : Runs [.readOnly] ∧ argsOf [.readOnly] = [] := ⟨by intro o ho; simp at ho; subst ho; simp, by decide⟩

/-! ### `-o` -/

/-- The state with another section name. -/
def secSet (st : CmdState) (x : Option (List Byte)) : CmdState := { st with section_ := x }

theorem cmdStep_secSet (st : CmdState) (x : Option (List Byte)) (o : CmdOpt) (h : ∀ v, o ≠ .output v) :
    cmdStep (secSet st x) o = match cmdStep st o with
      | .val r => .val (secSet r x)
      | .ub => .ub
      | .exit => .exit := by
  cases o with
  | arg v =>
    unfold cmdStep
    have hn : (secSet st x).nonspecial = st.nonspecial := rfl
    rw [hn]
    match st.nonspecial with
    | 0 =>
      simp only []
      by_cases hv : v = []
      · rw [if_pos hv, if_pos hv]
      · rw [if_neg hv, if_neg hv]; rfl
    | 1 =>
      simp only []
      by_cases hv : v.head? ≠ some 47
      · rw [if_pos hv, if_pos hv]
      · rw [if_neg hv, if_neg hv]; rfl
    | 2 =>
      simp only []
      cases sizeArg v <;> rfl
    | n + 3 => rfl
  | output v => exact absurd rfl (h v)
  | _ => rfl

theorem cmdLoop_withoutOutput (opts : List CmdOpt) (x : Option (List Byte)) : ∀ (st r : CmdState), cmdLoop opts st = .val r →
    cmdLoop (withoutOutput opts) (secSet st x) = .val (secSet r x) := by
  induction opts with
  | nil => intro st r h; simp only [cmdLoop, Out.val.injEq] at h; subst h; rfl
  | cons o os ih =>
    intro st r h
    simp only [cmdLoop] at h
    cases hs : cmdStep st o with
    | ub => simp [hs] at h
    | exit => simp [hs] at h
    | val r1 =>
      simp only [hs] at h
      by_cases ho : ∃ v, o = .output v
      · obtain ⟨v, rfl⟩ := ho
        simp only [cmdStep, Out.val.injEq] at hs
        have := ih r1 r h
        rw [show secSet r1 x = secSet st x by subst hs; rfl] at this
        exact this
      · have ho' : ∀ v, o ≠ .output v := fun v e => ho ⟨v, e⟩
        have : withoutOutput (o :: os) = o :: withoutOutput os := by
          cases o with
          | output v => exact absurd rfl (ho' v)
          | _ => rfl
        rw [this]
        simp only [cmdLoop]
        rw [cmdStep_secSet st x o ho', hs]
        exact ih r1 r h

theorem withoutOutput_mem {o : CmdOpt} {opts : List CmdOpt} (h : ∀ v, o ≠ .output v) : o ∈ withoutOutput opts ↔ o ∈ opts := by
  unfold withoutOutput
  rw [List.mem_filter]
  constructor
  · exact fun h => h.1
  · intro h'
    refine ⟨h', ?_⟩
    cases o with
    | output v => exact absurd rfl (h v)
    | _ => rfl

/-- The keys of a printed section. -/
theorem dumpSection_keys {s : Srv} {digits : Int → List Byte} {k v : List Byte} (h : (k, v) ∈ dumpSection s digits) :
    k ∈ [ascii "exportname", ascii "listenaddr", ascii "readonly", ascii "multifile", ascii "treefiles", ascii "copyonwrite",
      ascii "filesize", ascii "authfile"] := by
  unfold dumpSection at h
  simp only [List.mem_append, List.mem_cons, List.not_mem_nil, or_false, Prod.mk.injEq] at h
  rcases h with ((((((h | h) | h) | h) | h) | h) | h)
  · rcases h with h | h <;> simp [h.1]
  all_goals
    split at h
    · simp only [List.mem_cons, List.not_mem_nil, or_false, Prod.mk.injEq] at h; simp [h.1]
    · cases h

theorem dumpSection_bool {s : Srv} {digits : Int → List Byte} {g : KGroup} {sect : List Byte}
    (hg : ReadsAs digits sect (dumpSection s digits) g) (k : String) (f : Nat)
    (hk : (k, f) ∈ [("readonly", F_READONLY), ("multifile", F_MULTIFILE), ("treefiles", F_TREEFILES), ("copyonwrite", F_COPYONWRITE)]) :
    (has s.flags f = true → g.bool (ascii k) = .ok true) ∧ (has s.flags f = false → g.bool (ascii k) = .missing) := by
  constructor
  · intro hf
    apply hg.bool
    simp only [List.mem_cons, List.not_mem_nil, or_false, Prod.mk.injEq] at hk
    rcases hk with ⟨rfl, rfl⟩ | ⟨rfl, rfl⟩ | ⟨rfl, rfl⟩ | ⟨rfl, rfl⟩ <;> simp [dumpSection, hf]
  · intro hf
    refine (hg.rest (ascii k) ?_).2.2.2
    intro v hv
    unfold dumpSection at hv
    simp only [List.mem_append, List.mem_cons, List.not_mem_nil, or_false, Prod.mk.injEq] at hv
    have ne : ∀ {a b : List Byte}, a ≠ b → a = b → False := fun h e => h e
    simp only [List.mem_cons, List.not_mem_nil, or_false, Prod.mk.injEq] at hk
    rcases hv with ((((((h | h) | h) | h) | h) | h) | h)
    · rcases h with h | h <;> rcases hk with ⟨rfl, rfl⟩ | ⟨rfl, rfl⟩ | ⟨rfl, rfl⟩ | ⟨rfl, rfl⟩ <;>
        exact absurd h.1 (by decide)
    all_goals
      split at h
      · rename_i hc
        simp only [List.mem_cons, List.not_mem_nil, or_false, Prod.mk.injEq] at h
        rcases hk with ⟨rfl, rfl⟩ | ⟨rfl, rfl⟩ | ⟨rfl, rfl⟩ | ⟨rfl, rfl⟩ <;>
          first
          | exact absurd h.1 (by decide)
          | (rw [hf] at hc; cases hc)
      · cases h

/-- Once the file has been given there is one, and the size fits into 64 bits. -/
structure Named (st : CmdState) : Prop where
  named : 2 ≤ st.nonspecial → ∃ v, st.serve.exportname = some v
  size : st.serve.expected < 2 ^ 64

theorem sizeArg_lt {v : List Byte} {n : Nat} (h : sizeArg v = .val n) : n < 2 ^ 64 := by
  unfold sizeArg at h
  cases hl : v.getLast? with
  | none => simp [hl] at h
  | some c =>
    simp only [hl] at h
    split at h
    · rename_i es _
      simp only [Out.val.injEq] at h
      subst h
      omega
    · cases h
    · cases h

theorem Named.step {st r : CmdState} {o : CmdOpt} (h : Named st) (hs : cmdStep st o = .val r) : Named r := by
  obtain ⟨h1, h2⟩ := h
  cases o with
  | version => cases hs
  | unknown => cases hs
  | arg v =>
    unfold cmdStep at hs
    match hn : st.nonspecial with
    | 0 =>
      simp only [hn] at hs
      split at hs
      · cases hs
      · simp only [Out.val.injEq] at hs; subst hs
        exact ⟨fun h => absurd (show 2 ≤ 1 from h) (by decide), h2⟩
    | 1 =>
      simp only [hn] at hs
      split at hs
      · cases hs
      · simp only [Out.val.injEq] at hs; subst hs; exact ⟨fun _ => ⟨v, rfl⟩, h2⟩
    | 2 =>
      simp only [hn] at hs
      cases hz : sizeArg v with
      | ub => simp [hz] at hs
      | exit => simp [hz] at hs
      | val n => simp only [hz, Out.val.injEq] at hs; subst hs; exact ⟨fun _ => h1 (by omega), sizeArg_lt hz⟩
    | n + 3 => simp only [hn, Out.val.injEq] at hs; subst hs; exact ⟨fun _ => h1 (by omega), h2⟩
  | _ => simp only [cmdStep, Out.val.injEq] at hs; subst hs; exact ⟨h1, h2⟩

theorem Named.loop (opts : List CmdOpt) : ∀ (st r : CmdState), Named st → cmdLoop opts st = .val r → Named r := by
  induction opts with
  | nil => intro st r h hr; simp only [cmdLoop, Out.val.injEq] at hr; subst hr; exact h
  | cons o os ih =>
    intro st r h hr
    simp only [cmdLoop] at hr
    cases hs : cmdStep st o with
    | ub => simp [hs] at hr
    | exit => simp [hs] at hr
    | val r1 => simp only [hs] at hr; exact ih r1 r (h.step hs) hr

/-- **C61** (partial). The section printed by `-o`, read back from a configuration file, defines an export with the same file,
size, access list and options as the command line it was made from. Missing: the connection limit. -/
theorem C61_section_partial (b : Build) (digits : Int → List Byte) (opts : List CmdOpt) (sect : List Byte)
    (lines : List (List Byte × List Byte)) (g : KGroup) (h : cmdline digits opts = .printed sect lines)
    (hg : ReadsAs digits sect lines g) :
    ∃ s st t, cmdline digits (withoutOutput opts) = .run (some s) st ∧ parseExport b g = some t ∧
      t.servename = some sect ∧ t.exportname = s.exportname ∧ t.expected = s.expected ∧ t.flags = s.flags ∧
      t.authname = s.authname ∧ t.virtstyle = s.virtstyle ∧ t.prerun = none ∧ t.postrun = none ∧
      t.transactionlog = none ∧ t.cowdir = none := by
  generalize hst : ({ serve := { authname := some defaultAuth, virtstyle := .iplit } } : CmdState) = st0
  unfold cmdline at h
  rw [hst] at h
  cases hl : cmdLoop opts st0 with
  | ub => simp [hl] at h
  | exit => simp [hl] at h
  | val r =>
    simp only [hl] at h
    cases hsec : r.section_ with
    | none => simp [hsec] at h
    | some sect' =>
      simp only [hsec] at h
      by_cases hns : r.nonspecial < 2
      · simp [hns] at h
      · simp only [if_neg hns, CmdEnd.printed.injEq] at h
        obtain ⟨rfl, rfl⟩ := h
        have hrun := cmdLoop_withoutOutput opts none st0 r hl
        have hsame : secSet st0 none = st0 := by subst hst; rfl
        rw [hsame] at hrun
        have hseen : Seen opts r := by
          have := Seen.loop opts [] st0 r (hst ▸ Seen.start) hl
          simpa using this
        generalize hs : ({ r.serve with servename := some [] } : Srv) = s at hg
        have e1 : s.flags = r.serve.flags := by subst hs; rfl
        have e2 : s.authname = r.serve.authname := by subst hs; rfl
        have e4 : s.virtstyle = .iplit := by subst hs; exact hseen.virt
        have hbits : ∀ i, s.flags.testBit i = true → i ≤ 2 := by rw [e1]; exact hseen.bits
        have miss : ∀ k, k ∉ [ascii "exportname", ascii "listenaddr", ascii "readonly", ascii "multifile", ascii "treefiles",
            ascii "copyonwrite", ascii "filesize", ascii "authfile"] →
            g.str k = .missing ∧ g.int k = .missing ∧ g.int64 k = .missing ∧ g.bool k = .missing := by
          intro k hk
          exact hg.rest k (fun v hv => hk (dumpSection_keys hv))
        have hnamed : Named r := Named.loop opts st0 r (by subst hst; exact ⟨fun h => absurd h (by decide), by decide⟩) hl
        obtain ⟨fname, hfname⟩ := hnamed.named (by omega)
        have e3 : s.exportname = some fname := by subst hs; exact hfname
        have e5 : s.authname.isSome = true := by rw [e2, hseen.auth]; rfl
        obtain ⟨an, han⟩ := Option.isSome_iff_exists.mp e5
        have e6 : s.expected < 2 ^ 64 := by subst hs; exact hnamed.size
        have sname : g.str (ascii "exportname") = .ok fname := hg.str _ _ (by simp [dumpSection, e3])
        have sauth : g.str (ascii "authfile") = .ok an := hg.str _ _ (by simp [dumpSection, han])
        have slist : g.str (ascii "listenaddr") ≠ .bad := by
          rw [hg.str (ascii "listenaddr") (s.listenaddr.getD (ascii "(null)")) (by simp [dumpSection])]; simp
        have ssize : numOf (g.int64 (ascii "filesize")) % 2 ^ 64 = (s.expected : Int) ∧ g.int64 (ascii "filesize") ≠ .bad := by
          by_cases hz : s.expected = 0
          · have : g.int64 (ascii "filesize") = .missing := by
              refine (hg.rest _ ?_).2.2.1
              intro v hv
              unfold dumpSection at hv
              simp only [List.mem_append, List.mem_cons, List.not_mem_nil, or_false, Prod.mk.injEq] at hv
              rcases hv with ((((((h | h) | h) | h) | h) | h) | h)
              · rcases h with h | h <;> exact absurd h.1 (by decide)
              all_goals
                split at h
                · rename_i hc
                  simp only [List.mem_cons, List.not_mem_nil, or_false, Prod.mk.injEq] at h
                  first
                  | exact absurd hz hc
                  | exact absurd h.1 (by decide)
                · cases h
            rw [this, hz]
            exact ⟨rfl, by simp⟩
          · have : g.int64 (ascii "filesize") =
                .ok (if s.expected < 2 ^ 63 then (s.expected : Int) else (s.expected : Int) - 2 ^ 64) := by
              apply hg.num
              simp [dumpSection, hz]
            rw [this]
            refine ⟨?_, by simp⟩
            simp only [numOf]
            split <;> omega
        have offBit : ∀ kf ∈ boolOptions, kf.2 ≠ F_READONLY → kf.2 ≠ F_MULTIFILE → kf.2 ≠ F_COPYONWRITE →
            g.bool (ascii kf.1) = .missing := by
          intro kf hk n1 n2 n3
          by_cases ht : kf.2 = F_TREEFILES
          · have : kf.1 = "treefiles" := by
              revert hk n1 n2 n3 ht
              simp only [boolOptions, List.mem_cons, List.not_mem_nil, or_false]
              intro hk
              rcases hk with h | h | h | h | h | h | h | h | h | h | h | h | h | h | h | h <;> subst h <;> simp <;> decide
            rw [this]
            refine (dumpSection_bool hg "treefiles" F_TREEFILES (by decide)).2 ?_
            cases hh : has s.flags F_TREEFILES with
            | false => rfl
            | true =>
              have f13 : F_TREEFILES = 2 ^ 13 := rfl
              rw [f13, has_two_pow] at hh
              exact absurd (hbits 13 hh) (by decide)
          · refine (miss _ ?_).2.2.2
            revert hk n1 n2 n3 ht
            simp only [boolOptions, List.mem_cons, List.not_mem_nil, or_false]
            intro hk
            rcases hk with h | h | h | h | h | h | h | h | h | h | h | h | h | h | h | h <;> subst h <;> decide
        have onBit : ∀ kf ∈ boolOptions, (has s.flags kf.2 = true → g.bool (ascii kf.1) = .ok true) ∧
            (has s.flags kf.2 = false → g.bool (ascii kf.1) = .missing) := by
          intro kf hk
          by_cases n1 : kf.2 = F_READONLY ∨ kf.2 = F_MULTIFILE ∨ kf.2 = F_COPYONWRITE
          · have : (kf.1, kf.2) ∈ [("readonly", F_READONLY), ("multifile", F_MULTIFILE), ("treefiles", F_TREEFILES),
                ("copyonwrite", F_COPYONWRITE)] := by
              revert hk n1
              simp only [boolOptions, List.mem_cons, List.not_mem_nil, or_false]
              intro hk
              rcases hk with h | h | h | h | h | h | h | h | h | h | h | h | h | h | h | h <;> subst h <;> decide
            exact dumpSection_bool hg kf.1 kf.2 this
          · have hm := offBit kf hk (fun e => n1 (.inl e)) (fun e => n1 (.inr (.inl e))) (fun e => n1 (.inr (.inr e)))
            refine ⟨?_, fun _ => hm⟩
            intro hh
            exfalso
            revert hk n1 hh
            simp only [boolOptions, List.mem_cons, List.not_mem_nil, or_false]
            intro hk
            rcases hk with h | h | h | h | h | h | h | h | h | h | h | h | h | h | h | h <;> subst h <;> intro n1 hh <;>
              first
              | exact n1 (by decide)
              | (obtain ⟨i, hi, hlt⟩ : ∃ i, has s.flags (2 ^ i) = true ∧ 2 < i := by
                  first
                  | exact ⟨13, hh, by decide⟩
                  | exact ⟨16, hh, by decide⟩
                  | exact ⟨4, hh, by decide⟩
                  | exact ⟨5, hh, by decide⟩
                  | exact ⟨6, hh, by decide⟩
                  | exact ⟨7, hh, by decide⟩
                  | exact ⟨8, hh, by decide⟩
                  | exact ⟨9, hh, by decide⟩
                  | exact ⟨10, hh, by decide⟩
                  | exact ⟨11, hh, by decide⟩
                  | exact ⟨17, hh, by decide⟩
                  | exact ⟨14, hh, by decide⟩
                  | exact ⟨15, hh, by decide⟩
                 rw [has_two_pow] at hi
                 have := hbits i hi
                 omega)
        have noBit : ∀ k f, (k, f) ∈ boolOptions → has s.flags f = false → ¬ On g k := by
          intro k f hk hh hon
          have := (onBit _ hk).2 hh
          unfold On at hon
          rw [this] at hon
          cases hon
        have hi : ∀ i, 2 < i → has s.flags (2 ^ i) = false := by
          intro i h2
          cases hh : has s.flags (2 ^ i) with
          | false => rfl
          | true => rw [has_two_pow] at hh; have := hbits i hh; omega
        have nosplice : ¬ On g "splice" := noBit "splice" F_SPLICE (by decide) (hi 15 (by decide))
        have nosdp : ¬ On g "sdp" := noBit "sdp" F_SDP (by decide) (hi 5 (by decide))
        have nowait : ¬ On g "waitfile" := noBit "waitfile" F_WAIT (by decide) (hi 16 (by decide))
        have novirt : g.str (ascii "virtstyle") = .missing := (miss _ (by decide)).1
        have hacc : Acceptable b g := by
          refine ⟨⟨_, sname⟩, ?_, ssize.2, ?_, ?_, ?_, fun h => nosplice h.2, fun h => nowait h.2, fun h => nosplice h.2,
            fun h => absurd h nosplice, fun h => absurd h nosdp⟩
          · intro k hk
            simp only [List.mem_cons, List.not_mem_nil, or_false] at hk
            rcases hk with rfl | rfl | rfl | rfl | rfl | rfl | rfl
            · rw [sauth]; simp
            · rw [novirt]; simp
            · rw [(miss (ascii "prerun") (by decide)).1]; simp
            · rw [(miss (ascii "postrun") (by decide)).1]; simp
            · rw [(miss (ascii "transactionlog") (by decide)).1]; simp
            · rw [(miss (ascii "cowdir") (by decide)).1]; simp
            · exact slist
          · rw [(miss (ascii "maxconnections") (by decide)).2.1]; simp
          · intro kf hk
            cases hh : has s.flags kf.2 with
            | true => rw [(onBit kf hk).1 hh]; simp
            | false => rw [(onBit kf hk).2 hh]; simp
          · intro v hv
            rw [novirt] at hv; cases hv
        obtain ⟨t, ht⟩ := (C50_accepted b g).mpr hacc
        obtain ⟨f1, f2, f3, f4, f5, f6, f7, f8, f9, f10⟩ := C50_fields ht
        obtain ⟨fl1, fl2⟩ := C50_flags ht
        refine ⟨s, secSet r none, t, ?_, ht, by rw [f8, hg.name], ?_, ?_, ?_, ?_, ?_, ?_, ?_, ?_, ?_⟩
        · unfold cmdline
          rw [hst, hrun]
          have hn' : ¬ (secSet r none).nonspecial < 2 := hns
          simp only [if_neg hn']
          subst hs
          rfl
        · rw [f1, e3]; unfold textOf; rw [sname]
        · have := ssize.1; omega
        · apply Nat.eq_of_testBit_eq
          intro i
          cases hh : s.flags.testBit i with
          | true =>
            have hle := hbits i hh
            have key : ∀ k, (k, 2 ^ i) ∈ boolOptions → t.flags.testBit i = true := by
              intro k hk
              have h1 : has s.flags (2 ^ i) = true := by rw [has_two_pow]; exact hh
              have h2 := (fl1 _ hk).mpr ((onBit _ hk).1 h1)
              rwa [has_two_pow] at h2
            match i, hle with
            | 0, _ => exact key "readonly" (by decide)
            | 1, _ => exact key "multifile" (by decide)
            | 2, _ => exact key "copyonwrite" (by decide)
          | false =>
            cases ht' : t.flags.testBit i with
            | false => rfl
            | true =>
              obtain ⟨kf, hk, he, hon⟩ := fl2 i ht'
              have : has s.flags kf.2 = false := by rw [he, has_two_pow]; exact hh
              exact absurd hon (noBit kf.1 kf.2 hk this)
        · rw [f2, han]; unfold textOf; rw [sauth]
        · rw [e4]
          obtain ⟨_, v, c, hv, _, rfl⟩ := parseExport_some ht
          rw [lp_virt] at hv
          unfold textOf at hv
          rw [novirt] at hv
          simp only [virtOf, Option.some.injEq, Prod.mk.injEq] at hv
          exact hv.1.symm
        · rw [f3]; unfold textOf; rw [(miss (ascii "prerun") (by decide)).1]
        · rw [f4]; unfold textOf; rw [(miss (ascii "postrun") (by decide)).1]
        · rw [f5]; unfold textOf; rw [(miss (ascii "transactionlog") (by decide)).1]
        · rw [f6]; unfold textOf; rw [(miss (ascii "cowdir") (by decide)).1]

/-- A concrete section, as `-r -M 3 -o x 10809 /x` prints it. -/
def demoSection : KGroup where
  name := ascii "x"
  str := fun k =>
    if k = ascii "exportname" then .ok (ascii "/x")
    else if k = ascii "listenaddr" then .ok (ascii "(null)")
    else if k = ascii "readonly" then .ok (ascii "true")
    else if k = ascii "authfile" then .ok defaultAuth
    else .missing
  int := fun _ => .missing
  int64 := fun _ => .missing
  bool := fun k => if k = ascii "readonly" then .ok true else .missing

/-- The command line of `demoSection`. -/
def demoCmd : List CmdOpt := [.readOnly, .maxConn (ascii "3"), .output (ascii "x"), .arg (ascii "10809"), .arg (ascii "/x")]

/-- The lines of `demoSection`. -/
def demoLines : List (List Byte × List Byte) :=
  [(ascii "exportname", ascii "/x"), (ascii "listenaddr", ascii "(null)"), (ascii "readonly", ascii "true"),
   (ascii "authfile", defaultAuth)]

theorem demo_printed : cmdline (fun _ => []) demoCmd = .printed (ascii "x") demoLines := by
  have h : cmdLoop demoCmd { serve := { authname := some defaultAuth, virtstyle := .iplit } } = .val
      { serve := { authname := some defaultAuth, virtstyle := .iplit, maxConn := 3, flags := 1, exportname := some (ascii "/x") }
        nonspecial := 2, conf := { modernport := some (ascii "10809") }, section_ := some (ascii "x") } := by decide +kernel
  unfold cmdline
  rw [h]
  rfl

theorem demo_reads : ReadsAs (fun _ => []) (ascii "x") demoLines demoSection := by
  refine ⟨rfl, ?_, ?_, ?_, ?_⟩
  · intro k v h
    simp only [demoLines, List.mem_cons, List.not_mem_nil, or_false, Prod.mk.injEq] at h
    rcases h with ⟨rfl, rfl⟩ | ⟨rfl, rfl⟩ | ⟨rfl, rfl⟩ | ⟨rfl, rfl⟩ <;> decide
  · intro k h
    simp only [demoLines, List.mem_cons, List.not_mem_nil, or_false, Prod.mk.injEq] at h
    rcases h with ⟨rfl, h⟩ | ⟨rfl, h⟩ | ⟨rfl, h⟩ | ⟨rfl, h⟩
    · exact absurd h (by decide)
    · exact absurd h (by decide)
    · decide
    · exact absurd h (by decide)
  · intro k n h
    simp only [demoLines, List.mem_cons, List.not_mem_nil, or_false, Prod.mk.injEq] at h
    rcases h with ⟨rfl, h⟩ | ⟨rfl, h⟩ | ⟨rfl, h⟩ | ⟨rfl, h⟩ <;> exact absurd h (by decide)
  · intro k h
    have n : ∀ x v, (x, v) ∈ demoLines → k ≠ x := by rintro x v hx rfl; exact h v hx
    have n1 := n (ascii "exportname") (ascii "/x") (by decide)
    have n2 := n (ascii "listenaddr") (ascii "(null)") (by decide)
    have n3 := n (ascii "readonly") (ascii "true") (by decide)
    have n4 := n (ascii "authfile") defaultAuth (by decide)
    simp [demoSection, n1, n2, n3, n4]

example : ∃ sect lines g, cmdline (fun _ => []) demoCmd = .printed sect lines ∧ ReadsAs (fun _ => []) sect lines g :=
  ⟨_, _, _, demo_printed, demo_reads⟩

/-- **C61 fails** in full: the section printed for a command line with a connection limit does not have the limit. -/
theorem C61_false : ∃ (digits : Int → List Byte) (opts : List CmdOpt) (sect : List Byte) (lines : List (List Byte × List Byte))
    (g : KGroup) (s t : Srv) (st : CmdState), cmdline digits opts = .printed sect lines ∧ ReadsAs digits sect lines g ∧
    cmdline digits (withoutOutput opts) = .run (some s) st ∧ (∀ b, parseExport b g = some t) ∧ s.maxConn = 3 ∧ t.maxConn = 0 := by
  refine ⟨fun _ => [], demoCmd, ascii "x", demoLines, demoSection,
    { authname := some defaultAuth, virtstyle := .iplit, maxConn := 3, flags := 1, exportname := some (ascii "/x"),
      servename := some [] },
    { exportname := some (ascii "/x"), listenaddr := some (ascii "(null)"), authname := some defaultAuth, flags := 1,
      virtstyle := .iplit, servename := some (ascii "x") }, ?_, demo_printed, demo_reads, ?_, fun b => ?_, rfl, rfl⟩
  · exact { serve := { authname := some defaultAuth, virtstyle := .iplit, maxConn := 3, flags := 1, exportname := some (ascii "/x") }
            nonspecial := 2, conf := { modernport := some (ascii "10809") } }
  · have h : cmdLoop (withoutOutput demoCmd) { serve := { authname := some defaultAuth, virtstyle := .iplit } } = .val
        { serve := { authname := some defaultAuth, virtstyle := .iplit, maxConn := 3, flags := 1, exportname := some (ascii "/x") }
          nonspecial := 2, conf := { modernport := some (ascii "10809") } } := by decide +kernel
    unfold cmdline
    rw [h]
    rfl
  · obtain ⟨b1, b2⟩ := b
    cases b1 <;> cases b2 <;> decide +kernel

/-! ### The TLS priority string -/

theorem tlsprio_unset (b : Build) (disk : Disk) (c conf : GenConf) (ss : List Srv) (e : Bool) (g : KGroup) (gs : List KGroup)
    (hm : disk.main = some (g :: gs)) (hg : g.str (ascii "tlsprio") = .missing)
    (h : parseCfile b disk (some c) = .ok ss conf e) : conf.tlsprio = c.tlsprio := by
  have key : ∀ (ps : List GParam) (st st' : GState), (∀ p ∈ ps, ∀ k, p = .str k .tlsprio → g.str k = .missing) →
      runGParams g ps st = some st' → st'.c.tlsprio = st.c.tlsprio := by
    intro ps
    induction ps with
    | nil => intro st st' _ h; simp only [runGParams, Option.some.injEq] at h; rw [← h]
    | cons p ps ih =>
      intro st st' hp h
      simp only [runGParams] at h
      cases hs : stepGParam g st p with
      | none => simp [hs] at h
      | some st1 =>
        simp only [hs] at h
        rw [ih st1 st' (fun q hq => hp q (List.mem_cons_of_mem _ hq)) h]
        have h0 := hp p (List.mem_cons_self)
        cases p with
        | str k f =>
          cases hv : g.str k with
          | ok v =>
            simp only [stepGParam, hv, Option.some.injEq] at hs
            subst hs
            cases f with
            | tlsprio => have := h0 k rfl; rw [hv] at this; cases this
            | _ => rfl
          | missing => simp only [stepGParam, hv, Option.some.injEq] at hs; rw [hs]
          | bad => simp [stepGParam, hv] at hs
        | threads k =>
          cases hv : g.int k with
          | ok v => simp only [stepGParam, hv, Option.some.injEq] at hs; subst hs; rfl
          | missing => simp only [stepGParam, hv, Option.some.injEq] at hs; rw [hs]
          | bad => simp [stepGParam, hv] at hs
        | bool k f =>
          cases hv : g.bool k with
          | ok v => simp only [stepGParam, hv, Option.some.injEq] at hs; subst hs; rfl
          | missing => simp only [stepGParam, hv, Option.some.injEq] at hs; rw [hs]
          | bad => simp [stepGParam, hv] at hs
  unfold parseCfile at h
  rw [hm] at h
  simp only [genStart] at h
  split at h
  · cases h
  · cases hr : runGParams g gp ⟨c, none⟩ with
    | none => simp [hr] at h
    | some st =>
      have hk := key gp ⟨c, none⟩ st (by
        intro p hp k hk
        subst hk
        simp only [gp, List.mem_cons, List.not_mem_nil, or_false, GParam.str.injEq, reduceCtorEq, and_false, false_or, and_true] at hp
        rw [hp]; exact hg) hr
      simp only [hr] at h
      have : conf = st.c := by
        split at h
        · cases h
        · split at h
          · cases h
          · split at h
            · simp only [CfileRes.ok.injEq] at h; exact h.2.1.symm
            · split at h
              · cases h
              · split at h
                · cases h
                · simp only [CfileRes.ok.injEq] at h; exact h.2.1.symm
      rw [this, hk]

/-- The TLS priority string does not come from the command line. -/
theorem cmdLoop_tlsprio (opts : List CmdOpt) : ∀ (st r : CmdState), cmdLoop opts st = .val r →
    r.conf.tlsprio = st.conf.tlsprio := by
  induction opts with
  | nil => intro st r h; simp only [cmdLoop, Out.val.injEq] at h; rw [h]
  | cons o os ih =>
    intro st r h
    simp only [cmdLoop] at h
    cases hs : cmdStep st o with
    | ub => simp [hs] at h
    | exit => simp [hs] at h
    | val r1 =>
      simp only [hs] at h
      rw [ih r1 r h]
      cases o with
      | version => cases hs
      | unknown => cases hs
      | arg v =>
        unfold cmdStep at hs
        match hn : st.nonspecial with
        | 0 =>
          simp only [hn] at hs
          split at hs
          · cases hs
          · simp only [Out.val.injEq] at hs; subst hs; rfl
        | 1 =>
          simp only [hn] at hs
          split at hs
          · cases hs
          · simp only [Out.val.injEq] at hs; subst hs; rfl
        | 2 =>
          simp only [hn] at hs
          cases hz : sizeArg v with
          | ub => simp [hz] at hs
          | exit => simp [hz] at hs
          | val n => simp only [hz, Out.val.injEq] at hs; subst hs; rfl
        | n + 3 => simp only [hn, Out.val.injEq] at hs; subst hs; rfl
      | _ => simp only [cmdStep, Out.val.injEq] at hs; subst hs; rfl

/-- **C60 fails**, and not only in a corner: whatever the command line and the configuration, if the file does not mention
`tlsprio` then the server runs without a priority string (and so with the default of the TLS library), never with the
documented one. Even the text built into the program, which is never used, differs from the documented one: it allows TLS 1.1. -/
theorem C60_false (digits : Int → List Byte) (opts : List CmdOpt) (s : Option Srv) (st : CmdState) (b : Build) (disk : Disk)
    (conf : GenConf) (ss : List Srv) (e : Bool) (g : KGroup) (gs : List KGroup)
    (hc : cmdline digits opts = .run s st) (hm : disk.main = some (g :: gs)) (hg : g.str (ascii "tlsprio") = .missing)
    (h : parseCfile b disk (some st.conf) = .ok ss conf e) :
    conf.tlsprio = none ∧ conf.tlsprio ≠ some (ascii Spec.documentedPrio) ∧ tlsprioBuiltin ≠ ascii Spec.documentedPrio := by
  have h1 : conf.tlsprio = none := by
    rw [tlsprio_unset b disk st.conf conf ss e g gs hm hg h]
    unfold cmdline at hc
    cases hl : cmdLoop opts { serve := { authname := some defaultAuth, virtstyle := .iplit } } with
    | ub => simp [hl] at hc
    | exit => simp [hl] at hc
    | val r =>
      have ht := cmdLoop_tlsprio opts _ r hl
      simp only [hl] at hc
      cases hsec : r.section_ with
      | none =>
        simp only [hsec, CmdEnd.run.injEq] at hc
        rw [← hc.2, ht]
      | some sect =>
        simp only [hsec] at hc
        split at hc <;> cases hc
  refine ⟨h1, by rw [h1]; simp, by decide +kernel⟩

/-- The smallest configuration file: `[generic]` and one export. -/
def demoGeneric : KGroup where
  name := ascii "generic"
  str := fun _ => .missing
  int := fun _ => .missing
  int64 := fun _ => .missing
  bool := fun _ => .missing

example : ∃ st disk ss conf e, cmdline (fun _ => []) [.noDaemon] = .run none st ∧
    disk.main = some [demoGeneric, demoSection] ∧ demoGeneric.str (ascii "tlsprio") = .missing ∧
    parseCfile ⟨false, false⟩ disk (some st.conf) = .ok ss conf e ∧ ss.length = 1 ∧ conf.tlsprio = none := by
  refine ⟨_, ⟨some [demoGeneric, demoSection], fun _ => none⟩, _, _, _, rfl, rfl, rfl, rfl, rfl, rfl⟩

/-! ### The files of a configuration -/

/-- The groups of the files of an include directory that count: the regular files whose names end in `.conf`. -/
def includedGroups (es : List DirEnt) : List KGroup :=
  (es.filter fun d => d.regular == some true && isConf d.name).flatMap fun d => d.groups.getD []

theorem parseExports_append (b : Build) (gs hs : List KGroup) : parseExports b (gs ++ hs) =
    match parseExports b gs, parseExports b hs with
    | some a, some c => some (a ++ c)
    | _, _ => none := by
  induction gs with
  | nil => simp only [List.nil_append, parseExports]; cases parseExports b hs <;> simp
  | cons g gs ih =>
    simp only [List.cons_append, parseExports]
    cases parseExport b g with
    | none => simp
    | some s =>
      simp only [ih]
      cases parseExports b gs <;> cases parseExports b hs <;> simp

theorem parseExports_each (b : Build) (gs : List KGroup) (ss : List Srv) : parseExports b gs = some ss ↔
    Each (fun g s => parseExport b g = some s) gs ss := by
  induction gs generalizing ss with
  | nil =>
    simp only [parseExports, Option.some.injEq]
    constructor
    · rintro rfl; exact .nil
    · intro h; cases h; rfl
  | cons g gs ih =>
    simp only [parseExports]
    constructor
    · intro h
      cases hp : parseExport b g with
      | none => simp [hp] at h
      | some s =>
        simp only [hp] at h
        cases hq : parseExports b gs with
        | none => simp [hq] at h
        | some ss' =>
          simp only [hq, Option.some.injEq] at h
          subst h
          exact .cons hp ((ih ss').mp hq)
    · intro h
      cases h with
      | cons hp hq => rw [hp, (ih _).mpr hq]

theorem cfileLoop_ok (b : Build) (es : List DirEnt) : ∀ acc extra, (∀ d ∈ es, d.regular ≠ none) →
    cfileLoop b es acc = some extra → ∃ ss, extra = acc ++ ss ∧ parseExports b (includedGroups es) = some ss ∧
      ∀ d ∈ es, d.regular = some true → isConf d.name = true → d.groups.isSome = true := by
  induction es with
  | nil =>
    intro acc extra _ h
    simp only [cfileLoop, Option.some.injEq] at h
    exact ⟨[], by simp [h], rfl, by simp⟩
  | cons d ds ih =>
    intro acc extra hr h
    have hr' : ∀ d ∈ ds, d.regular ≠ none := fun x hx => hr x (List.mem_cons_of_mem _ hx)
    have hinc : ∀ (hskip : (d.regular == some true && isConf d.name) = false),
        includedGroups (d :: ds) = includedGroups ds := by
      intro hskip
      simp [includedGroups, List.filter_cons, hskip]
    simp only [cfileLoop] at h
    cases hreg : d.regular with
    | none => exact absurd hreg (hr d (List.mem_cons_self))
    | some r =>
      cases r with
      | false =>
        simp only [hreg] at h
        obtain ⟨ss, h1, h2, h3⟩ := ih acc extra hr' h
        refine ⟨ss, h1, by rw [hinc (by simp [hreg])]; exact h2, ?_⟩
        intro x hx hx1 hx2
        rcases List.mem_cons.mp hx with rfl | hx
        · rw [hreg] at hx1; cases hx1
        · exact h3 x hx hx1 hx2
      | true =>
        simp only [hreg] at h
        by_cases hc : isConf d.name = true
        · rw [if_pos hc] at h
          cases hg : d.groups with
          | none => simp [hg] at h
          | some gs =>
            simp only [hg] at h
            cases hp : parseExports b gs with
            | none => simp [hp] at h
            | some s1 =>
              simp only [hp] at h
              obtain ⟨ss, h1, h2, h3⟩ := ih (acc ++ s1) extra hr' h
              refine ⟨s1 ++ ss, by rw [h1, List.append_assoc], ?_, ?_⟩
              · have : includedGroups (d :: ds) = gs ++ includedGroups ds := by
                  simp [includedGroups, List.filter_cons, hreg, hc, hg]
                rw [this, parseExports_append, hp, h2]
              · intro x hx hx1 hx2
                rcases List.mem_cons.mp hx with rfl | hx
                · rw [hg]; rfl
                · exact h3 x hx hx1 hx2
        · rw [if_neg hc] at h
          obtain ⟨ss, h1, h2, h3⟩ := ih acc extra hr' h
          refine ⟨ss, h1, by rw [hinc (by simp [hc])]; exact h2, ?_⟩
          intro x hx hx1 hx2
          rcases List.mem_cons.mp hx with rfl | hx
          · exact absurd hx2 hc
          · exact h3 x hx hx1 hx2

theorem isConf_eq (n : List Byte) : isConf n = (ascii ".conf").isSuffixOf n := by
  have hl : (ascii ".conf").length = 5 := by decide
  rw [Bool.eq_iff_iff, List.isSuffixOf_iff_suffix]
  unfold isConf
  simp only [Bool.and_eq_true, decide_eq_true_eq, beq_iff_eq]
  constructor
  · rintro ⟨h1, h2⟩
    rw [← h2]
    exact List.drop_suffix _ _
  · rintro ⟨t, rfl⟩
    refine ⟨by simp [hl], ?_⟩
    simp [hl]

/-- The include directory named by the [generic] group. -/
theorem runGParams_cfdir (g : KGroup) (c : GenConf) (st : GState) (h : runGParams g gp ⟨c, none⟩ = some st) :
    st.cfdir = textOf g "includedir" := by
  have key : ∀ (ps : List GParam) (st st' : GState), runGParams g ps st = some st' →
      (∀ p ∈ ps, ∀ k, p ≠ .str k .includedir) → st'.cfdir = st.cfdir := by
    intro ps
    induction ps with
    | nil => intro st st' h _; simp only [runGParams, Option.some.injEq] at h; rw [← h]
    | cons p ps ih =>
      intro st st' h hp
      simp only [runGParams] at h
      cases hs : stepGParam g st p with
      | none => simp [hs] at h
      | some st1 =>
        simp only [hs] at h
        rw [ih st1 st' h (fun q hq => hp q (List.mem_cons_of_mem _ hq))]
        have h0 := hp p (List.mem_cons_self)
        cases p with
        | str k f =>
          cases hv : g.str k with
          | ok v =>
            simp only [stepGParam, hv, Option.some.injEq] at hs
            subst hs
            cases f with
            | includedir => exact absurd rfl (h0 k)
            | _ => rfl
          | missing => simp only [stepGParam, hv, Option.some.injEq] at hs; rw [hs]
          | bad => simp [stepGParam, hv] at hs
        | threads k =>
          cases hv : g.int k with
          | ok v => simp only [stepGParam, hv, Option.some.injEq] at hs; subst hs; rfl
          | missing => simp only [stepGParam, hv, Option.some.injEq] at hs; rw [hs]
          | bad => simp [stepGParam, hv] at hs
        | bool k f =>
          cases hv : g.bool k with
          | ok v => simp only [stepGParam, hv, Option.some.injEq] at hs; subst hs; rfl
          | missing => simp only [stepGParam, hv, Option.some.injEq] at hs; rw [hs]
          | bad => simp [stepGParam, hv] at hs
  have split : ∀ (ps qs : List GParam) (st st' : GState), runGParams g (ps ++ qs) st = some st' →
      ∃ m, runGParams g ps st = some m ∧ runGParams g qs m = some st' := by
    intro ps
    induction ps with
    | nil => intro qs st st' h; exact ⟨st, rfl, h⟩
    | cons p ps ih =>
      intro qs st st' h
      simp only [List.cons_append, runGParams] at h ⊢
      cases hs : stepGParam g st p with
      | none => simp [hs] at h
      | some st1 => simp only [hs] at h ⊢; exact ih qs st1 st' h
  have hgp : gp = gp.take 5 ++ (.str (ascii "includedir") .includedir :: gp.drop 6) := by decide
  rw [hgp] at h
  obtain ⟨m, h1, h2⟩ := split _ _ _ _ h
  have e1 := key _ _ _ h1 (by
    intro p hp k hk
    subst hk
    simp [gp] at hp)
  simp only [runGParams] at h2
  cases hs : stepGParam g m (.str (ascii "includedir") .includedir) with
  | none => simp [hs] at h2
  | some m' =>
    simp only [hs] at h2
    have e2 := key _ _ _ h2 (by
      intro p hp k hk
      subst hk
      simp [gp] at hp)
    rw [e2]
    unfold textOf
    cases hv : g.str (ascii "includedir") with
    | ok v => simp only [stepGParam, hv, Option.some.injEq] at hs; subst hs; rfl
    | missing => simp only [stepGParam, hv, Option.some.injEq] at hs; subst hs; exact e1
    | bad => simp [stepGParam, hv] at hs

/-- **C62**. If a configuration is accepted, its exports are exactly the ones described by the groups after `[generic]` of
the main file, in order, followed by the ones described by all groups of the regular files in the include directory whose
names end in `.conf`, each group giving the export that its options describe (C50); a group that is not acceptable makes the
whole configuration be rejected. (A directory entry whose type cannot be found out is excluded by `hstat`.) -/
theorem C62_include (b : Build) (disk : Disk) (c conf : GenConf) (ss : List Srv) (e : Bool) (g : KGroup) (gs : List KGroup)
    (hm : disk.main = some (g :: gs)) (hstat : ∀ dir es, disk.dir dir = some es → ∀ d ∈ es, d.regular ≠ none)
    (h : parseCfile b disk (some c) = .ok ss conf e) :
    g.name = ascii "generic" ∧
    match (generalizing := false) g.str (ascii "includedir") with
    | .ok dir => ∃ es, disk.dir dir = some es ∧
        Each (fun g s => parseExport b g = some s)
          (gs ++ ((es.filter fun d => d.regular == some true && (ascii ".conf").isSuffixOf d.name).flatMap
            fun d => d.groups.getD [])) ss ∧
        ∀ d ∈ es, d.regular = some true → (ascii ".conf").isSuffixOf d.name = true → d.groups.isSome = true
    | _ => Each (fun g s => parseExport b g = some s) gs ss := by
  unfold parseCfile at h
  rw [hm] at h
  simp only [genStart] at h
  have hn : g.name = ascii "generic" := by
    by_cases hn : g.name = ascii "generic"
    · exact hn
    · rw [if_pos hn] at h; cases h
  refine ⟨hn, ?_⟩
  rw [if_neg (by simp [hn])] at h
  cases hr : runGParams g gp ⟨c, none⟩ with
  | none => simp [hr] at h
  | some st =>
    simp only [hr] at h
    have hcf := runGParams_cfdir g c st hr
    split at h
    · cases h
    cases hp : parseExports b gs with
    | none => simp [hp] at h
    | some s1 =>
      simp only [hp] at h
      have plain : st.cfdir = none → Each (fun g s => parseExport b g = some s) gs ss := by
        intro hnone
        simp only [hnone, CfileRes.ok.injEq] at h
        rw [← h.1]
        exact (parseExports_each b gs s1).mp hp
      unfold textOf at hcf
      cases hv : g.str (ascii "includedir") with
      | missing => rw [hv] at hcf; exact plain hcf
      | bad => rw [hv] at hcf; exact plain hcf
      | ok dir =>
        rw [hv] at hcf
        simp only [] at hcf
        simp only [hcf] at h
        cases hd : disk.dir dir with
        | none => simp [hd] at h
        | some es =>
          simp only [hd] at h
          cases hl : cfileLoop b es [] with
          | none => simp [hl] at h
          | some extra =>
            simp only [hl, CfileRes.ok.injEq] at h
            obtain ⟨s2, h1, h2, h3⟩ := cfileLoop_ok b es [] extra (hstat dir es hd) hl
            simp only [List.nil_append] at h1
            refine ⟨es, hd, ?_, ?_⟩
            · rw [← parseExports_each, ← h.1, h1]
              have : ((es.filter fun d => d.regular == some true && (ascii ".conf").isSuffixOf d.name).flatMap
                  fun d => d.groups.getD []) = includedGroups es := by
                unfold includedGroups
                simp only [isConf_eq]
              rw [this, parseExports_append, hp, h2]
            · intro d hd' hx hy
              exact h3 d hd' hx (by rw [isConf_eq]; exact hy)

/-- A configuration with an include directory that holds one file that counts and one that does not. -/
def demoDisk : Disk where
  main := some [{ demoGeneric with str := fun k => if k = ascii "includedir" then .ok (ascii "/d") else .missing }]
  dir := fun _ => some [⟨ascii "a.conf", some true, some [demoSection]⟩, ⟨ascii "b.bak", some true, none⟩]

example : ∃ ss conf e, parseCfile ⟨false, false⟩ demoDisk (some {}) = .ok ss conf e ∧ ss.map (·.servename) = [some (ascii "x")] ∧
    ∀ dir es, demoDisk.dir dir = some es → ∀ d ∈ es, d.regular ≠ none := by
  have h : parseCfile ⟨false, false⟩ demoDisk (some {}) = .ok [{ exportname := some (ascii "/x"), listenaddr := some (ascii "(null)"), authname := some defaultAuth, flags := 1, virtstyle := .iplit, servename := some (ascii "x") }] {} false := by decide +kernel
  refine ⟨_, _, _, h, rfl, ?_⟩
  intro dir es he d hd
  simp only [demoDisk, Option.some.injEq] at he
  subst he
  simp only [List.mem_cons, List.not_mem_nil, or_false] at hd
  rcases hd with rfl | rfl <;> simp

/-! ### The styles -/

theorem digitsIn_eq (ds : List Byte) (h : ∀ d ∈ ds, 48 ≤ d ∧ d ≤ 57) (v : Nat) :
    digitsIn 10 ds v = ds.foldl (fun v d => v * 10 + (d.toNat - 48)) v := by
  induction ds generalizing v with
  | nil => rfl
  | cons d ds ih =>
    have hd := h d (by simp)
    have e : digitOf d = d.toNat - 48 := by unfold digitOf; rw [if_pos hd]
    have hlt : digitOf d < 10 := by
      rw [e]
      have := UInt8.le_iff_toNat_le.mp hd.2
      have h9 : (57 : Byte).toNat = 57 := rfl
      omega
    rw [digitsIn, if_pos hlt, List.foldl_cons, e]
    exact ih (fun x hx => h x (by simp [hx])) _

theorem strtol0_decimal {ds : List Byte} {n : Nat} (h : Decimal ds n) (h0 : ds.head? ≠ some 48) (hn : n < 2 ^ 63) :
    strtol0 (32 :: ds) = n := by
  obtain ⟨h1, h2, h3⟩ := h
  have hv : digitsIn 10 ds 0 = n := by rw [digitsIn_eq ds h2, h3]
  cases ds with
  | nil => exact absurd rfl h1
  | cons d ds =>
    have hd := h2 d (by simp)
    have hsp : isSpace d = false := by
      obtain ⟨ha, hb⟩ := hd
      have ha' := UInt8.le_iff_toNat_le.mp ha
      have hb' := UInt8.le_iff_toNat_le.mp hb
      have e48 : (48 : Byte).toNat = 48 := rfl
      have e57 : (57 : Byte).toNat = 57 := rfl
      unfold isSpace
      simp only [Bool.or_eq_false_iff, Bool.and_eq_false_iff, decide_eq_false_iff_not, beq_eq_false_iff_ne, ne_eq,
        UInt8.le_iff_toNat_le, ← UInt8.toNat_inj]
      have e32 : (32 : Byte).toNat = 32 := rfl
      have e9 : (9 : Byte).toNat = 9 := rfl
      have e13 : (13 : Byte).toNat = 13 := rfl
      omega
    have n45 : d ≠ 45 := by rintro rfl; revert hd; decide
    have n43 : d ≠ 43 := by rintro rfl; revert hd; decide
    have n48 : d ≠ 48 := by rintro rfl; exact h0 rfl
    have hdw : (32 :: d :: ds).dropWhile isSpace = d :: ds := by
      rw [List.dropWhile_cons_of_pos (by decide), List.dropWhile_cons_of_neg (by simp [hsp])]
    have hd0 : digits0 (d :: ds) = n := by
      unfold digits0
      split
      · rename_i e; simp only [List.cons.injEq] at e; exact absurd e.1 n48
      · rename_i e; simp only [List.cons.injEq] at e; exact absurd e.1 n48
      · exact hv
    unfold strtol0
    rw [hdw]
    split
    · rename_i e; simp only [List.cons.injEq] at e; exact absurd e.1 n45
    · rename_i e; simp only [List.cons.injEq] at e; exact absurd e.1 n43
    · rw [hd0]
      omega

/-- **C50** (part 4). The styles of naming: without `virtstyle` and for `ipliteral` the address is put into the file name, `none`
turns this off, `iphash` and `cidrhash N` with a number that does not start with a zero give the other two styles, with `N` as the length. -/
theorem C50_style {b : Build} {g : KGroup} {s : Srv} (h : parseExport b g = some s) :
    (g.str (ascii "virtstyle") = .missing → s.virtstyle = .iplit) ∧
    (g.str (ascii "virtstyle") = .ok (ascii "none") → s.virtstyle = .none) ∧
    (g.str (ascii "virtstyle") = .ok (ascii "ipliteral") → s.virtstyle = .iplit) ∧
    (g.str (ascii "virtstyle") = .ok (ascii "iphash") → s.virtstyle = .iphash) ∧
    (∀ ds n, Decimal ds n → n < 256 → ds.head? ≠ some 48 → g.str (ascii "virtstyle") = .ok (ascii "cidrhash " ++ ds) →
      s.virtstyle = .cidr ∧ s.cidrlen = n) := by
  obtain ⟨_, v, c, hv, _, rfl⟩ := parseExport_some h
  rw [lp_virt] at hv
  unfold textOf at hv
  have go : ∀ t w d, g.str (ascii "virtstyle") = .ok t → virtOf (some t) = some (w, d) → v = w ∧ c = d := by
    intro t w d ht hw
    rw [ht] at hv
    rw [hw] at hv
    simp only [Option.some.injEq, Prod.mk.injEq] at hv
    exact ⟨hv.1.symm, hv.2.symm⟩
  refine ⟨?_, fun ht => (go _ _ 0 ht (by decide)).1, fun ht => (go _ _ 0 ht (by decide)).1,
    fun ht => (go _ _ 0 ht (by decide)).1, ?_⟩
  · intro ht
    rw [ht] at hv
    simp only [virtOf, Option.some.injEq, Prod.mk.injEq] at hv
    exact hv.1.symm
  · intro ds n hd hn h0 ht
    refine go _ _ n ht ?_
    have hlen : ¬ (ascii "cidrhash " ++ ds).length < 10 := by
      have : (ascii "cidrhash ").length = 9 := by decide
      have h1 : ds.length ≠ 0 := fun e => hd.1 (List.eq_nil_of_length_eq_zero e)
      rw [List.length_append, this]; omega
    have p1 : (ascii "none").isPrefixOf (ascii "cidrhash " ++ ds) = false := rfl
    have p2 : (ascii "ipliteral").isPrefixOf (ascii "cidrhash " ++ ds) = false := rfl
    have p3 : (ascii "iphash").isPrefixOf (ascii "cidrhash " ++ ds) = false := rfl
    have p4 : (ascii "cidrhash").isPrefixOf (ascii "cidrhash " ++ ds) = true := by
      rw [isPrefixOf_iff]; exact ⟨32 :: ds, rfl⟩
    have hdrop : (ascii "cidrhash " ++ ds).drop 8 = 32 :: ds := rfl
    unfold virtOf
    simp only [p1, p2, p3, p4, if_neg hlen, hdrop, if_true, Bool.false_eq_true, if_false]
    rw [strtol0_decimal hd h0 (by omega)]
    simp only [Option.some.injEq, Prod.mk.injEq, true_and]
    omega

example : Decimal (ascii "24") 24 ∧ (ascii "24").head? ≠ some 48 ∧
    ∃ s, parseExport ⟨false, false⟩ { demoSection with str := fun k => if k = ascii "virtstyle" then .ok (ascii "cidrhash " ++ ascii "24") else demoSection.str k } = some s ∧ s.virtstyle = .cidr := by
  refine ⟨⟨by decide, by decide, by decide⟩, by decide, ?_⟩
  have h : (parseExport ⟨false, false⟩ { demoSection with str := fun k => if k = ascii "virtstyle" then .ok (ascii "cidrhash " ++ ascii "24") else demoSection.str k }).map (·.virtstyle) = some .cidr := by decide +kernel
  obtain ⟨s, h1, h2⟩ := Option.map_eq_some_iff.mp h
  exact ⟨s, h1, h2⟩

/-- **C50, part 4, needs "does not start with a zero"**: `cidrhash 024` is accepted and means length 20, because the number is read
as octal, and `cidrhash 08` means length 0. -/
theorem C50_style_octal_false : Decimal (ascii "024") 24 ∧
    (parseExport ⟨false, false⟩ { demoSection with str := fun k => if k = ascii "virtstyle" then .ok (ascii "cidrhash " ++ ascii "024") else demoSection.str k }).map (fun s => (s.virtstyle, s.cidrlen)) =
      some (.cidr, 20) ∧
    (parseExport ⟨false, false⟩ { demoSection with str := fun k => if k = ascii "virtstyle" then .ok (ascii "cidrhash " ++ ascii "08") else demoSection.str k }).map (fun s => (s.virtstyle, s.cidrlen)) =
      some (.cidr, 0) :=
  ⟨⟨by decide, by decide, by decide⟩, by decide +kernel, by decide +kernel⟩

end Nbd.Props
