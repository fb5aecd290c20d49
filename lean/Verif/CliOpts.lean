import Verif.CliRunLemmas
/-!
# What the options of nbd-client set
-/

set_option autoImplicit false

namespace Nbd

namespace Spec

/-- The value of the last option of a kind. (A notion of the statements about nbd-client.c 989-1108; models no code of its own.) -/
def lastGiven {α : Type} (f : CliOpt → Option α) (opts : List CliOpt) : Option α := (opts.filterMap f).getLast?

/-- The arguments that are not options: those without `=`. (A notion of the statements about nbd-client.c 989-1108; models no code of its own.) -/
def cliWords (opts : List CliOpt) : List (List Byte) :=
  opts.filterMap fun
    | .arg v => if (61 : Byte) ∈ v then none else some v
    | _ => none

/-- The device among the arguments: the third, or the second if that is not a number.
(A notion of the statements about nbd-client.c 989-1108; models no code of its own.) -/
def deviceOf : List (List Byte) → Option (List Byte)
  | [_, x] => if strtol0 x = 0 then some x else none
  | [_, _, d] => some d
  | _ => none

/-- `-b v`, or `bs=v`. (A notion of the statements about nbd-client.c 989-1108; models no code of its own.) -/
def bsOf : CliOpt → Option (List Byte)
  | .blockSize v => some v
  | .arg v => if ascii "bs=" <+: v then some (v.drop 3) else none
  | _ => none

/-- `-t v`, or `timeout=v`. (A notion of the statements about nbd-client.c 989-1108; models no code of its own.) -/
def timeoutOf : CliOpt → Option (List Byte)
  | .timeout v => some v
  | .arg v => if ascii "timeout=" <+: v then some (v.drop 8) else none
  | _ => none

/-- `-C v`. (A notion of the statements about nbd-client.c 989-1108; models no code of its own.) -/
def connectionsOf : CliOpt → Option (List Byte)
  | .connections v => some v
  | _ => none

/-- `-B v`. (A notion of the statements about nbd-client.c 989-1108; models no code of its own.) -/
def forceSizeOf : CliOpt → Option (List Byte)
  | .size v => some v
  | _ => none

/-- `-N v`. (A notion of the statements about nbd-client.c 989-1108; models no code of its own.) -/
def nameOf : CliOpt → Option (List Byte)
  | .name v => some v
  | _ => none

/-- `-i v`. (A notion of the statements about nbd-client.c 989-1108; models no code of its own.) -/
def identOf : CliOpt → Option (List Byte)
  | .identifier v => some v
  | _ => none

/-- Does the option ask for TLS? (A notion of the statements about nbd-client.c 989-1108; models no code of its own.) -/
def AsksTls : CliOpt → Prop
  | .tls => True
  | .cert _ => True
  | .key _ => True
  | .cacert _ => True
  | .tlshost _ => True
  | _ => False

end Spec

open Spec

/-- A setting that is the value of the last option of a kind. -/
theorem cliLoop_last {α : Type} (nl : Bool) (proj : CliState → α) (f : CliOpt → Option α)
    (hstep : ∀ st o st', cliStep nl st o = .go st' → proj st' = (f o).getD (proj st)) (opts : List CliOpt) :
    ∀ st st', cliLoop nl opts st = .go st' → proj st' = (lastGiven f opts).getD (proj st) := by
  induction opts with
  | nil => intro st st' h; cases h; rfl
  | cons o os ih =>
    intro st st' h
    unfold cliLoop at h
    cases hs : cliStep nl st o with
    | exit n => rw [hs] at h; cases h
    | check d => rw [hs] at h; cases h
    | go st1 =>
      rw [hs] at h
      rw [ih st1 st' h, hstep st o st1 hs]
      unfold lastGiven
      rw [List.filterMap_cons]
      cases hf : f o with
      | none => rfl
      | some v =>
        simp only [List.getLast?_cons, Option.getD_some]

/-- A setting that is on if an option was given. -/
theorem cliLoop_flag (nl : Bool) (proj : CliState → Bool) (f : CliOpt → Bool)
    (hstep : ∀ st o st', cliStep nl st o = .go st' → proj st' = (f o || proj st)) (opts : List CliOpt) :
    ∀ st st', cliLoop nl opts st = .go st' → proj st' = (opts.any f || proj st) := by
  induction opts with
  | nil => intro st st' h; cases h; simp
  | cons o os ih =>
    intro st st' h
    unfold cliLoop at h
    cases hs : cliStep nl st o with
    | exit n => rw [hs] at h; cases h
    | check d => rw [hs] at h; cases h
    | go st1 =>
      rw [hs] at h
      rw [ih st1 st' h, hstep st o st1 hs, List.any_cons]
      cases f o <;> cases os.any f <;> simp

/-- What one option does, seen through one setting: for all but the arguments and the two numbers this is by cases. -/
macro "cli_step" : tactic => `(tactic|
  (intro st o st' h
   cases o <;>
     (simp only [cliStep, cliBlockSize, cliTimeout] at h
      repeat' split at h
      all_goals first
        | (cases h; done)
        | (cases h; rfl)
        | (cases h; simp_all))))

theorem bs_mem {v : List Byte} (h : ascii "bs=" <+: v) : (61 : Byte) ∈ v := by
  obtain ⟨t, rfl⟩ := h
  simp [ascii]

theorem timeout_mem {v : List Byte} (h : ascii "timeout=" <+: v) : (61 : Byte) ∈ v := by
  obtain ⟨t, rfl⟩ := h
  simp [ascii]

theorem bs_not_timeout {v : List Byte} (h : ascii "bs=" <+: v) : ¬ ascii "timeout=" <+: v := by
  obtain ⟨t, rfl⟩ := h
  rintro ⟨u, hu⟩
  simp [ascii] at hu

theorem step_name (nl : Bool) : ∀ st o st', cliStep nl st o = .go st' → st'.cl.name = ((nameOf o).map some).getD st.cl.name := by
  cli_step

theorem step_connections (nl : Bool) : ∀ st o st', cliStep nl st o = .go st' →
    st'.cl.nconn = ((connectionsOf o).map (fun v => wrapInt (strtol0 v))).getD st.cl.nconn := by
  cli_step

theorem step_size (nl : Bool) : ∀ st o st', cliStep nl st o = .go st' →
    st'.cl.forceSize = ((forceSizeOf o).map strtoull0).getD st.cl.forceSize := by
  cli_step

theorem step_ident (nl : Bool) : ∀ st o st', cliStep nl st o = .go st' → st'.ident = ((identOf o).map some).getD st.ident := by
  cli_step

theorem step_port (nl : Bool) : ∀ st o st', cliStep nl st o = .go st' → st'.cl.port = st.cl.port := by
  cli_step

theorem step_unix (nl : Bool) : ∀ st o st', cliStep nl st o = .go st' → st'.cl.unix = (decide (o = .unix) || st.cl.unix) := by
  cli_step

theorem step_swap (nl : Bool) : ∀ st o st', cliStep nl st o = .go st' → st'.cl.swap = (decide (o = .swap) || st.cl.swap) := by
  cli_step

theorem step_ro (nl : Bool) : ∀ st o st', cliStep nl st o = .go st' → st'.cl.forceRo = (decide (o = .readonly) || st.cl.forceRo) := by
  cli_step

theorem step_optgo (nl : Bool) : ∀ st o st', cliStep nl st o = .go st' → st'.cl.noOptgo = (decide (o = .noOptgo) || st.cl.noOptgo) := by
  cli_step

theorem step_preinit (nl : Bool) : ∀ st o st', cliStep nl st o = .go st' →
    st'.cl.preinit = (decide (o = .preinit) || st.cl.preinit) := by
  cli_step

theorem step_cont (nl : Bool) : ∀ st o st', cliStep nl st o = .go st' → st'.cont = (decide (o = .persist) || st.cont) := by
  cli_step

theorem step_list (nl : Bool) : ∀ st o st', cliStep nl st o = .go st' → st'.list = (decide (o = .list) || st.list) := by
  cli_step

theorem step_nofork (nl : Bool) : ∀ st o st', cliStep nl st o = .go st' → st'.nofork = (decide (o = .nofork) || st.nofork) := by
  cli_step

theorem step_netlink (nl : Bool) : ∀ st o st', cliStep nl st o = .go st' →
    (!st'.netlink) = (decide (o = .noNetlink) || !st.netlink) := by
  cli_step

/-- Is it a -d? (A notion of the statements about nbd-client.c 989-1108; models no code of its own.) -/
def CliOpt.isDisc : CliOpt → Bool
  | .disconnect _ => true
  | _ => false

theorem step_disc (nl : Bool) : ∀ st o st', cliStep nl st o = .go st' → st'.disc = (o.isDisc || st.disc) := by
  cli_step

/-- Do the settings ask for TLS? (A notion of the statements about nbd-client.c 989-1108; models no code of its own.) -/
def TabClient.wantsTls (c : TabClient) : Bool :=
  c.tls || (c.cert.isSome || c.key.isSome || c.cacert.isSome || c.tlshostn.isSome)

/-- Does the option ask for TLS? (A notion of the statements about nbd-client.c 989-1108; models no code of its own.) -/
def CliOpt.asksTls : CliOpt → Bool
  | .tls => true
  | .cert _ => true
  | .key _ => true
  | .cacert _ => true
  | .tlshost _ => true
  | _ => false

theorem CliOpt.asksTls_iff (o : CliOpt) : o.asksTls = true ↔ AsksTls o := by
  cases o <;> simp [CliOpt.asksTls, AsksTls]

theorem step_tls (nl : Bool) : ∀ st o st', cliStep nl st o = .go st' → st'.cl.wantsTls = (o.asksTls || st.cl.wantsTls) := by
  intro st o st' h
  cases o <;>
    (simp only [cliStep, cliBlockSize, cliTimeout] at h
     repeat' split at h
     all_goals first
       | (cases h; done)
       | (cases h; rfl)
       | (cases h; simp [TabClient.wantsTls, CliOpt.asksTls]))

theorem step_bs (nl : Bool) : ∀ st o st', cliStep nl st o = .go st' →
    st'.cl.bs = ((bsOf o).map (fun v => wrapInt (strtol0 v))).getD st.cl.bs := by
  intro st o st' h
  cases o with
  | arg v =>
    simp only [cliStep, cliBlockSize, cliTimeout, List.isPrefixOf_iff_prefix] at h
    simp only [bsOf]
    split at h
    · split at h
      · rename_i hp
        rw [if_pos hp]
        split at h
        · cases h
        · cases h; rfl
      · rename_i hp
        rw [if_neg hp]
        split at h
        · cases h; rfl
        · cases h
    · rename_i hm
      rw [if_neg (fun hp => hm (bs_mem hp))]
      repeat' split at h
      all_goals first
        | (cases h; done)
        | (cases h; rfl)
  | blockSize v =>
    simp only [cliStep, cliBlockSize] at h
    split at h
    · cases h
    · cases h; rfl
  | _ =>
    simp only [cliStep, cliTimeout] at h
    repeat' split at h
    all_goals first
      | (cases h; done)
      | (cases h; rfl)

theorem step_bs_ok (nl : Bool) (st : CliState) (o : CliOpt) (st' : CliState) (h : cliStep nl st o = .go st')
    (h0 : st.cl.bs ≠ 0) : st'.cl.bs ≠ 0 := by
  cases o with
  | arg v =>
    simp only [cliStep, cliBlockSize, cliTimeout] at h
    repeat' split at h
    all_goals first
      | (cases h; done)
      | (cases h; exact h0)
      | (cases h; simp_all)
  | blockSize v =>
    simp only [cliStep, cliBlockSize] at h
    split at h
    · cases h
    · rename_i hb
      cases h
      exact fun hh => hb (.inl hh)
  | _ =>
    simp only [cliStep, cliTimeout] at h
    repeat' split at h
    all_goals first
      | (cases h; done)
      | (cases h; exact h0)

theorem step_timeout (nl : Bool) : ∀ st o st', cliStep nl st o = .go st' →
    st'.cl.timeout = ((timeoutOf o).map (fun v => wrapInt (strtol0 v))).getD st.cl.timeout := by
  intro st o st' h
  cases o with
  | arg v =>
    simp only [cliStep, cliBlockSize, cliTimeout, List.isPrefixOf_iff_prefix] at h
    simp only [timeoutOf]
    split at h
    · split at h
      · rename_i hp
        rw [if_neg (bs_not_timeout hp)]
        split at h
        · cases h
        · cases h; rfl
      · split at h
        · rename_i hp
          rw [if_pos hp]
          cases h; rfl
        · cases h
    · rename_i hm
      rw [if_neg (fun hp => hm (timeout_mem hp))]
      repeat' split at h
      all_goals first
        | (cases h; done)
        | (cases h; rfl)
  | timeout v =>
    simp only [cliStep, cliTimeout] at h
    cases h; rfl
  | _ =>
    simp only [cliStep, cliBlockSize] at h
    repeat' split at h
    all_goals first
      | (cases h; done)
      | (cases h; rfl)

/-! ### The arguments that are not options -/

/-- The word, if it is one. (A notion of the statements about nbd-client.c 989-1108; models no code of its own.) -/
def wordOf : CliOpt → Option (List Byte)
  | .arg v => if (61 : Byte) ∈ v then none else some v
  | _ => none

theorem cliWords_cons (o : CliOpt) (opts : List CliOpt) :
    cliWords (o :: opts) = (match wordOf o with | some v => v :: cliWords opts | none => cliWords opts) := by
  unfold cliWords
  rw [List.filterMap_cons]
  cases o with
  | arg v =>
    by_cases hm : (61 : Byte) ∈ v
    · simp only [wordOf, if_pos hm]
    · simp only [wordOf, if_neg hm]
  | _ => rfl

/-- What a word does. nbd-client.c 991-1032. -/
def takeWord (v : List Byte) (st : CliState) : CliStepR :=
  match st.nonspecial with
  | 0 => .go { st with cl := { st.cl with hostn := some v }, nonspecial := 1 }
  | 1 =>
    if strtol0 v = 0 then .go { st with dev := some v, nonspecial := 3 }
    else .go { st with port := v, nonspecial := 2 }
  | 2 => .go { st with dev := some v, nonspecial := 3 }
  | _ => .exit 1

theorem cliStep_word (nl : Bool) (st : CliState) (o : CliOpt) (v : List Byte) (h : wordOf o = some v) :
    cliStep nl st o = takeWord v st := by
  cases o with
  | arg w =>
    simp only [wordOf] at h
    split at h
    · cases h
    · rename_i hm
      cases h
      simp only [cliStep, if_neg hm]
      rfl
  | _ => cases h

/-- What is not a word changes neither the host nor the number of words; nor the device, but for -d and -l. -/
theorem cliStep_no_word (nl : Bool) (st : CliState) (o : CliOpt) (h : wordOf o = none) (st' : CliState)
    (hs : cliStep nl st o = .go st') :
    st'.cl.hostn = st.cl.hostn ∧ st'.nonspecial = st.nonspecial ∧ (o.isDisc = false → o ≠ .list → st'.dev = st.dev) := by
  cases o <;>
    (simp only [cliStep, cliBlockSize, cliTimeout] at hs
     repeat' split at hs
     all_goals first
       | (cases hs; done)
       | (cases hs; simp [CliOpt.isDisc]; done)
       | (simp_all [wordOf]; done))

/-- The host and the device after some words. (A notion of the statements about nbd-client.c 989-1108; models no code of its own.) -/
def place : Nat → Option (List Byte) → Option (List Byte) → List (List Byte) → Option (List Byte) × Option (List Byte)
  | _, h, d, [] => (h, d)
  | 0, _, d, v :: vs => place 1 (some v) d vs
  | 1, h, d, v :: vs => if strtol0 v = 0 then place 3 h (some v) vs else place 2 h d vs
  | 2, h, _, v :: vs => place 3 h (some v) vs
  | _, h, d, _ => (h, d)

theorem place_one (h d : Option (List Byte)) (v : List Byte) (vs : List (List Byte)) :
    place (0 + 1) h d (v :: vs) = if strtol0 v = 0 then place 3 h (some v) vs else place 2 h d vs := rfl

theorem place_host (vs : List (List Byte)) : ∀ n h d, 0 < n → (place n h d vs).1 = h := by
  induction vs with
  | nil => intro n h d _; rcases n with _ | _ | _ | n <;> rfl
  | cons v vs ih =>
    intro n h d hn
    rcases n with _ | _ | _ | n
    · omega
    · rw [place_one]
      split
      · exact ih _ _ _ (by omega)
      · exact ih _ _ _ (by omega)
    · exact ih 3 h (some v) (by omega)
    · rfl

theorem cliLoop_host (nl : Bool) (opts : List CliOpt) : ∀ st st', cliLoop nl opts st = .go st' →
    st'.cl.hostn = (place st.nonspecial st.cl.hostn st.dev (cliWords opts)).1 := by
  induction opts with
  | nil =>
    intro st st' h
    cases h
    rcases hn : st.nonspecial with _ | _ | _ | n <;> rfl
  | cons o os ih =>
    intro st st' h
    unfold cliLoop at h
    rw [cliWords_cons]
    cases hw : wordOf o with
    | none =>
      cases hs : cliStep nl st o with
      | exit n => rw [hs] at h; cases h
      | check d => rw [hs] at h; cases h
      | go st1 =>
        rw [hs] at h
        obtain ⟨e1, e2, _⟩ := cliStep_no_word nl st o hw st1 hs
        rw [ih st1 st' h, e1, e2]
        cases hn : st.nonspecial with
        | zero =>
          cases cliWords os with
          | nil => rfl
          | cons v vs =>
            show (place 1 (some v) st1.dev vs).1 = (place 1 (some v) st.dev vs).1
            rw [place_host vs 1 _ _ (by omega), place_host vs 1 _ _ (by omega)]
        | succ n => rw [place_host _ _ _ _ (by omega), place_host _ _ _ _ (by omega)]
    | some v =>
      rw [cliStep_word nl st o v hw] at h
      simp only []
      unfold takeWord at h
      rcases hn : st.nonspecial with _ | _ | _ | n <;> rw [hn] at h <;> simp only [] at h
      · rw [ih _ st' h]
        rfl
      · rw [place_one]
        by_cases h0 : strtol0 v = 0
        · rw [if_pos h0] at h
          rw [if_pos h0, ih _ st' h]
        · rw [if_neg h0] at h
          rw [if_neg h0, ih _ st' h]
      · rw [ih _ st' h]
        rfl
      · cases h

theorem cliLoop_dev (nl : Bool) (opts : List CliOpt) (hd : ∀ o ∈ opts, o.isDisc = false) (hl : CliOpt.list ∉ opts) :
    ∀ st st', cliLoop nl opts st = .go st' →
    st'.dev = (place st.nonspecial st.cl.hostn st.dev (cliWords opts)).2 ∧
    (st.nonspecial = 0 → (cliWords opts).length ≤ 3 ∧
      (∀ a x b, cliWords opts = [a, x, b] → strtol0 x ≠ 0)) ∧
    (st.nonspecial = 1 → (cliWords opts).length ≤ 2 ∧ (∀ x b, cliWords opts = [x, b] → strtol0 x ≠ 0)) ∧
    (st.nonspecial = 2 → (cliWords opts).length ≤ 1) ∧ (3 ≤ st.nonspecial → cliWords opts = []) := by
  induction opts with
  | nil =>
    intro st st' h
    cases h
    refine ⟨?_, ?_, ?_, ?_, ?_⟩
    · rcases hn : st.nonspecial with _ | _ | _ | n <;> rfl
    all_goals simp [cliWords]
  | cons o os ih =>
    have ih := ih (fun x hx => hd x (List.mem_cons_of_mem _ hx)) (fun hx => hl (List.mem_cons_of_mem _ hx))
    intro st st' h
    unfold cliLoop at h
    rw [cliWords_cons]
    cases hw : wordOf o with
    | none =>
      cases hs : cliStep nl st o with
      | exit n => rw [hs] at h; cases h
      | check d => rw [hs] at h; cases h
      | go st1 =>
        rw [hs] at h
        obtain ⟨e1, e2, e3⟩ := cliStep_no_word nl st o hw st1 hs
        have e3 := e3 (hd o (by simp)) (fun hh => hl (by simp [hh]))
        have := ih st1 st' h
        rw [e1, e2, e3] at this
        exact this
    | some v =>
      rw [cliStep_word nl st o v hw] at h
      simp only []
      unfold takeWord at h
      rcases hn : st.nonspecial with _ | _ | _ | n <;> rw [hn] at h <;> simp only [] at h
      · obtain ⟨i0, -, i1, -, -⟩ := ih _ st' h
        refine ⟨i0, fun _ => ?_, by omega, by omega, by omega⟩
        obtain ⟨l, hx⟩ := i1 rfl
        refine ⟨by simp; omega, ?_⟩
        intro a x b he
        simp only [List.cons.injEq] at he
        exact hx x b he.2
      · by_cases h0 : strtol0 v = 0
        · rw [if_pos h0] at h
          obtain ⟨i0, -, -, -, i3⟩ := ih _ st' h
          have := i3 (by simp)
          refine ⟨?_, by omega, fun _ => ?_, by omega, by omega⟩
          · rw [i0, place_one, if_pos h0]
          · rw [this]
            simp
        · rw [if_neg h0] at h
          obtain ⟨i0, -, -, i2, -⟩ := ih _ st' h
          have := i2 rfl
          refine ⟨?_, by omega, fun _ => ⟨by simp; omega, ?_⟩, by omega, by omega⟩
          · rw [i0, place_one, if_neg h0]
          · intro x b he
            simp only [List.cons.injEq] at he
            rw [← he.1]
            exact h0
      · obtain ⟨i0, -, -, -, i3⟩ := ih _ st' h
        have := i3 (by simp)
        refine ⟨?_, by omega, by omega, fun _ => by simp [this], by omega⟩
        rw [i0, this]
        rfl
      · cases h

/-- The host is the first word. -/
theorem cliLoop_start_host (nl : Bool) (opts : List CliOpt) (st' : CliState) (h : cliLoop nl opts (cliStart nl) = .go st') :
    st'.cl.hostn = (cliWords opts).head? := by
  rw [cliLoop_host nl opts _ _ h]
  cases cliWords opts with
  | nil => rfl
  | cons v vs =>
    show (place 1 (some v) none vs).1 = some v
    exact place_host vs 1 _ _ (by omega)

/-- The device. -/
theorem cliLoop_start_dev (nl : Bool) (opts : List CliOpt) (hd : ∀ o ∈ opts, o.isDisc = false) (hl : CliOpt.list ∉ opts)
    (st' : CliState) (h : cliLoop nl opts (cliStart nl) = .go st') : st'.dev = deviceOf (cliWords opts) := by
  obtain ⟨h0, h1, -⟩ := cliLoop_dev nl opts hd hl _ _ h
  obtain ⟨hlen, hx⟩ := h1 rfl
  rw [h0]
  rcases hw : cliWords opts with _ | ⟨a, _ | ⟨x, _ | ⟨b, _ | ⟨c, r⟩⟩⟩⟩
  · rfl
  · rfl
  · show (place (0 + 1) (some a) none [x]).2 = _
    rw [place_one]
    simp only [deviceOf]
    split <;> rfl
  · show (place (0 + 1) (some a) none [x, b]).2 = _
    rw [place_one, if_neg (hx a x b hw)]
    rfl
  · rw [hw] at hlen
    simp at hlen

/-! ### After the options -/

theorem cliSettle_val (st st' : CliState) (h : cliSettle st = .val st') :
    st'.cl.hostn = st.cl.hostn ∧ st'.cl.port = st.cl.port ∧ st'.cl.unix = st.cl.unix ∧ st'.dev = st.dev ∧
    st'.netlink = st.netlink ∧ st'.cl.bs = st.cl.bs ∧ st'.cl.timeout = st.cl.timeout ∧ st'.cl.nconn = st.cl.nconn ∧
    st'.cl.swap = st.cl.swap ∧ st'.ident = st.ident ∧ st'.cont = st.cont ∧ st'.list = st.list ∧
    st'.cl.forceRo = st.cl.forceRo ∧ st'.cl.forceSize = st.cl.forceSize ∧ st'.cl.noOptgo = st.cl.noOptgo ∧
    st'.cl.name = some (st.cl.name.getD []) ∧ st'.cl.tls = st.cl.wantsTls ∧ st'.cl.preinit = st.cl.preinit ∧
    (st.cl.preinit = true → st.cl.wantsTls = false ∧ st.cl.forceSize ≠ 0) ∧ (st.netlink = false → st.ident = none) := by
  unfold cliSettle at h
  extract_lets c0 c1 c2 c3 c4 at h
  have e1 : c1.hostn = c0.hostn ∧ c1.port = c0.port ∧ c1.unix = c0.unix ∧ c1.bs = c0.bs ∧ c1.timeout = c0.timeout ∧
      c1.nconn = c0.nconn ∧ c1.swap = c0.swap ∧ c1.forceRo = c0.forceRo ∧ c1.forceSize = c0.forceSize ∧
      c1.noOptgo = c0.noOptgo ∧ c1.name = c0.name ∧ c1.wantsTls = c0.wantsTls ∧ c1.preinit = c0.preinit := by
    simp only [c1]
    split
    · rename_i hk
      refine ⟨rfl, rfl, rfl, rfl, rfl, rfl, rfl, rfl, rfl, rfl, rfl, ?_, rfl⟩
      simp only [Bool.and_eq_true] at hk
      simp [TabClient.wantsTls, hk.1]
    · simp
  have e2 : c2.hostn = c1.hostn ∧ c2.port = c1.port ∧ c2.unix = c1.unix ∧ c2.bs = c1.bs ∧ c2.timeout = c1.timeout ∧
      c2.nconn = c1.nconn ∧ c2.swap = c1.swap ∧ c2.forceRo = c1.forceRo ∧ c2.forceSize = c1.forceSize ∧
      c2.noOptgo = c1.noOptgo ∧ c2.name = c1.name ∧ c2.tls = c1.wantsTls ∧ c2.preinit = c1.preinit := by
    simp only [c2]
    split
    · rename_i hk
      refine ⟨rfl, rfl, rfl, rfl, rfl, rfl, rfl, rfl, rfl, rfl, rfl, ?_, rfl⟩
      simp only [TabClient.wantsTls, hk, Bool.or_true]
    · rename_i hk
      refine ⟨rfl, rfl, rfl, rfl, rfl, rfl, rfl, rfl, rfl, rfl, rfl, ?_, rfl⟩
      simp only [Bool.not_eq_true] at hk
      simp only [TabClient.wantsTls, hk, Bool.or_false]
  have e3 : c3.hostn = c2.hostn ∧ c3.port = c2.port ∧ c3.unix = c2.unix ∧ c3.bs = c2.bs ∧ c3.timeout = c2.timeout ∧
      c3.nconn = c2.nconn ∧ c3.swap = c2.swap ∧ c3.forceRo = c2.forceRo ∧ c3.forceSize = c2.forceSize ∧
      c3.noOptgo = c2.noOptgo ∧ c3.name = c2.name ∧ c3.tls = c2.tls ∧ c3.preinit = c2.preinit := by
    simp only [c3]
    split <;> simp
  clear_value c3 c2 c1
  have hc0 : c0 = st.cl := rfl
  clear_value c0
  subst hc0
  obtain ⟨a1, a2, a3, a4, a5, a6, a7, a8, a9, a10, a11, a12, a13⟩ := e1
  obtain ⟨b1, b2, b3, b4, b5, b6, b7, b8, b9, b10, b11, b12, b13⟩ := e2
  obtain ⟨d1, d2, d3, d4, d5, d6, d7, d8, d9, d10, d11, d12, d13⟩ := e3
  split at h
  · cases h
  · rename_i g1
    split at h
    · cases h
    · rename_i g2
      split at h
      · cases h
      · rename_i g3
        split at h
        · cases h
        · split at h
          · cases h
          · cases h
            refine ⟨?_, ?_, ?_, rfl, rfl, ?_, ?_, ?_, ?_, rfl, rfl, rfl, ?_, ?_, ?_, ?_, ?_, ?_, ?_, ?_⟩
            · show c3.hostn = _; rw [d1, b1, a1]
            · show c3.port = _; rw [d2, b2, a2]
            · show c3.unix = _; rw [d3, b3, a3]
            · show c3.bs = _; rw [d4, b4, a4]
            · show c3.timeout = _; rw [d5, b5, a5]
            · show c3.nconn = _; rw [d6, b6, a6]
            · show c3.swap = _; rw [d7, b7, a7]
            · show c3.forceRo = _; rw [d8, b8, a8]
            · show c3.forceSize = _; rw [d9, b9, a9]
            · show c3.noOptgo = _; rw [d10, b10, a10]
            · show some (c3.name.getD []) = _; rw [d11, b11, a11]
            · show c3.tls = _; rw [d12, b12, a12]
            · show c3.preinit = _; rw [d13, b13, a13]
            · intro hp
              rw [b13, a13, hp, b12, a12] at g1
              rw [b13, a13, hp, b9, a9] at g2
              simp only [Bool.true_and, Bool.not_eq_true] at g1
              simp only [Bool.true_and, decide_eq_true_eq] at g2
              exact ⟨g1, g2⟩
            · intro hn
              rw [hn] at g3
              simpa using g3

/-- Without a lookup in the table. -/
theorem cliReady_direct (table : Option (List Byte)) (st st' : CliState) (h : List Byte) (hh : st.cl.hostn = some h)
    (hd : looksLikeDev h = false ∨ st.list = true ∨ (st.cl.name.isSome = true ∧ st.dev.isSome = true))
    (hr : cliReady table st = .val st') : cliSettle st = .val st' := by
  unfold cliReady at hr
  rw [hh] at hr
  simp only [] at hr
  split at hr
  · rename_i hc
    split at hr
    · rename_i hl
      rcases hd with hd | hd | ⟨hd1, hd2⟩
      · rw [hd] at hl; cases hl
      · rw [hd] at hc; simp at hc
      · cases hn : st.cl.name with
        | none => rw [hn] at hd1; cases hd1
        | some x =>
          cases hv : st.dev with
          | none => rw [hv] at hd2; cases hd2
          | some y => rw [hn, hv] at hc; simp at hc
    · split at hr
      · cases hr
      · exact hr
  · exact hr

/-! ### Together -/

theorem lastGiven_map {α β : Type} (f : CliOpt → Option α) (g : α → β) (opts : List CliOpt) :
    lastGiven (fun o => (f o).map g) opts = (lastGiven f opts).map g := by
  unfold lastGiven
  rw [show (fun o => (f o).map g) = (fun o => Option.map g (f o)) from rfl, ← List.map_filterMap]
  exact List.getLast?_map

/-- The settings of a client that was started with these options, and does not use the table.
(A notion of the statements about nbd-client.c 989-1108; models no code of its own.) -/
structure CliState.Told (st : CliState) (nl : Bool) (opts : List CliOpt) (h : List Byte) : Prop where
  host : st.cl.hostn = some h
  port : st.cl.port = some (ascii "10809")
  unix : st.cl.unix = true ↔ .unix ∈ opts
  name : st.cl.name = some ((lastGiven nameOf opts).getD [])
  tls : st.cl.tls = true ↔ ∃ o ∈ opts, AsksTls o
  preinit : st.cl.preinit = true ↔ .preinit ∈ opts
  preinit_tls : st.cl.preinit = true → st.cl.tls = false ∧ st.cl.forceSize ≠ 0
  netlink : st.netlink = true ↔ nl = true ∧ .noNetlink ∉ opts
  bs : st.cl.bs = ((lastGiven bsOf opts).map (fun v => wrapInt (strtol0 v))).getD 512
  timeout : st.cl.timeout = ((lastGiven timeoutOf opts).map (fun v => wrapInt (strtol0 v))).getD 0
  nconn : st.cl.nconn = ((lastGiven connectionsOf opts).map (fun v => wrapInt (strtol0 v))).getD 1
  size : st.cl.forceSize = ((lastGiven forceSizeOf opts).map strtoull0).getD 0
  ident : st.ident = lastGiven identOf opts
  ro : st.cl.forceRo = true ↔ .readonly ∈ opts
  swap : st.cl.swap = true ↔ .swap ∈ opts
  optgo : st.cl.noOptgo = true ↔ .noOptgo ∈ opts
  cont : st.cont = true ↔ .persist ∈ opts
  list : st.list = true ↔ .list ∈ opts
  dev : .list ∉ opts → st.dev = deviceOf (cliWords opts)

theorem cliLoop_last_some {α : Type} (nl : Bool) (proj : CliState → Option α) (f : CliOpt → Option α)
    (hstep : ∀ st o st', cliStep nl st o = .go st' → proj st' = ((f o).map some).getD (proj st)) (opts : List CliOpt)
    (h0 : proj (cliStart nl) = none) (st' : CliState) (h : cliLoop nl opts (cliStart nl) = .go st') :
    proj st' = lastGiven f opts := by
  rw [cliLoop_last nl proj (fun o => (f o).map some) hstep opts _ _ h, lastGiven_map, h0]
  cases lastGiven f opts <;> rfl

theorem any_decide_iff (o : CliOpt) (opts : List CliOpt) : opts.any (fun x => decide (x = o)) = true ↔ o ∈ opts := by
  simp

theorem cliLoop_mem (nl : Bool) (proj : CliState → Bool) (o : CliOpt)
    (hstep : ∀ st x st', cliStep nl st x = .go st' → proj st' = (decide (x = o) || proj st)) (opts : List CliOpt)
    (h0 : proj (cliStart nl) = false) (st' : CliState) (h : cliLoop nl opts (cliStart nl) = .go st') :
    proj st' = true ↔ o ∈ opts := by
  rw [cliLoop_flag nl proj (fun x => decide (x = o)) hstep opts _ _ h, h0, Bool.or_false]
  exact any_decide_iff o opts

/-- The conditions under which the device table is not used. -/
theorem told (nl : Bool) (opts : List CliOpt) (h : List Byte) (table : Option (List Byte)) (st0 st : CliState)
    (hl : cliLoop nl opts (cliStart nl) = .go st0) (hdisc : st0.disc = false) (hr : cliReady table st0 = .val st)
    (hh : (cliWords opts).head? = some h)
    (hd : looksLikeDev h = false ∨ .list ∈ opts ∨ ((lastGiven nameOf opts).isSome = true ∧ (deviceOf (cliWords opts)).isSome = true)) :
    st.Told nl opts h := by
  have hhost := cliLoop_start_host nl opts st0 hl
  rw [hh] at hhost
  have hname : st0.cl.name = lastGiven nameOf opts := cliLoop_last_some nl (fun s => s.cl.name) nameOf (step_name nl) opts rfl st0 hl
  have hlist : st0.list = true ↔ .list ∈ opts := cliLoop_mem nl (fun s => s.list) .list (step_list nl) opts rfl st0 hl
  have hnd : ∀ o ∈ opts, o.isDisc = false := by
    have := cliLoop_flag nl (fun s => s.disc) CliOpt.isDisc (step_disc nl) opts _ _ hl
    rw [hdisc] at this
    have h2 : opts.any CliOpt.isDisc = false := by
      cases hx : opts.any CliOpt.isDisc with
      | false => rfl
      | true => rw [hx] at this; cases this
    simpa using h2
  have hdev : .list ∉ opts → st0.dev = deviceOf (cliWords opts) := fun hx => cliLoop_start_dev nl opts hnd hx st0 hl
  have hs := cliReady_direct table st0 st h hhost (by
    by_cases hx : CliOpt.list ∈ opts
    · exact .inr (.inl (hlist.mpr hx))
    · rcases hd with hd | hd | ⟨h1, h2⟩
      · exact .inl hd
      · exact absurd hd hx
      · exact .inr (.inr ⟨by rw [hname]; exact h1, by rw [hdev hx]; exact h2⟩)) hr
  obtain ⟨s1, s2, s3, s4, s5, s6, s7, s8, s9, s10, s11, s12, s13, s14, s15, s16, s17, s18, s19, s20⟩ := cliSettle_val st0 st hs
  have htls : st0.cl.wantsTls = true ↔ ∃ o ∈ opts, AsksTls o := by
    have := cliLoop_flag nl (fun s => s.cl.wantsTls) CliOpt.asksTls (step_tls nl) opts _ _ hl
    rw [this, show (cliStart nl).cl.wantsTls = false from rfl, Bool.or_false, List.any_eq_true]
    simp only [CliOpt.asksTls_iff]
  refine ⟨s1.trans hhost, ?_, ?_, ?_, ?_, ?_, ?_, ?_, ?_, ?_, ?_, ?_, ?_, ?_, ?_, ?_, ?_, ?_, ?_⟩
  · rw [s2]
    have := cliLoop_last nl (fun s => s.cl.port) (fun _ => none) (step_port nl) opts _ _ hl
    rw [this]
    have : lastGiven (fun _ => (none : Option (Option (List Byte)))) opts = none := by
      unfold lastGiven
      simp
    rw [this]
    rfl
  · rw [s3]; exact cliLoop_mem nl (fun s => s.cl.unix) .unix (step_unix nl) opts rfl st0 hl
  · rw [s16, hname]
  · rw [s17]; exact htls
  · rw [s18]; exact cliLoop_mem nl (fun s => s.cl.preinit) .preinit (step_preinit nl) opts rfl st0 hl
  · rw [s18, s17, s14]; exact s19
  · rw [s5]
    have := cliLoop_flag nl (fun s => !s.netlink) (fun x => decide (x = .noNetlink)) (step_netlink nl) opts _ _ hl
    rw [show (cliStart nl).netlink = nl from rfl] at this
    by_cases hm : CliOpt.noNetlink ∈ opts
    · rw [(any_decide_iff .noNetlink opts).mpr hm] at this
      simp only [Bool.true_or, Bool.not_eq_true'] at this
      simp [this, hm]
    · have ha : opts.any (fun x => decide (x = .noNetlink)) = false := by
        cases hx : opts.any (fun x => decide (x = .noNetlink)) with
        | false => rfl
        | true => exact absurd ((any_decide_iff .noNetlink opts).mp hx) hm
      rw [ha] at this
      simp only [Bool.false_or] at this
      have hnn : st0.netlink = nl := by
        cases hx : st0.netlink <;> cases nl <;> simp_all
      rw [hnn]
      simp [hm]
  · rw [s6]
    have := cliLoop_last nl (fun s => s.cl.bs) _ (step_bs nl) opts _ _ hl
    rw [lastGiven_map] at this
    exact this
  · rw [s7]
    have := cliLoop_last nl (fun s => s.cl.timeout) _ (step_timeout nl) opts _ _ hl
    rw [lastGiven_map] at this
    exact this
  · rw [s8]
    have := cliLoop_last nl (fun s => s.cl.nconn) _ (step_connections nl) opts _ _ hl
    rw [lastGiven_map] at this
    exact this
  · rw [s14]
    have := cliLoop_last nl (fun s => s.cl.forceSize) _ (step_size nl) opts _ _ hl
    rw [lastGiven_map] at this
    exact this
  · rw [s10]; exact cliLoop_last_some nl (fun s => s.ident) identOf (step_ident nl) opts rfl st0 hl
  · rw [s13]; exact cliLoop_mem nl (fun s => s.cl.forceRo) .readonly (step_ro nl) opts rfl st0 hl
  · rw [s9]; exact cliLoop_mem nl (fun s => s.cl.swap) .swap (step_swap nl) opts rfl st0 hl
  · rw [s15]; exact cliLoop_mem nl (fun s => s.cl.noOptgo) .noOptgo (step_optgo nl) opts rfl st0 hl
  · rw [s11]; exact cliLoop_mem nl (fun s => s.cont) .persist (step_cont nl) opts rfl st0 hl
  · rw [s12]; exact hlist
  · intro hx; rw [s4]; exact hdev hx

/-- What `main` comes to. -/
theorem cliMain_cases (nl : Bool) (os : CliOs) (table : Option (List Byte)) (n : Nat) (opts : List CliOpt) :
    (∃ r, cliMain nl os table n opts = ([], r) ∧ (∃ s, cliLoop nl opts (cliStart nl) = .exit s ∧ r = .exit s)) ∨
    (∃ r, cliMain nl os table n opts = ([], r) ∧
      ∃ st, cliLoop nl opts (cliStart nl) = .go st ∧ st.disc = false ∧ ∀ st', cliReady table st ≠ .val st') ∨
    (∃ d, cliLoop nl opts (cliStart nl) = .check d ∧ cliMain nl os table n opts = checkConn os d []) ∨
    (∃ st, cliLoop nl opts (cliStart nl) = .go st ∧ st.disc = true ∧
      cliMain nl os table n opts = cliDisconnect os st.netlink (st.dev.getD []) []) ∨
    (∃ st0 st, cliLoop nl opts (cliStart nl) = .go st0 ∧ st0.disc = false ∧ cliReady table st0 = .val st ∧
      cliMain nl os table n opts = cliConnect os n st []) := by
  unfold cliMain
  cases hl : cliLoop nl opts (cliStart nl) with
  | exit s => exact .inl ⟨_, rfl, s, rfl, rfl⟩
  | check d => exact .inr (.inr (.inl ⟨d, rfl, rfl⟩))
  | go st0 =>
    simp only []
    cases hd : st0.disc with
    | true => exact .inr (.inr (.inr (.inl ⟨st0, rfl, hd, by rw [if_pos rfl]⟩)))
    | false =>
      cases hr : cliReady table st0 with
      | val st => exact .inr (.inr (.inr (.inr ⟨st0, st, rfl, hd, hr, by simp⟩)))
      | exit s => exact .inr (.inl ⟨.exit s, by simp, st0, rfl, hd, by rw [hr]; intro st' hh; cases hh⟩)
      | ub => exact .inr (.inl ⟨.ub, by simp, st0, rfl, hd, by rw [hr]; intro st' hh; cases hh⟩)
      | running => exact .inr (.inl ⟨.running, by simp, st0, rfl, hd, by rw [hr]; intro st' hh; cases hh⟩)

end Nbd
