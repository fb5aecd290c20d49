import Verif.Props.CliRun
/-!
# nbd-client does not crash, and the block sizes it asks for (C91)
-/

set_option autoImplicit false

namespace Nbd

/-- A block size the command line may set. -/
def SectorSize (bs : Int) : Prop := bs ≠ 0 ∧ bs % 512 = 0

theorem cliStep_sector (nl : Bool) (st st' : CliState) (o : CliOpt) (h : SectorSize st.cl.bs) (hs : cliStep nl st o = .go st') :
    SectorSize st'.cl.bs := by
  have hb : ∀ v, cliBlockSize st v = .go st' → SectorSize st'.cl.bs := by
    intro v hv
    unfold cliBlockSize at hv
    dsimp only at hv
    split at hv
    · cases hv
    · rename_i hc
      cases hv
      constructor
      · exact fun h0 => hc (.inl h0)
      · exact Classical.byContradiction fun h0 => hc (.inr h0)
  cases o <;> simp only [cliStep] at hs
  case blockSize v => exact hb v hs
  case arg v =>
    split at hs
    · split at hs
      · exact hb _ hs
      · split at hs
        · unfold cliTimeout at hs; cases hs; exact h
        · cases hs
    · repeat' split at hs
      all_goals (cases hs; try exact h)
  all_goals
    first
    | (cases hs; done)
    | (cases hs; exact h)
    | (unfold cliTimeout at hs; cases hs; exact h)
    | (split at hs <;> first | (cases hs; done) | (cases hs; exact h))

theorem cliLoop_sector (nl : Bool) (opts : List CliOpt) : ∀ (st st' : CliState), SectorSize st.cl.bs → cliLoop nl opts st = .go st' →
    SectorSize st'.cl.bs := by
  induction opts with
  | nil => intro st st' h hl; cases hl; exact h
  | cons o os ih =>
    intro st st' h hl
    unfold cliLoop at hl
    cases hs : cliStep nl st o with
    | go s1 => rw [hs] at hl; exact ih s1 st' (cliStep_sector nl st s1 o h hs) hl
    | exit k => rw [hs] at hl; cases hl
    | check d => rw [hs] at hl; cases hl

/-- Dividing by the block size is the only thing that can go wrong. -/
theorem cliSettle_bs (st : CliState) :
    (cliSettle st = .ub → st.cl.bs = 0) ∧ cliSettle st ≠ .running ∧ ∀ st', cliSettle st = .val st' → st'.cl.bs = st.cl.bs ∧ st.cl.bs ≠ 0 := by
  unfold cliSettle
  dsimp only
  generalize hc1 : (if st.cl.key.isSome && st.cl.cert.isNone then { st.cl with cert := st.cl.key } else st.cl : TabClient) = c1
  have e1 : c1.bs = st.cl.bs := by rw [← hc1]; split <;> rfl
  generalize hc2 : (if c1.cert.isSome || c1.key.isSome || c1.cacert.isSome || c1.tlshostn.isSome then { c1 with tls := true } else c1 : TabClient) = c2
  have e2 : c2.bs = st.cl.bs := by rw [← e1, ← hc2]; split <;> rfl
  generalize hc3 : (if c2.tlshostn.isNone && c2.hostn.isSome && !c2.unix then { c2 with tlshostn := c2.hostn } else c2 : TabClient) = c3
  have e3 : c3.bs = st.cl.bs := by rw [← e2, ← hc3]; split <;> rfl
  rw [← e3]
  refine ⟨?_, ?_, ?_⟩
  · intro h
    repeat' split at h
    all_goals first | assumption | (cases h; done)
  · intro h
    repeat' split at h
    all_goals (cases h; done)
  · intro st' h
    repeat' split at h
    all_goals first | (cases h; done) | (cases h; exact ⟨rfl, by assumption⟩)

theorem setsizes_ub {W : Nat} {ok : Int → Bool} {size : Nat} {bs : Int} {f : Nat} (h : setsizes W ok size bs f = .ub) : bs = 0 := by
  unfold setsizes at h
  dsimp only at h
  repeat' split at h
  all_goals first | assumption | (cases h; done)

/-- A result that is not a crash. -/
def CliR.Calm {α : Type} (r : CliR α) : Prop := r ≠ .ub

theorem setUp_calm (os : CliOs) (c : TabClient) (size flags : Nat) (log : List CliEv) (hb : c.bs ≠ 0) : (setUp os c size flags log).2.Calm := by
  intro h
  unfold setUp setDevice at h
  cases hs : setsizes os.W os.blkOk size c.bs flags with
  | ub => exact hb (setsizes_ub hs)
  | exit => rw [hs] at h; cases h
  | val d =>
    rw [hs] at h
    dsimp only at h
    unfold setTimeout at h
    by_cases h1 : c.timeout = 0
    · rw [if_pos h1] at h
      dsimp only at h
      unfold finishSock at h
      split at h <;> cases h
    · rw [if_neg h1] at h
      split at h
      · rename_i hx
        split at hx
        · cases hx
        · cases hx
          unfold finishSock at h
          split at h <;> cases h
      · rename_i hx
        split at h <;> cases h

theorem negoWith_calm (os : CliOs) (st : CliState) (log : List CliEv) : (negoWith os st log).2.Calm := by
  intro h
  unfold negoWith at h
  dsimp only at h
  repeat' split at h
  all_goals (cases h; done)

/-- A list is asked for by negotiating; the program ends then. -/
def CliState.Lists (st : CliState) : Prop := st.list = true → st.cl.preinit = false

theorem negoWith_list (os : CliOs) (st : CliState) (log : List CliEv) (hl : st.list = true) (x : Nat × Nat) : (negoWith os st log).2 ≠ .val x := by
  intro h
  unfold negoWith at h
  dsimp only at h
  split at h
  · rw [hl] at h; cases h
  · cases h

theorem connectOne_list (os : CliOs) (st : CliState) (hL : st.Lists) (hl : st.list = true) (cur : Nat × Nat) (log : List CliEv)
    (x : Nat × Nat) : (connectOne os st cur log).2 ≠ .val x := by
  intro h
  unfold connectOne at h
  rcases ho : openSock os st.cl log with ⟨l1, _ | _⟩ <;> rw [ho] at h
  · cases h
  · dsimp only at h
    rw [hL hl] at h
    simp only [Bool.false_eq_true, if_false] at h
    have hn := negoWith_list os st l1 hl
    rcases hx : negoWith os st l1 with ⟨l2, a | k | _ | _⟩
    · rw [hx] at hn; exact hn a rfl
    · rw [hx] at h; cases h
    · rw [hx] at h; cases h
    · rw [hx] at h; cases h

theorem connectOne_calm (os : CliOs) (st : CliState) (cur : Nat × Nat) (log : List CliEv) : (connectOne os st cur log).2.Calm := by
  intro h
  unfold connectOne at h
  rcases ho : openSock os st.cl log with ⟨l1, _ | _⟩ <;> rw [ho] at h
  · cases h
  · dsimp only at h
    by_cases hp : st.cl.preinit = true
    · rw [if_pos hp] at h; cases h
    · rw [if_neg hp] at h
      have hn := negoWith_calm os st l1
      rcases hx : negoWith os st l1 with ⟨l2, a | k | _ | _⟩
      · rw [hx] at h; cases h
      · rw [hx] at h; cases h
      · rw [hx] at hn; exact hn rfl
      · rw [hx] at h; cases h

theorem connectAll_calm (os : CliOs) (st : CliState) (hb : st.cl.bs ≠ 0) (hL : st.Lists) (n : Nat) : ∀ (first : Bool) (cur : Nat × Nat) (log : List CliEv),
    (connectAll os st n first cur log).2.Calm := by
  induction n with
  | zero => intro first cur log h; cases h
  | succ n ih =>
    intro first cur log
    unfold connectAll
    have h1 := connectOne_calm os st cur log
    rcases hx : connectOne os st cur log with ⟨l1, ⟨size, flags⟩ | k | _ | _⟩
    · dsimp only
      by_cases hn : st.netlink = true
      · rw [if_pos hn]; exact ih _ _ _
      · rw [if_neg hn]
        by_cases hli : st.list = true
        · have := connectOne_list os st hL hli cur log (size, flags)
          rw [hx] at this
          exact absurd rfl this
        rw [if_neg hli]
        have h2 : (if first = true then setUp os st.cl size flags l1 else finishSock os st.cl.swap l1 : CliRes Unit).2.Calm := by
          cases first
          · intro h
            simp only [Bool.false_eq_true, if_false] at h
            unfold finishSock at h
            split at h <;> cases h
          · exact setUp_calm os st.cl size flags l1 hb
        rcases hy : (if first = true then setUp os st.cl size flags l1 else finishSock os st.cl.swap l1 : CliRes Unit) with ⟨l2, _ | k | _ | _⟩
        · exact ih _ _ _
        · intro h; cases h
        · rw [hy] at h2; exact absurd rfl h2
        · intro h; cases h
    · intro h; cases h
    · rw [hx] at h1; exact absurd rfl h1
    · intro h; cases h

theorem retry_calm (os : CliOs) (c : TabClient) (n : Nat) : ∀ log, (retry os c n log).2.Calm := by
  induction n with
  | zero => intro log h; cases h
  | succ n ih =>
    intro log
    unfold retry
    rcases openSock os c log with ⟨l1, _ | _⟩
    · exact ih _
    · intro h; cases h

theorem again_calm (os : CliOs) (st : CliState) (hb : st.cl.bs ≠ 0) (n cur : Nat) (log : List CliEv) : (again os st n cur log).2.Calm := by
  unfold again
  have h1 := retry_calm os st.cl n log
  rcases hx : retry os st.cl n log with ⟨l1, _ | k | _ | _⟩
  · dsimp only
    by_cases ho : (!os.openOk l1) = true
    · rw [if_pos ho]; intro h; cases h
    · rw [if_neg ho]
      have h2 := negoWith_calm os st (l1 ++ [.openDev (st.dev.getD [])])
      rcases hy : negoWith os st (l1 ++ [.openDev (st.dev.getD [])]) with ⟨l2, ⟨size, flags⟩ | k | _ | _⟩ <;> rw [hy] at h2 ⊢
      · dsimp only
        by_cases hc : cur ≠ size
        · rw [if_pos hc]; intro h; cases h
        · rw [if_neg hc]
          have h3 := setUp_calm os st.cl size flags l2 hb
          rcases hz : setUp os st.cl size flags l2 with ⟨l3, _ | k | _ | _⟩
          · intro h; cases h
          · intro h; cases h
          · rw [hz] at h3; exact absurd rfl h3
          · intro h; cases h
      · intro h; cases h
      · exact absurd rfl h2
      · intro h; cases h
  · intro h; cases h
  · rw [hx] at h1; exact absurd rfl h1
  · intro h; cases h

theorem attend_calm (os : CliOs) (st : CliState) (hb : st.cl.bs ≠ 0) (hk : 0 < st.cl.nconn) (n : Nat) : ∀ (cur : Nat) (log : List CliEv), (attend os st n cur log).2.Calm := by
  induction n with
  | zero => intro cur log h; cases h
  | succ n ih =>
    intro cur log
    unfold attend
    dsimp only
    cases os.doIt (log ++ [.doIt]) with
    | badr => intro h; cases h
    | returned => intro h; cases h
    | lost =>
      dsimp only
      by_cases hc : st.cont = true
      · rw [if_pos hc, if_neg (by omega : ¬ st.cl.nconn ≤ 0)]
        have h1 := again_calm os st hb (n + 1) cur (log ++ [.doIt])
        rcases hx : again os st (n + 1) cur (log ++ [.doIt]) with ⟨l1, _ | k | _ | _⟩ <;> rw [hx] at h1 ⊢
        · exact ih _ _
        · intro h; cases h
        · exact absurd rfl h1
        · intro h; cases h
      · rw [if_neg hc]; intro h; cases h

theorem cliConnect_calm (os : CliOs) (n : Nat) (st : CliState) (log : List CliEv) (hb : st.cl.bs ≠ 0) (hL : st.Lists)
    (hk : 0 < st.cl.nconn) : (cliConnect os n st log).2.Calm := by
  unfold cliConnect
  by_cases h1 : (!st.list && !st.netlink && !os.openOk log) = true
  · rw [if_pos h1]; intro h; cases h
  · rw [if_neg h1]
    dsimp only
    by_cases h2 : (st.netlink && decide (st.cl.nconn < 0)) = true
    · rw [if_pos h2]; intro h; cases h
    · rw [if_neg h2]
      generalize (if (!st.list && !st.netlink) = true then log ++ [CliEv.openDev (st.dev.getD [])] else log) = l0
      have h3 := connectAll_calm os st hb hL st.cl.nconn.toNat true (0, 0) l0
      rcases hx : connectAll os st st.cl.nconn.toNat true (0, 0) l0 with ⟨l1, cur | k | _ | _⟩
      · dsimp only
        by_cases hn : st.netlink = true
        · rw [if_pos hn]
          unfold netlinkMain
          dsimp only
          intro h
          split at h <;> cases h
        · rw [if_neg hn]
          by_cases hli : st.list = true
          · obtain ⟨k, hk'⟩ : ∃ k, st.cl.nconn.toNat = k + 1 := ⟨st.cl.nconn.toNat - 1, by omega⟩
            rw [hk'] at hx
            unfold connectAll at hx
            have h5 := connectOne_list os st hL hli (0, 0) l0
            rcases hy : connectOne os st (0, 0) l0 with ⟨l2, a | k | _ | _⟩ <;> rw [hy] at hx
            · rw [hy] at h5; exact absurd rfl (h5 a)
            · cases hx
            · cases hx
            · cases hx
          rw [if_neg hli]
          split
          · intro h; cases h
          · exact attend_calm os st hb hk n _ _
      · intro h; cases h
      · rw [hx] at h3; exact absurd rfl h3
      · intro h; cases h

/-- Without the table, settling is all there is. -/
theorem cliReady_calm {table : Option (List Byte)} {st : CliState} {h : List Byte} (hh : st.cl.hostn = some h) (hb : st.cl.bs ≠ 0)
    (hd : table = none ∨ looksLikeDev h = false ∨ st.list = true ∨ (st.cl.name.isSome = true ∧ st.dev.isSome = true)) :
    cliReady table st ≠ .ub ∧ ∀ st', cliReady table st = .val st' → cliSettle st = .val st' := by
  have hs := cliSettle_bs st
  have h1 : cliSettle st ≠ .ub := fun h => hb (hs.1 h)
  have h2 : ∀ st', cliSettle st = .val st' → cliSettle st = .val st' := fun st' h => h
  unfold cliReady
  rw [hh]
  dsimp only
  by_cases hc : ((st.cl.name.isNone || st.dev.isNone) && !st.list) = true
  · rw [if_pos hc]
    by_cases hl : looksLikeDev h = true
    · rw [if_pos hl]
      rcases hd with hd | hd | hd | ⟨hd1, hd2⟩
      · subst hd
        exact ⟨(by intro h; cases h), (by intro _ h; cases h)⟩
      · rw [hd] at hl; cases hl
      · rw [hd] at hc; simp at hc
      · cases hn : st.cl.name with
        | none => rw [hn] at hd1; cases hd1
        | some x =>
          cases hv : st.dev with
          | none => rw [hv] at hd2; cases hd2
          | some y => rw [hn, hv] at hc; simp at hc
    · rw [if_neg hl]
      split
      · exact ⟨(by intro h; cases h), (by intro _ h; cases h)⟩
      · exact ⟨h1, h2⟩
  · rw [if_neg hc]
    exact ⟨h1, h2⟩

namespace Props
open Spec

/-- How a client without the table goes on after its options. -/
theorem direct_ready {nl : Bool} {opts : List CliOpt} {table : Option (List Byte)} (hD : table = none ∨ ∃ h, Direct opts h) {st : CliState}
    (hl : cliLoop nl opts (cliStart nl) = .go st) (hdisc : st.disc = false) :
    cliReady table st ≠ .ub ∧ ∀ st', cliReady table st = .val st' → SectorSize st'.cl.bs ∧
      st'.cl.nconn = ((lastGiven connectionsOf opts).map (fun v => wrapInt (strtol0 v))).getD 1 ∧
      (st'.list = true ↔ .list ∈ opts) ∧ (st'.cl.preinit = true ↔ .preinit ∈ opts) := by
  have hsec : SectorSize st.cl.bs := cliLoop_sector nl opts _ st (show SectorSize 512 from ⟨by decide, by decide⟩) hl
  have hhost := cliLoop_start_host nl opts st hl
  cases hh : st.cl.hostn with
  | none =>
    unfold cliReady
    rw [hh]
    exact ⟨(by intro h; cases h), (by intro _ h; cases h)⟩
  | some h =>
    have key := cliReady_calm (table := table) hh hsec.1 (by
      rcases hD with hD | ⟨h', hD⟩
      · exact .inl hD
      · right
        rw [hD.1, hh] at hhost
        cases hhost
        have hname : st.cl.name = lastGiven nameOf opts := cliLoop_last_some nl (fun s => s.cl.name) nameOf (step_name nl) opts rfl st hl
        have hlist : st.list = true ↔ .list ∈ opts := cliLoop_mem nl (fun s => s.list) .list (step_list nl) opts rfl st hl
        have hnd : ∀ o ∈ opts, o.isDisc = false := by
          have := cliLoop_flag nl (fun s => s.disc) CliOpt.isDisc (step_disc nl) opts _ _ hl
          rw [hdisc] at this
          have h2 : opts.any CliOpt.isDisc = false := by
            cases hx : opts.any CliOpt.isDisc with
            | false => rfl
            | true => rw [hx] at this; cases this
          simpa using h2
        by_cases hx : CliOpt.list ∈ opts
        · exact .inr (.inl (hlist.mpr hx))
        · rcases hD.2 with ⟨h1, h2⟩ | h1 | ⟨⟨v, h1⟩, h2⟩
          · exact .inl (looksLikeDev_false h1 h2)
          · exact absurd h1 hx
          · exact .inr (.inr ⟨by rw [hname]; exact lastGiven_name_isSome h1, by
              rw [cliLoop_start_dev nl opts hnd hx st hl]; exact h2⟩))
    refine ⟨key.1, fun st' hs => ?_⟩
    obtain ⟨-, -, -, -, -, s6, -, s8, -, -, -, s12, -, -, -, -, -, s18, -, -⟩ := cliSettle_val st st' (key.2 st' hs)
    refine ⟨by rw [s6]; exact hsec, ?_, ?_, ?_⟩
    · have := cliLoop_last nl (fun s => s.cl.nconn) _ (step_connections nl) opts _ _ hl
      rw [s8]
      rw [this]
      rw [lastGiven_map]
      rfl
    · rw [s12]; exact cliLoop_mem nl (fun s => s.list) .list (step_list nl) opts rfl st hl
    · rw [s18]; exact cliLoop_mem nl (fun s => s.cl.preinit) .preinit (step_preinit nl) opts rfl st hl

/-- C91 (part). Whatever the options, the server and the kernel do: a client that does not use the table does not crash, if it is asked
for at least one connection and not for a list without negotiation; and the block size it tells the kernel is a multiple of 512 other
than 0.

Missing: a client that uses the table (`C91_false`); one with `-C 0` or `-l -P` (`C91_false_unset`); and the block size may be negative,
`C91_false_negative`. -/
theorem C91_partial (nl : Bool) (os : CliOs) (table : Option (List Byte)) (n : Nat) (opts : List CliOpt)
    (hD : table = none ∨ ∃ h, Direct opts h) :
    (∀ k, Asked connectionsOf opts 1 k → 0 < k → (.list ∈ opts → .preinit ∉ opts) → (cliMain nl os table n opts).2 ≠ .ub) ∧
    (∀ i k size bs fl t id, .netlink i k size bs fl t id ∈ (cliMain nl os table n opts).1 → bs ≠ 0 ∧ bs % 512 = 0) ∧
    (∀ d bs, .device d bs ∈ (cliMain nl os table n opts).1 → bs ≠ 0 ∧ bs % 512 = 0) := by
  have aside : ∀ e, Aside e → (∀ i k size bs fl t id, e ≠ .netlink i k size bs fl t id) ∧ ∀ d bs, e ≠ .device d bs := by
    intro e he
    refine ⟨fun i k size bs fl t id h => ?_, fun d bs h => ?_⟩ <;> (subst h; exact he)
  have only : ∀ log : List CliEv, (∀ e ∈ log, Aside e) →
      (∀ i k size bs fl t id, .netlink i k size bs fl t id ∈ log → bs ≠ 0 ∧ bs % 512 = 0) ∧
      (∀ d bs, .device d bs ∈ log → bs ≠ 0 ∧ bs % 512 = 0) := fun log h =>
    ⟨fun i k size bs fl t id hm => absurd rfl ((aside _ (h _ hm)).1 i k size bs fl t id), fun d bs hm => absurd rfl ((aside _ (h _ hm)).2 d bs)⟩
  unfold cliMain
  cases hl : cliLoop nl opts (cliStart nl) with
  | exit s => exact ⟨(by intro _ _ _ _ h; cases h), only [] (by simp)⟩
  | check d =>
    dsimp only
    unfold checkConn
    split
    · exact ⟨(by intro _ _ _ _ h; cases h), only [] (by simp)⟩
    · exact ⟨(by intro _ _ _ _ h; cases h), only [] (by simp)⟩
    · exact ⟨(by intro _ _ _ _ h; cases h), only [] (by simp)⟩
    · exact ⟨(by intro _ _ _ _ h; cases h), only _ (by simp [Aside])⟩
  | go st =>
    dsimp only
    cases hd : st.disc with
    | true =>
      refine ⟨?_, only _ (cliDisconnect_aside os _ _)⟩
      rw [if_pos rfl]
      unfold cliDisconnect
      intro _ _ _ _ h
      dsimp only at h
      repeat' split at h
      all_goals (cases h; done)
    | false =>
      obtain ⟨h1, h2⟩ := direct_ready hD hl hd
      simp only [Bool.false_eq_true, if_false]
      cases hr : cliReady table st with
      | ub => exact absurd hr h1
      | exit s => exact ⟨(by intro _ _ _ _ h; cases h), only [] (by simp)⟩
      | running => exact ⟨(by intro _ _ _ _ h; cases h), only [] (by simp)⟩
      | val st1 =>
        have hs := h2 st1 hr
        obtain ⟨m, h3, h4⟩ := cliConnect_grows os n st1 []
        rw [List.nil_append] at h3
        dsimp only
        rw [h3]
        refine ⟨?_, ?_, ?_⟩
        · intro k hk hk0 hlp
          refine cliConnect_calm os n st1 [] hs.1.1 ?_ ?_
          · intro hli
            cases hp : st1.cl.preinit with
            | false => rfl
            | true => exact absurd (hs.2.2.2.mp hp) (hlp (hs.2.2.1.mp hli))
          · have := hs.2.1
            rw [show (1 : Int) = ((1 : Nat) : Int) from rfl, asked_wrap hk] at this
            omega
        · intro i k size bs fl t id hm
          have := (h4 _ hm).2.2.1
          rw [this]
          exact hs.1
        · intro d bs hm
          have := (h4 _ hm).2
          rw [this]
          exact hs.1

/-- The hypotheses of `C91_partial` are met by a client that sets up a device with blocks of 4096 bytes. -/
example : Direct (.blockSize (ascii "4096") :: portOpts) (ascii "server") ∧
    Asked connectionsOf (.blockSize (ascii "4096") :: portOpts) 1 1 ∧
    .netlink (some 0) 1 1048576 4096 1 0 none ∈ (cliMain true okOs none 0 (.blockSize (ascii "4096") :: portOpts)).1 :=
  ⟨⟨by decide +kernel, .inl ⟨by decide +kernel, by decide +kernel⟩⟩, rfl, by decide +kernel⟩

/-- The command lines that ask for no blocks, or parts of a sector, end with status 1. -/
example : cliMain true okOs none 0 (.blockSize (ascii "0") :: portOpts) = ([], .exit 1) ∧
    cliMain true okOs none 0 (.blockSize (ascii "1000") :: portOpts) = ([], .exit 1) := by decide +kernel

/-- C91 is false of block sizes in the table, which nobody checks: with `bs=0` the client divides by zero before it connects, whatever
the server and the kernel do; and with `bs=1000` it gives that to the kernel
(and the end of the export is cut off). -/
theorem C91_false :
    (∀ (nl : Bool) (os : CliOs) (n : Nat), cliMain nl os (some (ascii "nbd0 server disk bs=0\n")) n [.arg (ascii "nbd0")] = ([], .ub)) ∧
    .device ⟨1048000, 1, false⟩ 1000 ∈
      (cliMain true okOs (some (ascii "nbd0 server disk bs=1000\n")) 0 [.noNetlink, .arg (ascii "/dev/nbd0")]).1 := by
  refine ⟨?_, ?_⟩
  · intro nl os n
    have h : ∀ nl, ∃ st, cliLoop nl [.arg (ascii "nbd0")] (cliStart nl) = .go st ∧ st.disc = false ∧
        cliReady (some (ascii "nbd0 server disk bs=0\n")) st = .ub := by
      intro nl
      cases nl <;> exact ⟨_, rfl, by decide +kernel, by decide +kernel⟩
    obtain ⟨st, h1, h2, h3⟩ := h nl
    unfold cliMain
    rw [h1]
    simp only [h2, h3]
    rfl
  · decide +kernel

/-- C91 is false of `-C 0` with -p: when the kernel gives the device back, the client closes a socket it never opened. It is false of -l
with -P, too: the client sets up a device it never opened; and of -l with `-C 0`. -/
theorem C91_false_unset :
    (cliMain true okOs none 1 [.noNetlink, .nofork, .persist, .connections (ascii "0"), .name (ascii "disk"), .arg (ascii "server"),
      .arg (ascii "/dev/nbd0")]).2 = .ub ∧
    (cliMain true okOs none 1 [.noNetlink, .list, .preinit, .size (ascii "512"), .arg (ascii "server")]).2 = .ub ∧
    (cliMain true okOs none 1 [.noNetlink, .list, .connections (ascii "0"), .arg (ascii "server")]).2 = .ub := by
  decide +kernel

/-- C91 is false of negative block sizes: `-b -512` is accepted. -/
theorem C91_false_negative :
    .netlink (some 0) 1 1048576 (-512) 1 0 none ∈ (cliMain true okOs none 0 (.blockSize (ascii "-512") :: portOpts)).1 := by
  decide +kernel

end Props

end Nbd
