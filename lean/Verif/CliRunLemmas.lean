import Verif.CliRun
/-!
# What `main` of nbd-client does, event by event
-/

set_option autoImplicit false

namespace Nbd

/-- What a client with these settings may do. -/
def CliState.Allows (st : CliState) : CliEv → Prop
  | .lookup h p => st.cl.unix = false ∧ h = st.cl.hostn.getD [] ∧ p = st.cl.port
  | .connect _ _ => st.cl.unix = false
  | .connectUnix path _ => st.cl.unix = true ∧ path = st.cl.hostn.getD []
  | .openDev d => st.netlink = false ∧ d = st.dev.getD []
  | .nego name tls g l => name = st.cl.name.getD [] ∧ tls = st.cl.tls ∧ g = st.cl.noOptgo ∧ l = st.list
  | .device _ bs => st.netlink = false ∧ bs = st.cl.bs
  | .timeout t => st.netlink = false ∧ t = st.cl.timeout
  | .sock => st.netlink = false
  | .lock => st.netlink = false ∧ st.cl.swap = true
  | .netlink _ k _ bs _ t i => st.netlink = true ∧ k = st.cl.nconn.toNat ∧ bs = st.cl.bs ∧ t = st.cl.timeout ∧ i = st.ident
  | .netlinkDisc _ => False
  | .ioctlDisc _ => False
  | .clearSock => st.netlink = false
  | .daemon => st.netlink = false
  | .doIt => st.netlink = false
  | .sleep => st.netlink = false
  | .print _ => False

/-- The log has grown by events that are allowed. -/
def CliState.Grows (st : CliState) (log log' : List CliEv) : Prop := ∃ more, log' = log ++ more ∧ ∀ e ∈ more, st.Allows e

theorem CliState.Grows.refl (st : CliState) (log : List CliEv) : st.Grows log log := ⟨[], by simp, by simp⟩

theorem CliState.Grows.trans {st : CliState} {a b c : List CliEv} (h1 : st.Grows a b) (h2 : st.Grows b c) : st.Grows a c := by
  obtain ⟨x, rfl, hx⟩ := h1
  obtain ⟨y, rfl, hy⟩ := h2
  refine ⟨x ++ y, by simp, ?_⟩
  intro e he
  rcases List.mem_append.mp he with h | h
  · exact hx e h
  · exact hy e h

theorem CliState.Grows.one {st : CliState} (log : List CliEv) (e : CliEv) (h : st.Allows e) : st.Grows log (log ++ [e]) :=
  ⟨[e], rfl, by intro x hx; simp only [List.mem_singleton] at hx; subst hx; exact h⟩

theorem tryAddrs_grows (os : CliOs) (st : CliState) (hu : st.cl.unix = false) (as : List Nat) :
    ∀ log, st.Grows log (tryAddrs os as log).1 := by
  induction as with
  | nil => intro log; exact .refl _ _
  | cons a as ih =>
    intro log
    unfold tryAddrs
    split
    · exact ih log
    · split
      · exact .one _ _ hu
      · exact CliState.Grows.trans (.one log (.connect a false) hu) (ih _)

theorem openSock_grows (os : CliOs) (st : CliState) (log : List CliEv) : st.Grows log (openSock os st.cl log).1 := by
  unfold openSock
  split
  · rename_i hu
    unfold openUnixSock
    dsimp only
    split
    · exact .refl _ _
    · split
      · exact .refl _ _
      · exact .one _ _ ⟨hu, rfl⟩
  · rename_i hu
    have hu' : st.cl.unix = false := by simpa using hu
    unfold openNet
    dsimp only
    split
    · exact .one _ _ ⟨hu', rfl, rfl⟩
    · exact CliState.Grows.trans (.one log (.lookup _ _) ⟨hu', rfl, rfl⟩) (tryAddrs_grows os st hu' _ _)

theorem negoWith_grows (os : CliOs) (st : CliState) (log : List CliEv) : st.Grows log (negoWith os st log).1 := by
  unfold negoWith
  dsimp only
  split
  · exact .one _ _ ⟨rfl, rfl, rfl, rfl⟩
  · exact .one _ _ ⟨rfl, rfl, rfl, rfl⟩

theorem setDevice_grows (os : CliOs) (st : CliState) (hn : st.netlink = false) (size flags : Nat) (log : List CliEv) :
    st.Grows log (setDevice os size st.cl.bs flags log).1 := by
  unfold setDevice
  split
  · exact .one _ _ ⟨hn, rfl⟩
  · exact .refl _ _
  · exact .refl _ _

theorem setTimeout_grows (os : CliOs) (st : CliState) (hn : st.netlink = false) (log : List CliEv) :
    st.Grows log (setTimeout os st.cl.timeout log).1 := by
  unfold setTimeout
  split
  · exact .refl _ _
  · split
    · exact .refl _ _
    · exact .one _ _ ⟨hn, rfl⟩

theorem finishSock_grows (os : CliOs) (st : CliState) (hn : st.netlink = false) (log : List CliEv) :
    st.Grows log (finishSock os st.cl.swap log).1 := by
  unfold finishSock
  split
  · exact .refl _ _
  · split
    · rename_i hs
      refine ⟨_, rfl, ?_⟩
      intro e he
      simp only [List.mem_cons, List.not_mem_nil, or_false] at he
      rcases he with rfl | rfl
      · exact hn
      · exact ⟨hn, hs⟩
    · exact .one _ _ hn

theorem setUp_grows (os : CliOs) (st : CliState) (hn : st.netlink = false) (size flags : Nat) (log : List CliEv) :
    st.Grows log (setUp os st.cl size flags log).1 := by
  unfold setUp
  have h1 := setDevice_grows os st hn size flags log
  split
  · rename_i log1 hq
    rw [hq] at h1
    have h2 := setTimeout_grows os st hn log1
    split
    · rename_i log2 hq2
      rw [hq2] at h2
      exact h1.trans (h2.trans (finishSock_grows os st hn log2))
    · exact h1.trans h2
  · exact h1

theorem connectOne_grows (os : CliOs) (st : CliState) (cur : Nat × Nat) (log : List CliEv) :
    st.Grows log (connectOne os st cur log).1 := by
  unfold connectOne
  have h1 := openSock_grows os st log
  split
  · rename_i log1 hq; rw [hq] at h1; exact h1
  · rename_i log1 hq
    rw [hq] at h1
    have h2 : st.Grows log1 (if st.cl.preinit then (log1, .val cur) else negoWith os st log1 : CliRes (Nat × Nat)).1 := by
      split
      · exact .refl _ _
      · exact negoWith_grows os st log1
    generalize (if st.cl.preinit then (log1, .val cur) else negoWith os st log1 : CliRes (Nat × Nat)) = r at h2
    split
    · exact h1.trans h2
    · exact h1.trans h2

theorem connectAll_grows (os : CliOs) (st : CliState) (n : Nat) : ∀ (first : Bool) (cur : Nat × Nat) (log : List CliEv),
    st.Grows log (connectAll os st n first cur log).1 := by
  induction n with
  | zero => intro first cur log; exact .refl _ _
  | succ n ih =>
    intro first cur log
    unfold connectAll
    have h1 := connectOne_grows os st cur log
    split
    · rename_i log1 size flags hq
      rw [hq] at h1
      split
      · exact h1.trans (ih _ _ _)
      · rename_i hn
        have hn' : st.netlink = false := by simpa using hn
        split
        · exact h1
        have h2 : st.Grows log1 (if first then setUp os st.cl size flags log1 else finishSock os st.cl.swap log1 : CliRes Unit).1 := by
          split
          · exact setUp_grows os st hn' _ _ _
          · exact finishSock_grows os st hn' _
        generalize (if first then setUp os st.cl size flags log1 else finishSock os st.cl.swap log1 : CliRes Unit) = r at h2
        split
        · exact h1.trans (h2.trans (ih _ _ _))
        · exact h1.trans h2
        · exact h1.trans h2
        · exact h1.trans h2
    · exact h1

theorem retry_grows (os : CliOs) (st : CliState) (hn : st.netlink = false) (n : Nat) : ∀ (log : List CliEv),
    st.Grows log (retry os st.cl n log).1 := by
  induction n with
  | zero => intro log; exact .refl _ _
  | succ n ih =>
    intro log
    unfold retry
    have h1 := openSock_grows os st log
    split
    · rename_i log1 hq; rw [hq] at h1; exact h1
    · rename_i log1 hq; rw [hq] at h1; exact h1.trans (CliState.Grows.trans (.one log1 .sleep hn) (ih _))

theorem again_grows (os : CliOs) (st : CliState) (hn : st.netlink = false) (n cur : Nat) (log : List CliEv) :
    st.Grows log (again os st n cur log).1 := by
  unfold again
  have h1 := retry_grows os st hn n log
  generalize retry os st.cl n log = r at h1
  split
  · split
    · exact h1
    · rename_i log1 ho
      have h2 : st.Grows log1 (log1 ++ [.openDev (st.dev.getD [])]) := .one _ _ ⟨hn, rfl⟩
      have h3 := negoWith_grows os st (log1 ++ [.openDev (st.dev.getD [])])
      generalize negoWith os st (log1 ++ [.openDev (st.dev.getD [])]) = r3 at h3
      split
      · rename_i log2 size flags
        split
        · exact h1.trans (h2.trans h3)
        · have h4 := setUp_grows os st hn size flags log2
          generalize setUp os st.cl size flags log2 = r4 at h4
          split
          · exact h1.trans (h2.trans (h3.trans h4))
          · exact h1.trans (h2.trans (h3.trans h4))
          · exact h1.trans (h2.trans (h3.trans h4))
          · exact h1.trans (h2.trans (h3.trans h4))
      · exact h1.trans (h2.trans h3)
      · exact h1.trans (h2.trans h3)
      · exact h1.trans (h2.trans h3)
  · exact h1
  · exact h1
  · exact h1

theorem attend_grows (os : CliOs) (st : CliState) (hn : st.netlink = false) (n : Nat) : ∀ (cur : Nat) (log : List CliEv),
    st.Grows log (attend os st n cur log).1 := by
  induction n with
  | zero => intro cur log; exact .refl _ _
  | succ n ih =>
    intro cur log
    unfold attend
    dsimp only
    have h0 : st.Grows log (log ++ [.doIt]) := .one _ _ hn
    have hc : st.Grows log (log ++ [.doIt] ++ [.clearSock]) := h0.trans (.one _ _ hn)
    split
    · exact hc
    · exact hc
    · split
      · split
        · exact h0
        have h1 := again_grows os st hn (n + 1) cur (log ++ [.doIt])
        generalize again os st (n + 1) cur (log ++ [.doIt]) = r at h1
        split
        · exact h0.trans (h1.trans (ih _ _))
        · exact h0.trans h1
        · exact h0.trans h1
        · exact h0.trans h1
      · exact hc

/-- Everything a client does that has settled its settings is allowed by them. -/
theorem cliConnect_grows (os : CliOs) (n : Nat) (st : CliState) (log : List CliEv) : st.Grows log (cliConnect os n st log).1 := by
  unfold cliConnect
  split
  · exact .refl _ _
  · dsimp only
    have h0 : st.Grows log (if (!st.list && !st.netlink) = true then log ++ [.openDev (st.dev.getD [])] else log) := by
      split
      · rename_i h
        simp only [Bool.and_eq_true, Bool.not_eq_true'] at h
        exact .one _ _ ⟨h.2, rfl⟩
      · exact .refl _ _
    generalize (if (!st.list && !st.netlink) = true then log ++ [.openDev (st.dev.getD [])] else log) = log0 at h0
    split
    · exact h0
    · have h1 := connectAll_grows os st st.cl.nconn.toNat true (0, 0) log0
      generalize connectAll os st st.cl.nconn.toNat true (0, 0) log0 = r at h1
      split
      · rename_i log1 cur
        split
        · rename_i hn
          unfold netlinkMain
          dsimp only
          split
          · exact h0.trans h1
          · exact h0.trans (h1.trans (.one _ _ ⟨hn, rfl, rfl, rfl, rfl⟩))
        · rename_i hn
          have hn' : st.netlink = false := by simpa using hn
          split
          · exact h0.trans h1
          split
          · exact h0.trans h1
          · refine h0.trans (h1.trans (.trans ?_ (attend_grows os st hn' _ _ _)))
            split
            · exact .refl _ _
            · exact .one _ _ hn'
      · exact h0.trans h1
      · exact h0.trans h1
      · exact h0.trans h1

end Nbd
