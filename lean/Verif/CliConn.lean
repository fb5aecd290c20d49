import Verif.CliOpts
/-!
# The connections of nbd-client, event by event
-/

set_option autoImplicit false

namespace Nbd

namespace Spec

/-- A connection is there. -/
def opened : CliEv → Bool
  | .connect _ true => true
  | .connectUnix _ true => true
  | _ => false

/-- A negotiation. -/
def negotiated : CliEv → Bool
  | .nego _ _ _ _ => true
  | _ => false

/-- Looking for the server: names are looked up, and connections tried. -/
def Seeks : CliEv → Prop
  | .lookup _ _ => True
  | .connect _ _ => True
  | .connectUnix _ _ => True
  | _ => False

end Spec

open Spec

/-- Events of making a connection. -/
def Connecting (e : CliEv) : Prop := Seeks e ∨ negotiated e = true

theorem tryAddrs_ex (os : CliOs) (as : List Nat) : ∀ log, ∃ more, (tryAddrs os as log).1 = log ++ more ∧ (∀ e ∈ more, Seeks e) ∧
    more.countP opened = (if (tryAddrs os as log).2 then 1 else 0) ∧ more.countP negotiated = 0 := by
  induction as with
  | nil => intro log; exact ⟨[], by simp [tryAddrs], by simp, by simp [tryAddrs], rfl⟩
  | cons a as ih =>
    intro log
    unfold tryAddrs
    split
    · exact ih log
    · split
      · exact ⟨[.connect a true], rfl, by simp [Seeks], by simp [opened], by simp [negotiated]⟩
      · obtain ⟨m, h1, h2, h3, h4⟩ := ih (log ++ [.connect a false])
        refine ⟨.connect a false :: m, by rw [h1]; simp, ?_, ?_, ?_⟩
        · intro e he
          rcases List.mem_cons.mp he with rfl | he
          · trivial
          · exact h2 e he
        · rw [List.countP_cons, h3]
          simp [opened]
        · rw [List.countP_cons, h4]
          simp [negotiated]

theorem openSock_ex (os : CliOs) (c : TabClient) (log : List CliEv) : ∃ more, (openSock os c log).1 = log ++ more ∧
    (∀ e ∈ more, Seeks e) ∧ more.countP opened = (if (openSock os c log).2 then 1 else 0) ∧ more.countP negotiated = 0 := by
  unfold openSock
  split
  · unfold openUnixSock
    dsimp only
    split
    · exact ⟨[], by simp, by simp, by simp, rfl⟩
    · split
      · exact ⟨[], by simp, by simp, by simp, rfl⟩
      · refine ⟨[.connectUnix (c.hostn.getD []) (os.unixOk log)], rfl, by simp [Seeks], ?_, by simp [negotiated]⟩
        cases os.unixOk log <;> simp [opened]
  · unfold openNet
    dsimp only
    rcases hr : os.resolve (log ++ [.lookup (c.hostn.getD []) c.port]) with _ | as
    · simp only [hr]
      exact ⟨[.lookup (c.hostn.getD []) c.port], rfl, by simp [Seeks], by simp [opened], by simp [negotiated]⟩
    · simp only [hr]
      obtain ⟨m, h1, h2, h3, h4⟩ := tryAddrs_ex os as (log ++ [.lookup (c.hostn.getD []) c.port])
      refine ⟨.lookup (c.hostn.getD []) c.port :: m, by rw [h1]; simp, ?_, ?_, ?_⟩
      · intro e he
        rcases List.mem_cons.mp he with rfl | he
        · trivial
        · exact h2 e he
      · rw [List.countP_cons, h3]
        simp [opened]
      · rw [List.countP_cons, h4]
        simp [negotiated]

/-- The size and the flags with -B and -R. -/
def CliState.adjust (st : CliState) (sf : Nat × Nat) : Nat × Nat :=
  (if st.cl.forceSize ≠ 0 then st.cl.forceSize else sf.1, if st.cl.forceRo then sf.2 ||| 2 else sf.2)

/-- The negotiation of this client. -/
def CliState.negoEv (st : CliState) : CliEv := .nego (st.cl.name.getD []) st.cl.tls st.cl.noOptgo st.list

theorem connectOne_val (os : CliOs) (st : CliState) (cur cur' : Nat × Nat) (log log' : List CliEv)
    (h : connectOne os st cur log = (log', .val cur')) :
    ∃ seek, (∀ e ∈ seek, Seeks e) ∧ seek.countP opened = 1 ∧ seek.countP negotiated = 0 ∧
      (st.cl.preinit = true → log' = log ++ seek ∧ cur' = st.adjust cur) ∧
      (st.cl.preinit = false → log' = log ++ seek ++ [st.negoEv] ∧ ∃ s f, os.nego log' = .ready s f ∧ cur' = st.adjust (s, f)) := by
  obtain ⟨seek, h1, h2, h3, h4⟩ := openSock_ex os st.cl log
  unfold connectOne at h
  cases ho : openSock os st.cl log with
  | mk l1 ok =>
    rw [ho] at h h1 h3
    dsimp only at h1 h3
    cases ok with
    | false => dsimp only at h; simp at h
    | true =>
      subst h1
      dsimp only at h
      refine ⟨seek, h2, by simpa using h3, h4, ?_, ?_⟩
      · intro hp
        rw [hp] at h
        simp only [if_true, Prod.mk.injEq, CliR.val.injEq] at h
        exact ⟨h.1.symm, h.2.symm⟩
      · intro hp
        rw [hp] at h
        unfold negoWith at h
        simp only [Bool.false_eq_true, if_false] at h
        cases hn : os.nego ((log ++ seek) ++ [st.negoEv]) with
        | exits k =>
          rw [show (CliEv.nego (st.cl.name.getD []) st.cl.tls st.cl.noOptgo st.list) = st.negoEv from rfl, hn] at h
          simp at h
        | ready s f =>
          rw [show (CliEv.nego (st.cl.name.getD []) st.cl.tls st.cl.noOptgo st.list) = st.negoEv from rfl, hn] at h
          cases hli : st.list with
          | true => simp [hli] at h
          | false =>
            simp only [hli, Bool.false_eq_true, if_false, Prod.mk.injEq, CliR.val.injEq] at h
            refine ⟨h.1.symm, s, f, by rw [← h.1]; exact hn, h.2.symm⟩

theorem connecting_seek {l : List CliEv} (h : ∀ e ∈ l, Seeks e) : ∀ e ∈ l, Connecting e := fun e he => .inl (h e he)

/-- The connections of a client that uses netlink. -/
theorem connectAll_netlink (os : CliOs) (st : CliState) (hn : st.netlink = true) (n : Nat) :
    ∀ (first : Bool) (cur cur' : Nat × Nat) (log log' : List CliEv), connectAll os st n first cur log = (log', .val cur') →
    ∃ more, log' = log ++ more ∧ (∀ e ∈ more, Connecting e) ∧ more.countP opened = n ∧
      more.countP negotiated = (if st.cl.preinit then 0 else n) ∧
      (0 < n → st.cl.preinit = false → ∃ s f, os.nego log' = .ready s f ∧ cur' = st.adjust (s, f)) := by
  induction n with
  | zero =>
    intro first cur cur' log log' h
    simp only [connectAll, Prod.mk.injEq] at h
    exact ⟨[], by simp [h.1], by simp, rfl, by simp, by omega⟩
  | succ n ih =>
    intro first cur cur' log log' h
    unfold connectAll at h
    cases hc : connectOne os st cur log with
    | mk l1 r =>
      rw [hc] at h
      cases r with
      | exit k => simp at h
      | ub => simp at h
      | running => simp at h
      | val c1 =>
        obtain ⟨s1, f1⟩ := c1
        dsimp only at h
        rw [if_pos hn] at h
        obtain ⟨seek, q1, q2, q3, q4, q5⟩ := connectOne_val os st cur (s1, f1) log l1 hc
        obtain ⟨more, m1, m2, m3, m4, m5⟩ := ih false (s1, f1) cur' l1 log' h
        cases hp : st.cl.preinit with
        | true =>
          obtain ⟨e1, e2⟩ := q4 hp
          refine ⟨seek ++ more, by rw [m1, e1]; simp, ?_, ?_, ?_, by intro _ hx; cases hx⟩
          · intro e he
            rcases List.mem_append.mp he with he | he
            · exact .inl (q1 e he)
            · exact m2 e he
          · rw [List.countP_append, q2, m3]; omega
          · rw [List.countP_append, q3, m4, hp]; rfl
        | false =>
          obtain ⟨e1, s, f, e2, e3⟩ := q5 hp
          refine ⟨seek ++ [st.negoEv] ++ more, by rw [m1, e1]; simp, ?_, ?_, ?_, ?_⟩
          · intro e he
            rcases List.mem_append.mp he with he | he
            · rcases List.mem_append.mp he with he | he
              · exact .inl (q1 e he)
              · rw [List.mem_singleton] at he
                subst he
                exact .inr rfl
            · exact m2 e he
          · rw [List.countP_append, List.countP_append, q2, m3]
            simp only [List.countP_cons, List.countP_nil, CliState.negoEv, opened]
            simp; omega
          · rw [List.countP_append, List.countP_append, q3, m4, hp]
            simp only [List.countP_cons, List.countP_nil, CliState.negoEv, negotiated]
            simp; omega
          · intro _ _
            cases n with
            | zero =>
              simp only [connectAll, Prod.mk.injEq, CliR.val.injEq] at h
              refine ⟨s, f, by rw [← h.1]; exact e2, by rw [← h.2]; exact e3⟩
            | succ n => exact m5 (by omega) hp

theorem finishSock_val (os : CliOs) (swap : Bool) (log log' : List CliEv) (h : finishSock os swap log = (log', .val ())) :
    log' = log ++ (if swap then [.sock, .lock] else [.sock]) := by
  unfold finishSock at h
  split at h
  · simp at h
  · simp only [Prod.mk.injEq] at h
    exact h.1.symm

theorem setUp_val (os : CliOs) (c : TabClient) (size flags : Nat) (log log' : List CliEv)
    (h : setUp os c size flags log = (log', .val ())) :
    ∃ d, setsizes os.W os.blkOk size c.bs flags = .val d ∧
      log' = log ++ [.device d c.bs] ++ (if c.timeout = 0 then [] else [.timeout c.timeout]) ++
        (if c.swap then [.sock, .lock] else [.sock]) := by
  unfold setUp setDevice at h
  cases hs : setsizes os.W os.blkOk size c.bs flags with
  | exit => rw [hs] at h; simp at h
  | ub => rw [hs] at h; simp at h
  | val d =>
    rw [hs] at h
    dsimp only at h
    refine ⟨d, rfl, ?_⟩
    unfold setTimeout at h
    by_cases ht : c.timeout = 0
    · rw [if_pos ht] at h
      dsimp only at h
      rw [finishSock_val os _ _ _ h, if_pos ht]
      simp
    · rw [if_neg ht] at h
      split at h
      · rename_i hx
        split at hx
        · simp at hx
        · simp only [Prod.mk.injEq] at hx
          rw [finishSock_val os _ _ _ h, if_neg ht, ← hx.1]
      · rename_i hx
        simp only [h] at hx
        exact (hx _ rfl).elim

/-- The connections after the first. -/
theorem connectAll_rest (os : CliOs) (st : CliState) (hn : st.netlink = false) (n : Nat) :
    ∀ (cur cur' : Nat × Nat) (log log' : List CliEv), connectAll os st n false cur log = (log', .val cur') →
    ∃ more, log' = log ++ more ∧ (∀ e ∈ more, Connecting e ∨ e = .sock ∨ e = .lock) ∧ more.countP opened = n ∧
      more.countP negotiated = (if st.cl.preinit then 0 else n) ∧ more.countP (fun e => decide (e = .sock)) = n := by
  induction n with
  | zero =>
    intro cur cur' log log' h
    simp only [connectAll, Prod.mk.injEq] at h
    exact ⟨[], by simp [h.1], by simp, rfl, by simp, rfl⟩
  | succ n ih =>
    intro cur cur' log log' h
    unfold connectAll at h
    cases hc : connectOne os st cur log with
    | mk l1 r =>
      rw [hc] at h
      cases r with
      | exit k => simp at h
      | ub => simp at h
      | running => simp at h
      | val c1 =>
        obtain ⟨s1, f1⟩ := c1
        dsimp only at h
        rw [hn] at h
        simp only [Bool.false_eq_true, if_false] at h
        split at h
        · cases h
        obtain ⟨seek, q1, q2, q3, q4, q5⟩ := connectOne_val os st cur (s1, f1) log l1 hc
        cases hf : finishSock os st.cl.swap l1 with
        | mk l2 r =>
          rw [hf] at h
          cases r with
          | exit k => simp at h
          | ub => simp at h
          | running => simp at h
          | val u =>
            dsimp only at h
            have hl2 := finishSock_val os _ _ _ hf
            obtain ⟨more, m1, m2, m3, m4, m5⟩ := ih (s1, f1) cur' l2 log' h
            have hseek : seek.countP (fun e => decide (e = .sock)) = 0 := by
              rw [List.countP_eq_zero]
              intro e he hx
              simp only [decide_eq_true_eq] at hx
              subst hx
              exact q1 _ he
            have key : ∀ mid : List CliEv, l1 = log ++ (seek ++ mid) → (∀ e ∈ mid, Connecting e) → mid.countP opened = 0 →
                mid.countP negotiated = (if st.cl.preinit then 0 else 1) → mid.countP (fun e => decide (e = .sock)) = 0 →
                ∃ more, log' = log ++ more ∧ (∀ e ∈ more, Connecting e ∨ e = .sock ∨ e = .lock) ∧ more.countP opened = n + 1 ∧
                  more.countP negotiated = (if st.cl.preinit then 0 else n + 1) ∧
                  more.countP (fun e => decide (e = .sock)) = n + 1 := by
              intro mid hl1 hmid c1 c2 c3
              refine ⟨seek ++ mid ++ (if st.cl.swap then [.sock, .lock] else [.sock]) ++ more, ?_, ?_, ?_, ?_, ?_⟩
              · rw [m1, hl2, hl1]; simp
              · intro e he
                rcases List.mem_append.mp he with he | he
                · rcases List.mem_append.mp he with he | he
                  · rcases List.mem_append.mp he with he | he
                    · exact .inl (.inl (q1 e he))
                    · exact .inl (hmid e he)
                  · cases hsw : st.cl.swap <;> rw [hsw] at he <;> simp at he
                    · exact .inr (.inl he)
                    · exact .inr he
                · exact m2 e he
              · rw [List.countP_append, List.countP_append, List.countP_append, q2, c1, m3]
                cases st.cl.swap <;> simp [opened] <;> omega
              · rw [List.countP_append, List.countP_append, List.countP_append, q3, c2, m4]
                cases st.cl.swap <;> cases st.cl.preinit <;> simp [negotiated] <;> omega
              · rw [List.countP_append, List.countP_append, List.countP_append, hseek, c3, m5]
                cases st.cl.swap <;> simp <;> omega
            cases hp : st.cl.preinit with
            | true =>
              obtain ⟨e1, _⟩ := q4 hp
              rw [hp] at key
              exact key [] (by rw [e1]; simp) (by simp) rfl rfl rfl
            | false =>
              obtain ⟨e1, _⟩ := q5 hp
              rw [hp] at key
              exact key [st.negoEv] (by rw [e1]; simp) (by simp [Connecting, CliState.negoEv, negotiated])
                (by simp [CliState.negoEv, opened]) (by simp [CliState.negoEv, negotiated]) (by simp [CliState.negoEv])

/-- The connections of a client that uses the older calls. -/
theorem connectAll_ioctl (os : CliOs) (st : CliState) (hn : st.netlink = false) (n : Nat)
    (cur cur' : Nat × Nat) (log log' : List CliEv) (h : connectAll os st (n + 1) true cur log = (log', .val cur')) :
    ∃ seek nego sf d more, (∀ e ∈ seek, Seeks e) ∧ seek.countP opened = 1 ∧ seek.countP negotiated = 0 ∧
      nego = (if st.cl.preinit then [] else [st.negoEv]) ∧
      (st.cl.preinit = true → sf = cur) ∧ (st.cl.preinit = false → os.nego (log ++ seek ++ nego) = .ready sf.1 sf.2) ∧
      setsizes os.W os.blkOk (st.adjust sf).1 st.cl.bs (st.adjust sf).2 = .val d ∧
      log' = log ++ seek ++ nego ++ [.device d st.cl.bs] ++ (if st.cl.timeout = 0 then [] else [.timeout st.cl.timeout]) ++
        (if st.cl.swap then [.sock, .lock] else [.sock]) ++ more ∧
      (∀ e ∈ more, Connecting e ∨ e = .sock ∨ e = .lock) ∧ more.countP opened = n ∧
      more.countP negotiated = (if st.cl.preinit then 0 else n) ∧ more.countP (fun e => decide (e = .sock)) = n ∧
      (n = 0 → cur' = st.adjust sf) := by
  unfold connectAll at h
  cases hc : connectOne os st cur log with
  | mk l1 r =>
    rw [hc] at h
    cases r with
    | exit k => simp at h
    | ub => simp at h
    | running => simp at h
    | val c1 =>
      obtain ⟨s1, f1⟩ := c1
      dsimp only at h
      rw [hn] at h
      simp only [Bool.false_eq_true, if_false, if_true] at h
      split at h
      · cases h
      obtain ⟨seek, q1, q2, q3, q4, q5⟩ := connectOne_val os st cur (s1, f1) log l1 hc
      cases hf : setUp os st.cl s1 f1 l1 with
      | mk l2 r =>
        rw [hf] at h
        cases r with
        | exit k => simp at h
        | ub => simp at h
        | running => simp at h
        | val u =>
          dsimp only at h
          obtain ⟨d, hd, hl2⟩ := setUp_val os _ _ _ _ _ hf
          obtain ⟨more, m1, m2, m3, m4, m5⟩ := connectAll_rest os st hn n (s1, f1) cur' l2 log' h
          have hz : n = 0 → cur' = (s1, f1) := by
            rintro rfl
            simp only [connectAll, Prod.mk.injEq, CliR.val.injEq] at h
            exact h.2.symm
          cases hp : st.cl.preinit with
          | true =>
            obtain ⟨e1, e2⟩ := q4 hp
            rw [hp] at m4
            refine ⟨seek, [], cur, d, more, q1, q2, q3, by simp, fun _ => rfl, (by intro hx; cases hx), ?_, ?_, m2, m3, m4, m5, ?_⟩
            · rw [← e2]; exact hd
            · rw [m1, hl2, e1]; simp
            · rw [← e2]; exact hz
          | false =>
            obtain ⟨e1, s, f, e2, e3⟩ := q5 hp
            rw [hp] at m4
            refine ⟨seek, [st.negoEv], (s, f), d, more, q1, q2, q3, by simp, (by intro hx; cases hx), fun _ => ?_, ?_, ?_, m2, m3, m4,
              m5, ?_⟩
            · rw [← e1]; exact e2
            · rw [← e3]; exact hd
            · rw [m1, hl2, e1]
            · rw [← e3]; exact hz

/-! ### Reconnecting -/

theorem setUp_grows_any (os : CliOs) (c : TabClient) (size flags : Nat) (log : List CliEv) :
    ∃ m, (setUp os c size flags log).1 = log ++ m ∧ CliEv.doIt ∉ m := by
  unfold setUp setDevice
  cases setsizes os.W os.blkOk size c.bs flags with
  | exit => exact ⟨[], by simp, by simp⟩
  | ub => exact ⟨[], by simp, by simp⟩
  | val d =>
    dsimp only
    unfold setTimeout finishSock
    by_cases ht : c.timeout = 0
    · simp only [if_pos ht]
      split
      · exact ⟨[.device d c.bs], rfl, by simp⟩
      · exact ⟨.device d c.bs :: (if c.swap then [.sock, .lock] else [.sock]), by simp, by split <;> simp⟩
    · simp only [if_neg ht]
      by_cases hk : (!os.timeoutOk (log ++ [.device d c.bs])) = true
      · simp only [if_pos hk]
        exact ⟨[.device d c.bs], rfl, by simp⟩
      · simp only [if_neg hk]
        split
        · exact ⟨[.device d c.bs, .timeout c.timeout], by simp, by simp⟩
        · exact ⟨.device d c.bs :: .timeout c.timeout :: (if c.swap then [.sock, .lock] else [.sock]), by simp, by split <;> simp⟩

/-- What comes between the loss of a connection and the next one: trying to connect until that worked, opening the device, the
negotiation, and telling the kernel. -/
def CliState.Rejoins (st : CliState) (os : CliOs) (size : Nat) (pre b : List CliEv) : Prop :=
  ∃ seek f d, (∀ e ∈ seek, Seeks e ∨ e = .sleep) ∧ seek.countP opened = 1 ∧
    os.nego (pre ++ seek ++ [.openDev (st.dev.getD []), st.negoEv]) = .ready size f ∧
    setsizes os.W os.blkOk size st.cl.bs f = .val d ∧
    b = seek ++ [.openDev (st.dev.getD []), st.negoEv, .device d st.cl.bs] ++
      (if st.cl.timeout = 0 then [] else [.timeout st.cl.timeout]) ++ (if st.cl.swap then [.sock, .lock] else [.sock])

theorem retry_ex (os : CliOs) (c : TabClient) (n : Nat) : ∀ log, ∃ seek, (retry os c n log).1 = log ++ seek ∧
    (∀ e ∈ seek, Seeks e ∨ e = .sleep) ∧
    (((retry os c n log).2 = .val () ∧ seek.countP opened = 1) ∨ (retry os c n log).2 = .running) := by
  induction n with
  | zero => intro log; exact ⟨[], by simp [retry], by simp, .inr rfl⟩
  | succ n ih =>
    intro log
    obtain ⟨sk, h1, h2, h3, h4⟩ := openSock_ex os c log
    unfold retry
    cases ho : openSock os c log with
    | mk l1 ok =>
      rw [ho] at h1 h3
      dsimp only at h1 h3
      cases ok with
      | true =>
        exact ⟨sk, h1, fun e he => .inl (h2 e he), .inl ⟨rfl, by simpa using h3⟩⟩
      | false =>
        dsimp only
        obtain ⟨m, g1, g2, g3⟩ := ih (l1 ++ [.sleep])
        refine ⟨sk ++ .sleep :: m, by rw [g1, h1]; simp, ?_, ?_⟩
        · intro e he
          rcases List.mem_append.mp he with he | he
          · exact .inl (h2 e he)
          · rcases List.mem_cons.mp he with rfl | he
            · exact .inr rfl
            · exact g2 e he
        · rcases g3 with ⟨a, b⟩ | a
          · refine .inl ⟨a, ?_⟩
            rw [List.countP_append, List.countP_cons, b, h3]
            simp [opened]
          · exact .inr a

theorem again_ex (os : CliOs) (st : CliState) (n cur : Nat) (log : List CliEv) :
    ∃ b, (again os st n cur log).1 = log ++ b ∧ .doIt ∉ b ∧
      ∀ size, (again os st n cur log).2 = .val size → size = cur ∧ st.Rejoins os cur log b := by
  have nodo : ∀ {l : List CliEv}, (∀ e ∈ l, Seeks e ∨ e = .sleep) → CliEv.doIt ∉ l := by
    intro l h hx
    rcases h _ hx with h | h
    · exact h
    · cases h
  obtain ⟨seek, h1, h2, h3⟩ := retry_ex os st.cl n log
  unfold again
  rcases hr : retry os st.cl n log with ⟨l1, r⟩
  rw [hr] at h1 h3
  dsimp only at h1 h3
  subst h1
  rcases h3 with ⟨e1, e2⟩ | e1
  · subst e1
    dsimp only
    split
    · exact ⟨seek, rfl, nodo h2, by intro s hs; cases hs⟩
    · unfold negoWith
      dsimp only
      have hev : (CliEv.nego (st.cl.name.getD []) st.cl.tls st.cl.noOptgo st.list) = st.negoEv := rfl
      rw [hev]
      have hnd : CliEv.doIt ∉ seek ++ [CliEv.openDev (st.dev.getD []), st.negoEv] := by
        intro hx
        rcases List.mem_append.mp hx with hx | hx
        · exact nodo h2 hx
        · simp [CliState.negoEv] at hx
      have happ : log ++ seek ++ [CliEv.openDev (st.dev.getD [])] ++ [st.negoEv] =
          log ++ (seek ++ [CliEv.openDev (st.dev.getD []), st.negoEv]) := by simp
      rw [happ]
      rcases hn : os.nego (log ++ (seek ++ [CliEv.openDev (st.dev.getD []), st.negoEv])) with ⟨size, flags⟩ | k
      · dsimp only
        cases hli : st.list with
        | true => exact ⟨_, rfl, hnd, by intro s hs; cases hs⟩
        | false =>
        simp only [Bool.false_eq_true, if_false]
        by_cases hc : cur ≠ size
        · rw [if_pos hc]
          exact ⟨_, rfl, hnd, by intro s hs; cases hs⟩
        · rw [if_neg hc]
          have hc' : cur = size := by simpa using hc
          subst hc'
          rcases hs : setUp os st.cl cur flags (log ++ (seek ++ [CliEv.openDev (st.dev.getD []), st.negoEv])) with ⟨l2, r⟩
          cases r with
          | val u =>
            obtain ⟨d, hd, hl2⟩ := setUp_val os _ _ _ _ _ hs
            refine ⟨seek ++ [.openDev (st.dev.getD []), st.negoEv, .device d st.cl.bs] ++
              (if st.cl.timeout = 0 then [] else [.timeout st.cl.timeout]) ++ (if st.cl.swap then [.sock, .lock] else [.sock]),
              by rw [hl2]; simp, ?_, ?_⟩
            · intro hx
              rcases List.mem_append.mp hx with hx | hx
              · rcases List.mem_append.mp hx with hx | hx
                · rcases List.mem_append.mp hx with hx | hx
                  · exact nodo h2 hx
                  · simp [CliState.negoEv] at hx
                · split at hx <;> simp at hx
              · split at hx <;> simp at hx
            · intro s hs'
              cases hs'
              refine ⟨rfl, seek, flags, d, h2, e2, ?_, hd, rfl⟩
              rw [List.append_assoc]
              exact hn
          | exit k =>
            have := setUp_grows_any os st.cl cur flags (log ++ (seek ++ [CliEv.openDev (st.dev.getD []), st.negoEv]))
            rw [hs] at this
            obtain ⟨m, g1, g2⟩ := this
            refine ⟨_, by rw [g1, List.append_assoc], ?_, by intro s hs; cases hs⟩
            intro hx
            rcases List.mem_append.mp hx with hx | hx
            · exact hnd hx
            · exact g2 hx
          | ub =>
            have := setUp_grows_any os st.cl cur flags (log ++ (seek ++ [CliEv.openDev (st.dev.getD []), st.negoEv]))
            rw [hs] at this
            obtain ⟨m, g1, g2⟩ := this
            refine ⟨_, by rw [g1, List.append_assoc], ?_, by intro s hs; cases hs⟩
            intro hx
            rcases List.mem_append.mp hx with hx | hx
            · exact hnd hx
            · exact g2 hx
          | running =>
            have := setUp_grows_any os st.cl cur flags (log ++ (seek ++ [CliEv.openDev (st.dev.getD []), st.negoEv]))
            rw [hs] at this
            obtain ⟨m, g1, g2⟩ := this
            refine ⟨_, by rw [g1, List.append_assoc], ?_, by intro s hs; cases hs⟩
            intro hx
            rcases List.mem_append.mp hx with hx | hx
            · exact hnd hx
            · exact g2 hx
      · exact ⟨_, rfl, hnd, by intro s hs; cases hs⟩
  · subst e1
    exact ⟨seek, rfl, nodo h2, by intro s hs; cases hs⟩

/-- Every two successive waits have a whole reconnection between them. -/
def CliState.AllRejoin (st : CliState) (os : CliOs) (size : Nat) (log : List CliEv) : Prop :=
  ∀ a b c, log = a ++ .doIt :: (b ++ .doIt :: c) → .doIt ∉ b → st.Rejoins os size (a ++ [.doIt]) b

theorem append_singleton_split {α : Type} (x : α) (l a c : List α) (h : l ++ [x] = a ++ x :: c) :
    (c = [] ∧ a = l) ∨ ∃ c', c = c' ++ [x] ∧ l = a ++ x :: c' := by
  rcases List.eq_nil_or_concat c with rfl | ⟨c', y, rfl⟩
  · left
    have := List.append_inj' h rfl
    exact ⟨rfl, this.1.symm⟩
  · right
    rw [List.concat_eq_append] at h ⊢
    have h' : l ++ [x] = (a ++ x :: c') ++ [y] := by rw [h]; simp
    have := List.append_inj' h' rfl
    obtain ⟨e1, e2⟩ := this
    cases e2
    exact ⟨c', rfl, e1⟩

/-- Appending an event that is not a wait. -/
theorem CliState.AllRejoin.append_one {st : CliState} {os : CliOs} {size : Nat} {log : List CliEv} (h : st.AllRejoin os size log)
    (x : CliEv) (hx : x ≠ .doIt) : st.AllRejoin os size (log ++ [x]) := by
  intro a b c he hb
  rcases List.eq_nil_or_concat c with rfl | ⟨c', y, rfl⟩
  · have h' : log ++ [x] = (a ++ .doIt :: b) ++ [.doIt] := by rw [he]; simp
    have := (List.append_inj' h' rfl).2
    cases this
    exact absurd rfl hx
  · rw [List.concat_eq_append] at he
    have h' : log ++ [x] = (a ++ .doIt :: (b ++ .doIt :: c')) ++ [y] := by rw [he]; simp
    exact h a b c' (List.append_inj' h' rfl).1 hb

/-- Appending events among which there is no wait. -/
theorem CliState.AllRejoin.append {st : CliState} {os : CliOs} {size : Nat} (m : List CliEv) : ∀ {log : List CliEv},
    st.AllRejoin os size log → .doIt ∉ m → st.AllRejoin os size (log ++ m) := by
  induction m with
  | nil => intro log h _; simpa using h
  | cons x m ih =>
    intro log h hm
    have := ih (h.append_one x (fun hh => hm (by simp [hh]))) (fun hh => hm (by simp [hh]))
    rwa [List.append_assoc] at this

/-- Appending a wait. -/
theorem CliState.AllRejoin.wait {st : CliState} {os : CliOs} {size : Nat} {log : List CliEv} (h : st.AllRejoin os size log)
    (hl : ∀ a b, log = a ++ .doIt :: b → .doIt ∉ b → st.Rejoins os size (a ++ [.doIt]) b) : st.AllRejoin os size (log ++ [.doIt]) := by
  intro a b c he hb
  have h' : log ++ [.doIt] = (a ++ .doIt :: b) ++ .doIt :: c := by rw [he]; simp
  rcases append_singleton_split _ _ _ _ h' with ⟨_, e⟩ | ⟨c', _, e⟩
  · exact hl a b e.symm hb
  · exact h a b c' (by rw [e]; simp) hb

theorem last_wait {b b' a l : List CliEv} (h : l ++ .doIt :: b = a ++ .doIt :: b') (hb : CliEv.doIt ∉ b) (hb' : CliEv.doIt ∉ b') :
    l = a ∧ b = b' := by
  have h1 : b.reverse ++ .doIt :: l.reverse = b'.reverse ++ CliEv.doIt :: a.reverse := by
    have := congrArg List.reverse h
    simpa using this
  have t1 : ∀ (x y : List CliEv), CliEv.doIt ∉ x → (x ++ .doIt :: y).takeWhile (fun e => decide (e ≠ .doIt)) = x := by
    intro x y hx
    rw [List.takeWhile_append_of_pos]
    · simp
    · intro e he
      simp only [decide_eq_true_eq]
      intro hh
      exact hx (hh ▸ he)
  have hbb : b.reverse = b'.reverse := by
    rw [← t1 b.reverse l.reverse (by simpa using hb), h1, t1 b'.reverse _ (by simpa using hb')]
  have : b = b' := by simpa using hbb
  subst this
  exact ⟨List.append_cancel_right h, rfl⟩

theorem attend_rejoins (os : CliOs) (st : CliState) (n : Nat) : ∀ (cur : Nat) (log : List CliEv),
    st.AllRejoin os cur log → (∀ a b, log = a ++ .doIt :: b → .doIt ∉ b → st.Rejoins os cur (a ++ [.doIt]) b) →
    st.AllRejoin os cur (attend os st n cur log).1 := by
  induction n with
  | zero => intro cur log h _; exact h
  | succ n ih =>
    intro cur log h hl
    have hw := h.wait hl
    unfold attend
    dsimp only
    split
    · exact CliState.AllRejoin.append [.clearSock] hw (by simp)
    · exact CliState.AllRejoin.append [.clearSock] hw (by simp)
    · split
      · split
        · exact hw
        rename_i hnc
        obtain ⟨b, h1, h2, h3⟩ := again_ex os st (n + 1) cur (log ++ [.doIt])
        rcases ha : again os st (n + 1) cur (log ++ [.doIt]) with ⟨l1, r⟩
        rw [ha] at h1 h3
        dsimp only at h1 h3
        subst h1
        have hb := CliState.AllRejoin.append b hw h2
        simp only [ha]
        cases r with
        | exit k => exact hb
        | ub => exact hb
        | running => exact hb
        | val s =>
          obtain ⟨rfl, hr⟩ := h3 s rfl
          refine ih _ _ hb ?_
          intro a b' he hb'
          have he' : log ++ .doIt :: b = a ++ .doIt :: b' := by rw [← he]; simp
          obtain ⟨e1, e2⟩ := last_wait he' h2 hb'
          subst e1 e2
          exact hr
      · exact CliState.AllRejoin.append [.clearSock] hw (by simp)

/-! ### What a part of the program adds to the log -/

theorem connectOne_after (os : CliOs) (st : CliState) (cur : Nat × Nat) (log : List CliEv) :
    ∃ m, (connectOne os st cur log).1 = (openSock os st.cl log).1 ++ m ∧ CliEv.doIt ∉ m := by
  unfold connectOne
  rcases openSock os st.cl log with ⟨l1, _ | _⟩
  · exact ⟨[], by simp, by simp⟩
  · dsimp only
    cases st.cl.preinit with
    | true => exact ⟨[], by simp, by simp⟩
    | false =>
      simp only [Bool.false_eq_true, if_false]
      unfold negoWith
      dsimp only
      refine ⟨[st.negoEv], ?_, by simp [CliState.negoEv]⟩
      cases os.nego (l1 ++ [CliEv.nego (st.cl.name.getD []) st.cl.tls st.cl.noOptgo st.list]) <;> cases hli : st.list <;> simp [CliState.negoEv, hli]

theorem connectOne_any (os : CliOs) (st : CliState) (cur : Nat × Nat) (log : List CliEv) :
    ∃ m, (connectOne os st cur log).1 = log ++ m ∧ ∀ e ∈ m, Connecting e := by
  obtain ⟨s, g1, g2, -⟩ := openSock_ex os st.cl log
  unfold connectOne
  rcases ho : openSock os st.cl log with ⟨l1, _ | _⟩ <;> rw [ho] at g1 <;> dsimp only at g1 ⊢ <;> subst g1
  · exact ⟨s, rfl, connecting_seek g2⟩
  · cases st.cl.preinit with
    | true => exact ⟨s, rfl, connecting_seek g2⟩
    | false =>
      simp only [Bool.false_eq_true, if_false]
      unfold negoWith
      dsimp only
      refine ⟨s ++ [st.negoEv], ?_, ?_⟩
      · rw [← List.append_assoc]
        cases os.nego (log ++ s ++ [CliEv.nego (st.cl.name.getD []) st.cl.tls st.cl.noOptgo st.list]) <;> cases hli : st.list <;> simp [CliState.negoEv, hli]
      · intro e he
        rcases List.mem_append.mp he with he | he
        · exact .inl (g2 e he)
        · rw [List.mem_singleton] at he
          subst he
          exact .inr rfl

theorem connectAll_netlink_any (os : CliOs) (st : CliState) (hn : st.netlink = true) (n : Nat) :
    ∀ (first : Bool) (cur : Nat × Nat) (log : List CliEv),
    ∃ m, (connectAll os st n first cur log).1 = log ++ m ∧ ∀ e ∈ m, Connecting e := by
  induction n with
  | zero => intro first cur log; exact ⟨[], by simp [connectAll], by simp⟩
  | succ n ih =>
    intro first cur log
    obtain ⟨m, h1, h2⟩ := connectOne_any os st cur log
    unfold connectAll
    rcases hc : connectOne os st cur log with ⟨l1, r⟩
    rw [hc] at h1
    dsimp only at h1
    subst h1
    cases r with
    | exit k => exact ⟨m, rfl, h2⟩
    | ub => exact ⟨m, rfl, h2⟩
    | running => exact ⟨m, rfl, h2⟩
    | val c =>
      obtain ⟨size, flags⟩ := c
      dsimp only
      rw [if_pos hn]
      obtain ⟨m', g1, g2⟩ := ih false (size, flags) (log ++ m)
      refine ⟨m ++ m', by rw [g1]; simp, ?_⟩
      intro e he
      rcases List.mem_append.mp he with he | he
      · exact h2 e he
      · exact g2 e he

theorem connectOne_nodo (os : CliOs) (st : CliState) (cur : Nat × Nat) (log : List CliEv) :
    ∃ m, (connectOne os st cur log).1 = log ++ m ∧ CliEv.doIt ∉ m := by
  obtain ⟨m, h1, h2⟩ := connectOne_after os st cur log
  obtain ⟨s, g1, g2, -⟩ := openSock_ex os st.cl log
  refine ⟨s ++ m, by rw [h1, g1]; simp, ?_⟩
  intro hx
  rcases List.mem_append.mp hx with hx | hx
  · exact g2 _ hx
  · exact h2 hx

theorem finishSock_any (os : CliOs) (swap : Bool) (log : List CliEv) : ∃ m, (finishSock os swap log).1 = log ++ m ∧ CliEv.doIt ∉ m := by
  unfold finishSock
  split
  · exact ⟨[], by simp, by simp⟩
  · exact ⟨_, rfl, by cases swap <;> simp⟩

theorem connectAll_nodo (os : CliOs) (st : CliState) (n : Nat) : ∀ (first : Bool) (cur : Nat × Nat) (log : List CliEv),
    ∃ m, (connectAll os st n first cur log).1 = log ++ m ∧ CliEv.doIt ∉ m := by
  induction n with
  | zero => intro first cur log; exact ⟨[], by simp [connectAll], by simp⟩
  | succ n ih =>
    intro first cur log
    obtain ⟨m, h1, h2⟩ := connectOne_nodo os st cur log
    have join : ∀ {x y z : List CliEv}, CliEv.doIt ∉ x → CliEv.doIt ∉ y → CliEv.doIt ∉ x ++ y := by
      intro x y _ hx hy hh
      rcases List.mem_append.mp hh with hh | hh
      · exact hx hh
      · exact hy hh
    unfold connectAll
    rcases hc : connectOne os st cur log with ⟨l1, r⟩
    rw [hc] at h1
    dsimp only at h1
    subst h1
    cases r with
    | exit k => exact ⟨m, rfl, h2⟩
    | ub => exact ⟨m, rfl, h2⟩
    | running => exact ⟨m, rfl, h2⟩
    | val c =>
      obtain ⟨size, flags⟩ := c
      dsimp only
      split
      · obtain ⟨m', g1, g2⟩ := ih false (size, flags) (log ++ m)
        exact ⟨m ++ m', by rw [g1]; simp, join (z := []) h2 g2⟩
      split
      · exact ⟨m, rfl, h2⟩
      · have h3 : ∃ m', (if first then setUp os st.cl size flags (log ++ m) else finishSock os st.cl.swap (log ++ m) : CliRes Unit).1 =
            log ++ m ++ m' ∧ CliEv.doIt ∉ m' := by
          split
          · exact setUp_grows_any _ _ _ _ _
          · exact finishSock_any _ _ _
        obtain ⟨m', g1, g2⟩ := h3
        rcases hr : (if first then setUp os st.cl size flags (log ++ m) else finishSock os st.cl.swap (log ++ m) : CliRes Unit) with ⟨l2, r⟩
        rw [hr] at g1
        dsimp only at g1
        subst g1
        cases r with
        | exit k => exact ⟨m ++ m', by simp, join (z := []) h2 g2⟩
        | ub => exact ⟨m ++ m', by simp, join (z := []) h2 g2⟩
        | running => exact ⟨m ++ m', by simp, join (z := []) h2 g2⟩
        | val u =>
          dsimp only
          obtain ⟨m2, k1, k2⟩ := ih false (size, flags) (log ++ m ++ m')
          exact ⟨m ++ m' ++ m2, by rw [k1]; simp, join (z := []) (join (z := []) h2 g2) k2⟩

/-- The first connection comes first. -/
theorem connectAll_after (os : CliOs) (st : CliState) (n : Nat) (first : Bool) (cur : Nat × Nat) (log : List CliEv) :
    (openSock os st.cl log).1 <+: (connectAll os st (n + 1) first cur log).1 := by
  obtain ⟨m, h1, h2⟩ := connectOne_after os st cur log
  have : (connectOne os st cur log).1 <+: (connectAll os st (n + 1) first cur log).1 := by
    rw [connectAll]
    rcases hc : connectOne os st cur log with ⟨l1, r⟩
    cases r with
    | exit k => exact List.prefix_refl _
    | ub => exact List.prefix_refl _
    | running => exact List.prefix_refl _
    | val c =>
      obtain ⟨size, flags⟩ := c
      dsimp only
      split
      · obtain ⟨m', g1, -⟩ := connectAll_nodo os st n false (size, flags) l1
        exact ⟨m', g1.symm⟩
      split
      · exact List.prefix_refl _
      · have h3 : ∃ m', (if first then setUp os st.cl size flags l1 else finishSock os st.cl.swap l1 : CliRes Unit).1 =
            l1 ++ m' ∧ CliEv.doIt ∉ m' := by
          split
          · exact setUp_grows_any _ _ _ _ _
          · exact finishSock_any _ _ _
        obtain ⟨m', g1, g2⟩ := h3
        rcases hr : (if first then setUp os st.cl size flags l1 else finishSock os st.cl.swap l1 : CliRes Unit) with ⟨l2, r⟩
        rw [hr] at g1
        dsimp only at g1
        subst g1
        cases r with
        | exit k => exact ⟨m', rfl⟩
        | ub => exact ⟨m', rfl⟩
        | running => exact ⟨m', rfl⟩
        | val u =>
          dsimp only
          obtain ⟨m2, k1, k2⟩ := connectAll_nodo os st n false (size, flags) (l1 ++ m')
          exact ⟨m' ++ m2, by rw [k1]; simp⟩
  rw [h1] at this
  exact (List.prefix_append _ _).trans this

/-- A client that uses netlink: its connections, and then at most one call. -/
theorem cliConnect_netlink (os : CliOs) (n : Nat) (st : CliState) (hn : st.netlink = true) :
    (st.cl.nconn < 0 ∧ cliConnect os n st [] = ([], .exit 1)) ∨
    (∃ log r, 0 ≤ st.cl.nconn ∧ connectAll os st st.cl.nconn.toNat true (0, 0) [] = (log, r) ∧ (∀ c, r ≠ .val c) ∧
      (cliConnect os n st []).1 = log ∧ (∀ k, (cliConnect os n st []).2 = .exit k → r = .exit k)) ∨
    (∃ log cur, 0 ≤ st.cl.nconn ∧ connectAll os st st.cl.nconn.toNat true (0, 0) [] = (log, .val cur) ∧
      cliConnect os n st [] = netlinkMain os st cur log) := by
  unfold cliConnect
  simp only [hn, Bool.not_true, Bool.and_false, Bool.false_eq_true, if_false, Bool.true_and, if_true]
  by_cases hneg : st.cl.nconn < 0
  · exact .inl ⟨hneg, by simp [hneg]⟩
  · simp only [hneg, decide_false, Bool.false_eq_true, if_false]
    rcases hc : connectAll os st st.cl.nconn.toNat true (0, 0) [] with ⟨log, r⟩
    cases r with
    | val cur => exact .inr (.inr ⟨log, cur, by omega, rfl, rfl⟩)
    | exit k => exact .inr (.inl ⟨log, .exit k, by omega, rfl, by simp, rfl, by intro j hj; cases hj; rfl⟩)
    | ub => exact .inr (.inl ⟨log, .ub, by omega, rfl, by simp, rfl, by intro j hj; cases hj⟩)
    | running => exact .inr (.inl ⟨log, .running, by omega, rfl, by simp, rfl, by intro j hj; cases hj⟩)

/-- A client that uses the older calls, and has come as far as waiting. -/
theorem cliConnect_ioctl (os : CliOs) (n : Nat) (st : CliState) (hn : st.netlink = false) (hl : st.list = false)
    (hd : .doIt ∈ (cliConnect os n st []).1) :
    ∃ log cur, connectAll os st st.cl.nconn.toNat true (0, 0) [.openDev (st.dev.getD [])] = (log, .val cur) ∧
      cliConnect os n st [] = attend os st n cur.1 (if st.nofork then log else log ++ [.daemon]) := by
  unfold cliConnect at hd ⊢
  simp only [hn, hl, Bool.not_false, Bool.true_and, Bool.false_and, Bool.false_eq_true, if_false, if_true, List.nil_append] at hd ⊢
  split at hd
  · cases hd
  · rename_i ho
    rw [if_neg ho]
    obtain ⟨m, h1, h2⟩ := connectAll_nodo os st st.cl.nconn.toNat true (0, 0) [.openDev (st.dev.getD [])]
    rcases hc : connectAll os st st.cl.nconn.toNat true (0, 0) [.openDev (st.dev.getD [])] with ⟨log, r⟩
    rw [hc] at hd h1
    dsimp only at h1
    have hno : .doIt ∉ log := by
      rw [h1]
      intro hx
      rcases List.mem_append.mp hx with hx | hx
      · simp at hx
      · exact h2 hx
    cases r with
    | exit k => exact absurd hd hno
    | ub => exact absurd hd hno
    | running => exact absurd hd hno
    | val cur =>
      refine ⟨log, cur, rfl, ?_⟩
      dsimp only at hd ⊢
      split at hd
      · exact absurd hd hno
      · rename_i hx
        rw [if_neg hx]

end Nbd
