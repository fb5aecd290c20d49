import Verif.LoopFds
/-!
# Stopping the server, its children and its descriptors (C83, C84, C85)
-/

set_option autoImplicit false

namespace Nbd

open Loop

namespace Spec

/-- Steps of the server itself in an execution. -/
def ownSteps (acts : List Act) : Nat := acts.countP fun a => match a with | .own _ => true | .env _ => false

/-- The children that run. -/
def running (s : State) : List Child := s.kids.filter (·.ended = false)

/-- The server waits for something to happen: no signal is pending, and no socket has anything to read. -/
def AtRest (s : State) : Prop :=
  s.pc = .select ∧ s.termP = false ∧ s.chldP = false ∧ s.hupP = false ∧ s.chld = false ∧ ∀ c ∈ s.childsocks, c.peer = .idle

/-- There is room for another connection in the descriptors of the server (`own` of which it uses itself), and no child has ended while it waited for an answer. -/
def Roomy (limit own : Nat) (s : State) : Prop :=
  s.childsocks.length + own + 3 ≤ limit ∧ s.childsocks.length + own + 3 ≤ 1024 ∧ ∀ c ∈ s.childsocks, c.peer ≠ .askedGone

end Spec

open Spec

namespace Props

/-! ### C83: stopping -/

/-- C83. In every execution, whatever processes come and go and whatever numbers they get: the server has sent no signal to a process that is not its child;
it has not stopped, nor sent SIGTERM to a child, unless it was sent SIGTERM; and when it has stopped, it did so with success, its pid file is gone, and every
child still there has been sent SIGTERM. -/
theorem C83_stop {limit : Nat} {used others : List Nat} {tp hp : Bool} {acts : List Act} {s : State}
    (h : run limit acts (start used others tp hp) = .val s) :
    s.stray = [] ∧
    ((∃ c, s.pc = .exited c) ∨ (∃ k ∈ s.kids, k.termed = true) → tp = true ∨ .env .sigterm ∈ acts) ∧
    ∀ c, s.pc = .exited c → c = 0 ∧ s.pidfile = false ∧ ∀ k ∈ s.kids, k.termed = true := by
  have hi := (Inv.start used others tp hp).run acts h
  refine ⟨hi.stray, ?_, hi.exited⟩
  rintro (hx | hx)
  · exact hi.wanted (Or.inr (Or.inr (Or.inr (Or.inr (Or.inl hx)))))
  · exact hi.wanted (Or.inr (Or.inr (Or.inr (Or.inr (Or.inr hx)))))

/-- How many steps the server still makes. -/
def Stops (n : Nat) (s : State) : Prop :=
  (s.pc = .top ∧ s.term = true ∧ n = s.table.length + 3) ∨ (∃ rest, s.pc = .kill rest ∧ n = rest.length + 2) ∨ (s.pc = .unlink ∧ n = 1) ∨
    (s.pc = .exited 0 ∧ n = 0)

theorem Stops.env {n : Nat} {s : State} (h : Stops n s) (e : Env) : Stops n (envStep s e) := by
  unfold Stops
  rw [envStep_pc, envStep_term, envStep_table]
  exact h

theorem Stops.own {n limit : Nat} {s : State} (h : Stops n s) (ans : Answer) : ∃ s', ownStep limit s ans = .val s' ∧ Stops (n - 1) s' := by
  unfold ownStep
  rcases h with ⟨h1, h2, rfl⟩ | ⟨rest, h1, rfl⟩ | ⟨h1, rfl⟩ | ⟨h1, rfl⟩
  · rw [h1]
    dsimp only
    rw [if_pos h2]
    exact ⟨_, rfl, Or.inr (Or.inl ⟨_, rfl, by simp⟩)⟩
  · rw [h1]
    cases rest with
    | nil => exact ⟨_, rfl, Or.inr (Or.inr (Or.inl ⟨rfl, rfl⟩))⟩
    | cons p rest => exact ⟨_, rfl, Or.inr (Or.inl ⟨rest, rfl, by simp⟩)⟩
  · rw [h1]
    exact ⟨_, rfl, Or.inr (Or.inr (Or.inr ⟨rfl, rfl⟩))⟩
  · rw [h1]
    exact ⟨_, rfl, Or.inr (Or.inr (Or.inr ⟨h1, rfl⟩))⟩

theorem Stops.run {limit : Nat} (acts : List Act) {n : Nat} {s : State} (h : Stops n s) :
    ∃ s', Loop.run limit acts s = .val s' ∧ Stops (n - ownSteps acts) s' := by
  induction acts generalizing n s with
  | nil => exact ⟨s, rfl, h⟩
  | cons a as ih =>
    unfold Loop.run
    cases a with
    | env e =>
      obtain ⟨s', h1, h2⟩ := ih (h.env e)
      refine ⟨s', h1, ?_⟩
      simpa [ownSteps, List.countP_cons] using h2
    | own ans =>
      obtain ⟨s1, h1, h2⟩ := h.own (limit := limit) ans
      obtain ⟨s', h3, h4⟩ := ih h2
      refine ⟨s', ?_, ?_⟩
      · simp only [step, h1]
        exact h3
      · have : ownSteps (.own ans :: as) = ownSteps as + 1 := by simp [ownSteps]
        rw [this]
        have h5 : n - (ownSteps as + 1) = n - 1 - ownSteps as := by omega
        rw [h5]
        exact h4

/-- C83. Once the signal has interrupted the waiting of the server, it stops within a number of its own steps, one for each child and four more, whatever happens
meanwhile. -/
theorem C83_ends {limit : Nat} {s s1 : State} {acts : List Act} (hpc : s.pc = .select) (ht : s.termP = true)
    (h : step limit s (.own .interrupted) = .val s1) (hn : s.table.length + 3 ≤ ownSteps acts) :
    ∃ s', run limit acts s1 = .val s' ∧ s'.pc = .exited 0 := by
  have hs : Stops (s.table.length + 3) s1 := by
    simp only [step, ownStep] at h
    rw [hpc] at h
    dsimp only at h
    split at h
    · cases h
    · rw [if_pos (Or.inl ht)] at h
      cases h
      exact Or.inl ⟨rfl, by simp [ht], rfl⟩
  obtain ⟨s', h1, h2⟩ := hs.run (limit := limit) acts
  refine ⟨s', h1, ?_⟩
  have : s.table.length + 3 - ownSteps acts = 0 := by omega
  rw [this] at h2
  rcases h2 with ⟨-, -, h3⟩ | ⟨_, -, h3⟩ | ⟨-, h3⟩ | ⟨h3, -⟩
  · omega
  · omega
  · omega
  · exact h3

/-- Two clients connect; the process of the first ends, is waited for, and its number (7) is given to another program; then SIGTERM comes. -/
def stopActs : List Act :=
  [.own .none, .own (.ready 2 []), .own (.forked (some 7)), .own (.forked (some 8)), .own .none, .own .none, .own .none, .own .none,
   .own .none, .env (.ends 7), .own .interrupted, .own .none, .own (.waited (some 7)), .env (.starts 7), .own .none, .own (.waited none),
   .env .sigterm, .own .interrupted, .own .none, .own .none, .own .none, .own .none]

example : ∃ s, run 64 stopActs (start [0, 1, 2, 3] [1, 20] false false) = .val s ∧ s.pc = .exited 0 ∧ s.kids = [⟨8, false, true⟩] ∧ 7 ∈ s.others :=
  ⟨_, rfl, by decide +kernel, by decide +kernel, by decide +kernel⟩

/-! ### C84: what is left of ended sessions -/

/-- C84. In every execution, whenever the server waits: no child that has ended is left uncollected, its list of children names the running ones, each once at
most, and apart from what it had at the start it has one descriptor open for each of some running children, and none for any other. -/
theorem C84_rest {limit : Nat} {used others : List Nat} {tp hp : Bool} {acts : List Act} {s : State} (hu : used.Nodup)
    (h : run limit acts (start used others tp hp) = .val s) (hr : AtRest s) :
    (∀ k ∈ s.kids, k.ended = false) ∧ (∀ p, p ∈ s.table ↔ ∃ k ∈ s.kids, k.pid = p) ∧
    (∃ extra, s.used.Perm (extra ++ used) ∧ extra.length = s.childsocks.length) ∧
    (∀ c ∈ s.childsocks, ∃ k ∈ s.kids, k.pid = c.pid) ∧ (s.childsocks.map (·.pid)).Nodup ∧ s.used.length ≤ used.length + s.kids.length := by
  have hi := (Inv.start used others tp hp).run acts h
  have ho := (Owns.start (others := others) hu tp hp).run acts (Inv.start used others tp hp) h
  obtain ⟨h1, h2, h3, h4, h5, h6⟩ := hr
  have hlive : ∀ c ∈ s.childsocks, ∃ k ∈ s.kids, k.pid = c.pid := by
    intro c hc
    obtain ⟨k, hk, hkp, -⟩ := ho.live c hc (by rw [h6 c hc]; rfl)
    exact ⟨k, hk, hkp⟩
  have hone : (s.childsocks.map (·.pid)).Nodup := by
    have := ho.one
    rwa [List.filter_eq_self.mpr (fun c hc => by rw [h6 c hc]; rfl)] at this
  refine ⟨?_, ?_, ⟨_, ho.used, by simp⟩, hlive, hone, ?_⟩
  · intro k hk
    cases he : k.ended with
    | false => rfl
    | true =>
      rcases hi.zombie k hk he with hx | hx | hx | hx
      · rw [h3] at hx; cases hx
      · rw [h5] at hx; cases hx
      · rw [h1] at hx; exact hx.elim
      · rw [h1] at hx; exact hx.elim
  · intro p
    rw [hi.table p, h1]
    simp
  · rw [ho.used.length_eq, List.length_append, List.length_map]
    have : (s.childsocks.map (·.pid)).length ≤ (s.kids.map (·.pid)).length := by
      apply length_le_of_subset hone
      intro p hp
      obtain ⟨c, hc, rfl⟩ := List.mem_map.mp hp
      obtain ⟨k, hk, hkp⟩ := hlive c hc
      exact List.mem_map.mpr ⟨k, hk, hkp⟩
    simp only [List.length_map] at this
    omega

example : ∃ s, run 64 (stopActs.take 16 ++ [.own (.ready 0 [6]), .own .none, .own .none, .own .none, .own .none])
    (start [0, 1, 2, 3] [1, 20] false false) = .val s ∧ AtRest s ∧ s.kids.length = 1 :=
  ⟨_, rfl, ⟨by decide +kernel, by decide +kernel, by decide +kernel, by decide +kernel, by decide +kernel, by decide +kernel⟩, by decide +kernel⟩

/-! ### C85: the server survives its clients -/

/-- All sockets fit into the set of descriptors. -/
theorem step_roomy {limit : Nat} {used0 : List Nat} {s : State} (ho : Owns used0 s)
    (hf : ∀ c ∈ s.childsocks, c.fd < 1024) (hr : Roomy limit used0.length s) (x : Act) :
    ∃ s', step limit s x = .val s' ∧ (∀ c ∈ s'.childsocks, c.fd < 1024) ∧ (s.pc ≠ .dead → s'.pc ≠ .dead) := by
  have hlen : s.used.length = s.childsocks.length + used0.length := by
    rw [ho.used.length_eq, List.length_append, List.length_map]
  have hacc : ∀ (s1 : State) (fork : Option Nat), s1.used = s.used → s1.childsocks = s.childsocks → s1.pc ≠ .dead →
      ∃ s', Loop.accept limit s1 fork = .val s' ∧ (∀ c ∈ s'.childsocks, c.fd < 1024) ∧ s'.pc ≠ .dead := by
    intro s1 fork h1 h2 h3
    obtain ⟨net, hnet⟩ := alloc_room (limit := limit) (used := s1.used) (by have := hr.1; rw [h1]; omega)
    obtain ⟨f0, hf0⟩ := alloc_room (limit := limit) (used := net :: s1.used) (by have := hr.1; rw [h1, List.length_cons]; omega)
    obtain ⟨f1, hf1⟩ := alloc_room (limit := limit) (used := f0 :: net :: s1.used) (by have := hr.1; rw [h1, List.length_cons, List.length_cons]; omega)
    unfold Loop.accept
    rw [hnet]
    dsimp only
    rw [hf0]
    dsimp only
    rw [hf1]
    dsimp only
    cases fork with
    | none => exact ⟨_, rfl, by rw [h2]; exact hf, h3⟩
    | some pid =>
      refine ⟨_, rfl, ?_, h3⟩
      intro c hc
      rcases List.mem_append.mp hc with hc | hc
      · rw [h2] at hc; exact hf c hc
      · simp only [List.mem_singleton] at hc
        subst hc
        have := (alloc_some hf1).2.1
        have h5 := hr.2.1
        rw [List.length_cons, List.length_cons, h1] at this
        show f1 < 1024
        omega
  cases x with
  | env e =>
    refine ⟨_, rfl, ?_, by intro hd; rw [envStep_pc]; exact hd⟩
    intro c hc
    have : ∃ d ∈ s.childsocks, d.fd = c.fd := by
      cases e <;> simp only [envStep] at hc <;> (try split at hc) <;>
        first
          | exact ⟨c, hc, rfl⟩
          | (obtain ⟨d, hd, rfl⟩ := List.mem_map.mp hc
             refine ⟨d, hd, ?_⟩
             split <;> rfl)
    obtain ⟨d, hd, hdc⟩ := this
    rw [← hdc]
    exact hf d hd
  | own ans =>
    simp only [step]
    unfold ownStep
    cases hpc : s.pc with
    | top =>
      dsimp only
      split
      · exact ⟨_, rfl, hf, fun _ => by simp⟩
      · split
        · exact ⟨_, rfl, hf, fun _ => by simp⟩
        · exact ⟨_, rfl, hf, fun _ => by simp⟩
    | kill rest =>
      cases rest with
      | nil => exact ⟨_, rfl, hf, fun _ => by simp⟩
      | cons p rest => exact ⟨_, rfl, hf, fun _ => by simp⟩
    | unlink => exact ⟨_, rfl, hf, fun _ => by simp⟩
    | reap =>
      cases ans with
      | waited pid =>
        cases pid with
        | none =>
          dsimp only
          split
          · exact ⟨_, rfl, hf, fun _ => by rw [hpc]; simp⟩
          · exact ⟨_, rfl, hf, fun _ => by simp⟩
        | some pid =>
          dsimp only
          split
          · exact ⟨_, rfl, hf, fun _ => by simp⟩
          · exact ⟨_, rfl, hf, fun _ => by rw [hpc]; simp⟩
      | _ => exact ⟨_, rfl, hf, fun _ => by rw [hpc]; simp⟩
    | removed pid => exact ⟨_, rfl, hf, fun _ => by simp⟩
    | select =>
      dsimp only
      rw [if_neg (by rintro ⟨c, hc, h1⟩; have := hf c hc; omega)]
      cases ans with
      | interrupted =>
        dsimp only
        split
        · exact ⟨_, rfl, hf, fun _ => by simp⟩
        · exact ⟨_, rfl, hf, fun _ => by rw [hpc]; simp⟩
      | ready n fds =>
        dsimp only
        split
        · exact ⟨_, rfl, hf, fun _ => by simp⟩
        · exact ⟨_, rfl, hf, fun _ => by rw [hpc]; simp⟩
      | _ => exact ⟨_, rfl, hf, fun _ => by rw [hpc]; simp⟩
    | conns n ready =>
      cases n with
      | zero => exact ⟨_, rfl, hf, fun _ => by simp⟩
      | succ n =>
        cases ans with
        | forked pid =>
          cases pid with
          | none =>
            obtain ⟨s', h1, h2, h3⟩ := hacc { s with pc := .conns n ready } none rfl rfl (by simp)
            exact ⟨s', h1, h2, fun _ => h3⟩
          | some pid =>
            dsimp only
            split
            · obtain ⟨s', h1, h2, h3⟩ := hacc { s with pc := .conns n ready } (some pid) rfl rfl (by simp)
              exact ⟨s', h1, h2, fun _ => h3⟩
            · exact ⟨_, rfl, hf, fun _ => by rw [hpc]; simp⟩
        | _ => exact ⟨_, rfl, hf, fun _ => by rw [hpc]; simp⟩
    | socks i ready =>
      dsimp only
      rcases hc : s.childsocks[i]? with _ | c
      · exact ⟨_, rfl, hf, fun _ => by simp⟩
      · dsimp only
        split
        · refine ⟨_, rfl, ?_, ?_⟩
          · unfold childname
            cases c.peer with
            | idle => exact hf
            | asked =>
              intro d hd
              rcases List.mem_or_eq_of_mem_set hd with hd | rfl
              · exact hf d hd
              · exact hf c (List.mem_of_getElem? hc)
            | gone =>
              intro d hd
              exact hf d (List.mem_of_mem_eraseIdx hd)
            | askedGone => exact hf
          · intro _
            unfold childname
            rcases hp : c.peer with _ | _ | _ | _
            · simp
            · simp
            · simp
            · exact absurd hp (hr.2.2 c (List.mem_of_getElem? hc))
        · exact ⟨_, rfl, hf, fun _ => by simp⟩
    | exited c => exact ⟨_, rfl, hf, fun _ => by rw [hpc]; simp⟩
    | dead => exact ⟨_, rfl, hf, fun hd => absurd rfl hd⟩

theorem run_roomy {limit : Nat} {used0 : List Nat} (acts : List Act) {a : Prop} {s : State} (hi : Inv a s) (ho : Owns used0 s)
    (hf : ∀ c ∈ s.childsocks, c.fd < 1024) (hd : s.pc ≠ .dead)
    (hr : ∀ pre post s', acts = pre ++ post → Loop.run limit pre s = .val s' → Roomy limit used0.length s') :
    ∃ s', Loop.run limit acts s = .val s' ∧ s'.pc ≠ .dead := by
  induction acts generalizing a s with
  | nil => exact ⟨s, rfl, hd⟩
  | cons x xs ih =>
    obtain ⟨s1, h1, h2, h3⟩ := step_roomy ho hf (hr [] _ s rfl rfl) x
    have hi1 : ∃ b, Inv b s1 := by
      cases x with
      | env e => cases h1; exact ⟨_, hi.env e⟩
      | own ans => exact ⟨_, hi.own h1⟩
    have ho1 : Owns used0 s1 := by
      cases x with
      | env e => cases h1; exact ho.env e
      | own ans => exact ho.own hi h1
    obtain ⟨b, hi1⟩ := hi1
    obtain ⟨s', h4, h5⟩ := ih hi1 ho1 h2 (h3 hd) (by
      intro pre post s' hp hrun
      refine hr (x :: pre) post s' (by rw [hp]; rfl) ?_
      unfold Loop.run
      rw [h1]
      exact hrun)
    refine ⟨s', ?_, h5⟩
    unfold Loop.run
    rw [h1]
    exact h4

/-- C85 (part). As long as there is room for another connection in the descriptors of the server (that is, not too many clients are choosing an export at the
same time), and no child dies between asking the server and being answered, nothing brings the server down. -/
theorem C85_survives_partial {limit : Nat} {used others : List Nat} {tp hp : Bool} {acts : List Act} (hu : used.Nodup)
    (hr : ∀ pre post s, acts = pre ++ post → run limit pre (start used others tp hp) = .val s → Roomy limit used.length s) :
    ∃ s, run limit acts (start used others tp hp) = .val s ∧ s.pc ≠ .dead :=
  run_roomy acts (Inv.start used others tp hp) (Owns.start hu tp hp) (by simp [Loop.start]) (by simp [Loop.start]) hr

example : Roomy 64 4 (start [0, 1, 2, 3] [1, 20] false false) ∧
    (∃ s, run 64 (stopActs.take 9) (start [0, 1, 2, 3] [1, 20] false false) = .val s ∧ Roomy 64 4 s ∧ s.childsocks.length = 2) :=
  ⟨⟨by decide +kernel, by decide +kernel, by decide +kernel⟩, _, rfl, ⟨by decide +kernel, by decide +kernel, by decide +kernel⟩, by decide +kernel⟩

theorem run_append {limit : Nat} (as bs : List Act) {s s' : State} (h : run limit as s = .val s') : run limit (as ++ bs) s = run limit bs s' := by
  induction as generalizing s with
  | nil => cases h; rfl
  | cons a as ih =>
    unfold Loop.run at h
    rw [List.cons_append, Loop.run]
    rcases hx : step limit s a with s1 | _ | _
    · rw [hx] at h
      exact ih h
    · rw [hx] at h; cases h
    · rw [hx] at h; cases h

/-- The server has looked at all sockets from index `i` on; none was ready. -/
theorem run_socks {limit : Nat} (n : Nat) {s : State} {i : Nat} (hpc : s.pc = .socks i []) (hn : i + n = s.childsocks.length) :
    run limit (List.replicate (n + 1) (.own .none)) s = .val { s with pc := .top } := by
  induction n generalizing s i with
  | zero =>
    simp only [List.replicate, Loop.run, step, ownStep, hpc]
    rw [List.getElem?_eq_none (by omega)]
  | succ n ih =>
    rw [List.replicate_succ, Loop.run]
    simp only [step, ownStep, hpc]
    rw [List.getElem?_eq_getElem (by omega)]
    simp only [List.not_mem_nil, if_false]
    exact ih (s := { s with pc := .socks (i + 1) [] }) rfl (by show i + 1 + n = s.childsocks.length; omega)

theorem fresh_pid (s : State) : ∃ pid, s.free pid := by
  obtain ⟨n, -, hn⟩ := exists_free (s.kids.map (·.pid) ++ s.others)
  rw [List.mem_append] at hn
  refine ⟨n, ?_, fun h => hn (Or.inr h)⟩
  intro k hk hx
  exact hn (Or.inl (List.mem_map.mpr ⟨k, hk, hx⟩))

theorem idle_crash {limit : Nat} (m : Nat) {s : State} (hpc : s.pc = .top) (ht : s.term = false) (hc : s.chld = false) (hn : s.used.Nodup)
    (hl : ∀ fd ∈ s.used, fd < limit) (hm : s.used.length + m + 1 = limit) :
    ∃ acts, (∀ x ∈ acts, ∃ a, x = .own a) ∧ run limit acts s = .ub := by
  induction m using Nat.strongRecOn generalizing s with
  | _ m ih =>
    by_cases hfd : ∃ c ∈ s.childsocks, 1024 ≤ c.fd
    · refine ⟨[.own .none, .own .none], by simp, ?_⟩
      simp only [Loop.run, step, ownStep, hpc, ht, hc, Bool.false_eq_true, if_false]
      rw [if_pos hfd]
    · obtain ⟨pid, hp⟩ := fresh_pid s
      obtain ⟨net, hnet⟩ := alloc_room (limit := limit) (used := s.used) (by omega)
      let s2 : State := { s with hup := false, pc := .conns 1 [] }
      have h2 : run limit [.own .none, .own (.ready 1 [])] s = .val s2 := by
        simp only [Loop.run, step, ownStep, hpc, ht, hc, Bool.false_eq_true, if_false]
        rw [if_neg hfd]
        simp [s2, ht, hc]
      have hp2 : s2.free pid := hp
      have hub : ∀ {acts : List Act}, (∀ x ∈ acts, ∃ a, x = .own a) → run limit acts s2 = .ub → ∃ acts, (∀ x ∈ acts, ∃ a, x = .own a) ∧ run limit acts s = .ub := by
        intro acts ha hu
        refine ⟨[.own .none, .own (.ready 1 [])] ++ acts, ?_, by rw [run_append _ _ h2, hu]⟩
        intro x hx
        rcases List.mem_append.mp hx with hx | hx
        · rcases List.mem_cons.mp hx with rfl | hx
          · exact ⟨_, rfl⟩
          · rw [List.mem_singleton] at hx
            exact ⟨_, hx⟩
        · exact ha x hx
      rcases hacc : Loop.accept limit { s2 with pc := .conns 0 [] } (some pid) with s3 | _ | _
      · rcases accept_cases hacc with hs | ⟨pid', f0, net', f1, hpid, hal, hs⟩
        · exfalso
          unfold Loop.accept at hacc
          have : alloc limit s.used = some net := hnet
          simp only [s2] at hacc
          rw [hnet] at hacc
          dsimp only at hacc
          split at hacc
          · cases hacc
          · split at hacc
            · cases hacc
            · simp only [Out.val.injEq] at hacc
              rw [← hacc] at hs
              have := congrArg (fun s => s.kids.length) hs
              simp [s2] at this
        · -- the new socket is open, and the next client can come
          have hlen3 : s.used.length + 3 ≤ limit := by
            have hf1 := alloc_some hal
            have hsplit : ∃ f0' , alloc limit (net :: s.used) = some f0' ∧ ∃ f1', alloc limit (f0' :: net :: s.used) = some f1' := by
              unfold Loop.accept at hacc
              simp only [s2] at hacc
              rw [hnet] at hacc
              dsimp only at hacc
              rcases h4 : alloc limit (net :: s.used) with _ | f0'
              · rw [h4] at hacc; cases hacc
              · rw [h4] at hacc
                dsimp only at hacc
                rcases h5 : alloc limit (f0' :: net :: s.used) with _ | f1'
                · rw [h5] at hacc; cases hacc
                · exact ⟨f0', rfl, f1', h5⟩
            obtain ⟨f0', h4, f1', h5⟩ := hsplit
            have a1 := alloc_some hnet
            have a2 := alloc_some h4
            have a3 := alloc_some h5
            have hnd : (f1' :: f0' :: net :: s.used).Nodup :=
              List.nodup_cons.mpr ⟨a3.1, List.nodup_cons.mpr ⟨a2.1, List.nodup_cons.mpr ⟨a1.1, hn⟩⟩⟩
            have hsub : ∀ x ∈ f1' :: f0' :: net :: s.used, x ∈ List.range limit := by
              intro x hx
              rw [List.mem_range]
              simp only [List.mem_cons] at hx
              rcases hx with rfl | rfl | rfl | hx
              · exact a3.2.2
              · exact a2.2.2
              · exact a1.2.2
              · exact hl x hx
            have := length_le_of_subset hnd hsub
            simp only [List.length_cons, List.length_range] at this
            omega
          have hal' := alloc_some hal
          have hrun3 : run limit [.own (.forked (some pid))] s2 = .val s3 := by
            simp only [Loop.run, step, ownStep]
            show (match (if s2.free pid then Loop.accept limit { s2 with pc := .conns 0 [] } (some pid) else .val s2) with
              | .val s => Out.val s
              | .ub => .ub
              | .exit => .exit) = _
            rw [if_pos hp2, hacc]
          have hpc3 : s3.pc = .conns 0 [] := by rw [hs]
          have hrun4 : run limit [.own .none] s3 = .val { s3 with pc := .socks 0 [] } := by
            simp only [Loop.run, step, ownStep, hpc3]
          have hrun5 := run_socks (limit := limit) s3.childsocks.length (s := { s3 with pc := .socks 0 [] }) (i := 0) rfl (by simp)
          have hused : s3.used = f1 :: s.used := by rw [hs]
          obtain ⟨acts, ha, hu⟩ := ih (m - 1) (by omega) (s := { s3 with pc := .top }) rfl (by show s3.term = false; rw [hs]; exact ht)
            (by show s3.chld = false; rw [hs]; exact hc)
            (by
              show s3.used.Nodup
              rw [hused]
              exact List.nodup_cons.mpr ⟨fun hx => hal'.1 (List.mem_cons_of_mem _ (List.mem_cons_of_mem _ hx)), hn⟩)
            (by
              show ∀ fd ∈ s3.used, fd < limit
              rw [hused]
              intro fd hfd
              rcases List.mem_cons.mp hfd with rfl | hfd
              · exact hal'.2.2
              · exact hl fd hfd)
            (by
              show s3.used.length + (m - 1) + 1 = limit
              rw [hused, List.length_cons]
              omega)
          refine hub (acts := [.own (.forked (some pid))] ++ ([.own .none] ++ (List.replicate (s3.childsocks.length + 1) (.own .none) ++ acts))) ?_ ?_
          · intro x hx
            simp only [List.mem_append, List.mem_singleton, List.mem_replicate] at hx
            rcases hx with hx | hx | hx | hx
            · exact ⟨_, hx⟩
            · exact ⟨_, hx⟩
            · exact ⟨_, hx.2⟩
            · exact ha x hx
          · rw [run_append _ _ hrun3, run_append _ _ hrun4, run_append _ _ hrun5]
            exact hu
      · refine hub (acts := [.own (.forked (some pid))]) (by simp) ?_
        simp only [Loop.run, step, ownStep]
        show (match (if s2.free pid then Loop.accept limit { s2 with pc := .conns 0 [] } (some pid) else .val s2) with
              | .val s => Out.val s
              | .ub => .ub
              | .exit => .exit) = _
        rw [if_pos hp2, hacc]
      · exfalso
        unfold Loop.accept at hacc
        repeat' split at hacc
        all_goals cases hacc

/-- C85 is false: clients that connect and then do nothing bring the server down, whatever the limit on its descriptors. No signal comes, no process ends, every
`fork` works, no child says anything: only connections are accepted. -/
theorem C85_false_idle {limit : Nat} {used others : List Nat} (hu : used.Nodup) (hl : ∀ fd ∈ used, fd < limit) (hs : used.length < limit) :
    ∃ acts, (∀ x ∈ acts, ∃ a, x = .own a) ∧ run limit acts (start used others false false) = .ub :=
  idle_crash (limit - used.length - 1) rfl rfl rfl hu hl (by simp only [Loop.start]; omega)

example : [0, 1, 2, 3].Nodup ∧ (∀ fd ∈ [0, 1, 2, 3], fd < 1024) ∧ [0, 1, 2, 3].length < 1024 := by decide

/-- C85 is false: if a child is killed between asking for an export and getting the answer, the server is killed too (by SIGPIPE, which it does not ignore). -/
theorem C85_false_pipe : ∃ s, run 64 [.own .none, .own (.ready 1 []), .own (.forked (some 7)), .own .none, .own .none, .own .none,
      .env (.asks 7), .env (.ends 7), .own .none, .own (.ready 0 [6]), .own .none, .own .none] (start [0, 1, 2, 3] [1, 20] false false) = .val s ∧
    s.pc = .dead :=
  ⟨_, rfl, by decide +kernel⟩

end Props

end Nbd
