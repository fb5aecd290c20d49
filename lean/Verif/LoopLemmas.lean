import Verif.Loop
/-!
# Invariants of the parent's loop
-/

set_option autoImplicit false

namespace Nbd.Loop

/-- The parent is stopping, or has stopped. -/
def Pc.stopping : Pc → Prop
  | .kill _ => True
  | .unlink => True
  | .exited _ => True
  | .dead => True
  | _ => False

/-- The parent is waiting for children that have ended. -/
def Pc.reaping : Pc → Prop
  | .reap => True
  | .removed _ => True
  | _ => False

/-- What holds at every step. `asked`: SIGTERM has been sent to the parent. -/
structure Inv (asked : Prop) (s : State) : Prop where
  nodup : (s.kids.map (·.pid)).Nodup
  apart : ∀ k ∈ s.kids, k.pid ∉ s.others
  table : ∀ p, p ∈ s.table ↔ (∃ k ∈ s.kids, k.pid = p) ∨ s.pc = .removed p
  removed : ∀ p, s.pc = .removed p → ∀ k ∈ s.kids, k.pid ≠ p
  killing : ∀ rest, s.pc = .kill rest → (∀ p ∈ rest, p ∈ s.table) ∧ ∀ k ∈ s.kids, k.pid ∈ rest ∨ k.termed = true
  unlink : s.pc = .unlink → ∀ k ∈ s.kids, k.termed = true
  exited : ∀ c, s.pc = .exited c → c = 0 ∧ s.pidfile = false ∧ ∀ k ∈ s.kids, k.termed = true
  stray : s.stray = []
  zombie : ∀ k ∈ s.kids, k.ended = true → s.chldP = true ∨ s.chld = true ∨ s.pc.reaping ∨ s.pc.stopping
  wanted : s.termP = true ∨ s.term = true ∨ (∃ rest, s.pc = .kill rest) ∨ s.pc = .unlink ∨ (∃ c, s.pc = .exited c) ∨ (∃ k ∈ s.kids, k.termed = true) → asked
  pidfile : s.pidfile = true ∨ ∃ c, s.pc = .exited c

theorem envStep_pc (s : State) (e : Env) : (envStep s e).pc = s.pc := by
  cases e <;> simp only [envStep] <;> (try split) <;> rfl

theorem envStep_table (s : State) (e : Env) : (envStep s e).table = s.table := by
  cases e <;> simp only [envStep] <;> (try split) <;> rfl

theorem envStep_term (s : State) (e : Env) : (envStep s e).term = s.term := by
  cases e <;> simp only [envStep] <;> (try split) <;> rfl

theorem Inv.start (used others : List Nat) (tp hp : Bool) : Inv (tp = true) (start used others tp hp) := by
  constructor <;> simp [Loop.start]

theorem Inv.mono {a b : Prop} {s : State} (h : Inv a s) (hab : a → b) : Inv b s :=
  ⟨h.nodup, h.apart, h.table, h.removed, h.killing, h.unlink, h.exited, h.stray, h.zombie, fun x => hab (h.wanted x), h.pidfile⟩

theorem ended_pid (ks : List Child) (pid : Nat) :
    (ks.map fun k => if k.pid = pid then { k with ended := true } else k).map (·.pid) = ks.map (·.pid) := by
  rw [List.map_map]
  apply List.map_congr_left
  intro k _
  simp only [Function.comp]
  split <;> rfl

theorem termed_pid (ks : List Child) (pid : Nat) :
    (ks.map fun k => if k.pid = pid then { k with termed := true } else k).map (·.pid) = ks.map (·.pid) := by
  rw [List.map_map]
  apply List.map_congr_left
  intro k _
  simp only [Function.comp]
  split <;> rfl

/-- Changes that leave `kids` and the flags that matter alone. -/
theorem Inv.socks {a : Prop} {s : State} (h : Inv a s) (cs : List Sock) (us : List Nat) : Inv a { s with childsocks := cs, used := us } :=
  ⟨h.nodup, h.apart, h.table, h.removed, h.killing, h.unlink, h.exited, h.stray, h.zombie, h.wanted, h.pidfile⟩

theorem Inv.ends {a : Prop} {s : State} (h : Inv a s) (pid : Nat) :
    Inv a { s with kids := s.kids.map fun k => if k.pid = pid then { k with ended := true } else k, chldP := true } := by
  have hm : ∀ k ∈ s.kids.map (fun k => if k.pid = pid then { k with ended := true } else k), ∃ k' ∈ s.kids, k'.pid = k.pid ∧ k'.termed = k.termed := by
    intro k hk
    obtain ⟨k', hk', rfl⟩ := List.mem_map.mp hk
    refine ⟨k', hk', ?_⟩
    by_cases hp : k'.pid = pid <;> simp [hp]
  have hex : ∀ p, (∃ k ∈ s.kids.map (fun k => if k.pid = pid then { k with ended := true } else k), k.pid = p) ↔ ∃ k ∈ s.kids, k.pid = p := by
    intro p
    have := congrArg (fun l => p ∈ l) (ended_pid s.kids pid)
    simp only [eq_iff_iff] at this
    constructor
    · rintro ⟨k, hk, rfl⟩
      obtain ⟨k', h1, h2, -⟩ := hm k hk
      exact ⟨k', h1, h2⟩
    · rintro ⟨k, hk, rfl⟩
      exact ⟨_, List.mem_map_of_mem hk, by by_cases hp : k.pid = pid <;> simp [hp]⟩
  constructor
  · show (List.map _ (s.kids.map _)).Nodup
    rw [ended_pid]; exact h.nodup
  · intro k hk
    obtain ⟨k', h1, h2, -⟩ := hm k hk
    rw [← h2]; exact h.apart k' h1
  · intro p
    show p ∈ s.table ↔ _ ∨ s.pc = _
    rw [h.table p, hex]
  · intro p hp k hk
    obtain ⟨k', h1, h2, -⟩ := hm k hk
    rw [← h2]; exact h.removed p hp k' h1
  · intro rest hr
    refine ⟨(h.killing rest hr).1, ?_⟩
    intro k hk
    obtain ⟨k', h1, h2, h3⟩ := hm k hk
    rw [← h2, ← h3]; exact (h.killing rest hr).2 k' h1
  · intro hu k hk
    obtain ⟨k', h1, h2, h3⟩ := hm k hk
    rw [← h3]; exact h.unlink hu k' h1
  · intro c hc
    refine ⟨(h.exited c hc).1, (h.exited c hc).2.1, ?_⟩
    intro k hk
    obtain ⟨k', h1, h2, h3⟩ := hm k hk
    rw [← h3]; exact (h.exited c hc).2.2 k' h1
  · exact h.stray
  · intro k hk _
    exact Or.inl rfl
  · rintro (hx | hx | hx | hx | hx | ⟨k, hk, ht⟩)
    · exact h.wanted (Or.inl hx)
    · exact h.wanted (Or.inr (Or.inl hx))
    · exact h.wanted (Or.inr (Or.inr (Or.inl hx)))
    · exact h.wanted (Or.inr (Or.inr (Or.inr (Or.inl hx))))
    · exact h.wanted (Or.inr (Or.inr (Or.inr (Or.inr (Or.inl hx)))))
    · obtain ⟨k', h1, h2, h3⟩ := hm k hk
      exact h.wanted (Or.inr (Or.inr (Or.inr (Or.inr (Or.inr ⟨k', h1, by rw [h3]; exact ht⟩)))))
  · exact h.pidfile

theorem Inv.env {a : Prop} {s : State} (h : Inv a s) (e : Env) : Inv (a ∨ e = .sigterm) (envStep s e) := by
  cases e with
  | ends pid =>
    simp only [envStep]
    split
    · exact ((h.ends pid).socks _ _).mono Or.inl
    · exact h.mono Or.inl
  | asks pid =>
    simp only [envStep]
    split
    · exact (h.socks _ _).mono Or.inl
    · exact h.mono Or.inl
  | hangsUp pid =>
    simp only [envStep]
    split
    · exact (h.socks _ _).mono Or.inl
    · exact h.mono Or.inl
  | starts pid =>
    simp only [envStep]
    split
    · rename_i hf
      refine ⟨h.nodup, ?_, h.table, h.removed, h.killing, h.unlink, h.exited, h.stray, h.zombie, fun x => Or.inl (h.wanted x), h.pidfile⟩
      intro k hk hm
      rcases List.mem_cons.mp hm with hm | hm
      · exact hf.1 k hk hm
      · exact h.apart k hk hm
    · exact h.mono Or.inl
  | stops pid =>
    refine ⟨h.nodup, ?_, h.table, h.removed, h.killing, h.unlink, h.exited, h.stray, h.zombie, fun x => Or.inl (h.wanted x), h.pidfile⟩
    intro k hk hm
    exact h.apart k hk ((List.mem_filter.mp hm).1)
  | sigterm =>
    exact ⟨h.nodup, h.apart, h.table, h.removed, h.killing, h.unlink, h.exited, h.stray, h.zombie, fun _ => Or.inr rfl, h.pidfile⟩
  | sighup =>
    exact ⟨h.nodup, h.apart, h.table, h.removed, h.killing, h.unlink, h.exited, h.stray, h.zombie, fun x => Or.inl (h.wanted x), h.pidfile⟩

/-- Moving to a place where nothing special holds. -/
theorem Inv.goto {a : Prop} {s : State} (h : Inv a s) {pc : Pc} (hn : ∀ p, s.pc ≠ .removed p)
    (h1 : ∀ p, pc ≠ .removed p) (h2 : ∀ r, pc ≠ .kill r) (h3 : pc ≠ .unlink) (h4 : ∀ c, pc ≠ .exited c) (h5 : ∀ c, s.pc ≠ .exited c)
    (hz : (∀ k ∈ s.kids, k.ended = false) ∨ (¬ s.pc.reaping ∧ ¬ s.pc.stopping) ∨ pc.stopping) : Inv a { s with pc := pc } := by
  refine ⟨h.nodup, h.apart, ?_, fun p hp => absurd hp (h1 p), fun r hr => absurd hr (h2 r), fun hu => absurd hu h3, fun c hc => absurd hc (h4 c),
    h.stray, ?_, ?_, ?_⟩
  · intro p
    show p ∈ s.table ↔ _ ∨ pc = _
    rw [h.table p]
    constructor
    · rintro (hx | hx)
      · exact Or.inl hx
      · exact absurd hx (hn p)
    · rintro (hx | hx)
      · exact Or.inl hx
      · exact absurd hx (h1 p)
  · intro k hk he
    rcases hz with hz | hz | hz
    · rw [hz k hk] at he; cases he
    · rcases h.zombie k hk he with hx | hx | hx | hx
      · exact Or.inl hx
      · exact Or.inr (Or.inl hx)
      · exact absurd hx hz.1
      · exact absurd hx hz.2
    · exact Or.inr (Or.inr (Or.inr hz))
  · rintro (hx | hx | ⟨r, hx⟩ | hx | ⟨c, hx⟩ | hx)
    · exact h.wanted (Or.inl hx)
    · exact h.wanted (Or.inr (Or.inl hx))
    · exact absurd hx (h2 r)
    · exact absurd hx h3
    · exact absurd hx (h4 c)
    · exact h.wanted (Or.inr (Or.inr (Or.inr (Or.inr (Or.inr hx)))))
  · rcases h.pidfile with hx | ⟨c, hx⟩
    · exact Or.inl hx
    · exact absurd hx (h5 c)

theorem Inv.setHup {a : Prop} {s : State} (h : Inv a s) (b : Bool) : Inv a { s with hup := b } :=
  ⟨h.nodup, h.apart, h.table, h.removed, h.killing, h.unlink, h.exited, h.stray, h.zombie, h.wanted, h.pidfile⟩

theorem Inv.accept {a : Prop} {s s' : State} {limit : Nat} {fork : Option Nat} (h : Inv a s) (hp : ¬ s.pc.stopping ∧ ¬ s.pc.reaping)
    (hf : ∀ pid, fork = some pid → s.free pid) (he : Loop.accept limit s fork = .val s') : Inv a s' := by
  unfold Loop.accept at he
  split at he
  · cases he; exact h
  · split at he
    · cases he
    · split at he
      · cases he
      · split at he
        · cases he; exact h
        · rename_i pid
          simp only [Out.val.injEq] at he
          subst he
          have hfree := hf pid rfl
          have hnr : ∀ p, s.pc ≠ .removed p := by
            intro p hx; rw [hx] at hp; exact hp.2 trivial
          constructor
          · show ((s.kids ++ [_]).map _).Nodup
            rw [List.map_append, List.nodup_append]
            refine ⟨h.nodup, by simp, ?_⟩
            intro x hx y hy
            simp only [List.map_cons, List.map_nil, List.mem_singleton] at hy
            subst hy
            obtain ⟨k, hk, rfl⟩ := List.mem_map.mp hx
            exact hfree.1 k hk
          · intro k hk
            rcases List.mem_append.mp hk with hk | hk
            · exact h.apart k hk
            · simp only [List.mem_singleton] at hk
              subst hk
              exact hfree.2
          · intro p
            show p ∈ pid :: s.table ↔ (∃ k ∈ s.kids ++ [_], _) ∨ s.pc = _
            rw [List.mem_cons, h.table p]
            constructor
            · rintro (rfl | ⟨k, hk, hx⟩ | hx)
              · exact Or.inl ⟨_, List.mem_append_right _ (List.mem_singleton.mpr rfl), rfl⟩
              · exact Or.inl ⟨k, List.mem_append_left _ hk, hx⟩
              · exact absurd hx (hnr p)
            · rintro (⟨k, hk, hx⟩ | hx)
              · rcases List.mem_append.mp hk with hk | hk
                · exact Or.inr (Or.inl ⟨k, hk, hx⟩)
                · simp only [List.mem_singleton] at hk
                  subst hk
                  exact Or.inl hx.symm
              · exact absurd hx (hnr p)
          · intro p hx
            exact absurd hx (hnr p)
          · intro rest hx
            change s.pc = _ at hx
            rw [hx] at hp
            exact absurd trivial hp.1
          · intro hx
            change s.pc = _ at hx
            rw [hx] at hp
            exact absurd trivial hp.1
          · intro c hx
            change s.pc = _ at hx
            rw [hx] at hp
            exact absurd trivial hp.1
          · exact h.stray
          · intro k hk hz
            rcases List.mem_append.mp hk with hk | hk
            · exact h.zombie k hk hz
            · simp only [List.mem_singleton] at hk
              subst hk
              cases hz
          · rintro (hx | hx | hx | hx | hx | ⟨k, hk, ht⟩)
            · exact h.wanted (Or.inl hx)
            · exact h.wanted (Or.inr (Or.inl hx))
            · exact h.wanted (Or.inr (Or.inr (Or.inl hx)))
            · exact h.wanted (Or.inr (Or.inr (Or.inr (Or.inl hx))))
            · exact h.wanted (Or.inr (Or.inr (Or.inr (Or.inr (Or.inl hx)))))
            · rcases List.mem_append.mp hk with hk | hk
              · exact h.wanted (Or.inr (Or.inr (Or.inr (Or.inr (Or.inr ⟨k, hk, ht⟩)))))
              · simp only [List.mem_singleton] at hk
                subst hk
                cases ht
          · exact h.pidfile

theorem Inv.kill {a : Prop} {s : State} {p : Nat} {rest : List Nat} (h : Inv a s) (hpc : s.pc = .kill (p :: rest)) :
    Inv a { sendTerm s p with pc := .kill rest } := by
  have hk := h.killing _ hpc
  have hm : ∀ k ∈ s.kids.map (fun k => if k.pid = p then { k with termed := true } else k), ∃ k' ∈ s.kids, k'.pid = k.pid ∧ k'.ended = k.ended ∧
      (k.termed = true ∨ (k'.termed = k.termed ∧ k'.pid ≠ p)) := by
    intro k hk
    obtain ⟨k', hk', rfl⟩ := List.mem_map.mp hk
    refine ⟨k', hk', ?_⟩
    by_cases hp : k'.pid = p
    · simp [hp]
    · simp [hp]
  have ha : a := h.wanted (Or.inr (Or.inr (Or.inl ⟨_, hpc⟩)))
  have htab : ∃ k ∈ s.kids, k.pid = p := by
    rcases (h.table p).mp (hk.1 p List.mem_cons_self) with hx | hx
    · exact hx
    · rw [hpc] at hx; cases hx
  constructor
  · show (List.map _ (s.kids.map _)).Nodup
    rw [termed_pid]; exact h.nodup
  · intro k hk
    obtain ⟨k', h1, h2, -⟩ := hm k hk
    rw [← h2]; exact h.apart k' h1
  · intro q
    show q ∈ s.table ↔ (∃ k ∈ s.kids.map _, _) ∨ Pc.kill rest = _
    rw [h.table q]
    constructor
    · rintro (⟨k, hk, rfl⟩ | hx)
      · exact Or.inl ⟨_, List.mem_map_of_mem hk, by by_cases hp : k.pid = p <;> simp [hp]⟩
      · rw [hpc] at hx; cases hx
    · rintro (⟨k, hk, rfl⟩ | hx)
      · obtain ⟨k', h1, h2, -⟩ := hm k hk
        exact Or.inl ⟨k', h1, h2⟩
      · cases hx
  · intro q hq; cases hq
  · intro r hr
    cases hr
    refine ⟨fun q hq => hk.1 q (List.mem_cons_of_mem _ hq), ?_⟩
    intro k hkk
    obtain ⟨k', h1, h2, -, h3⟩ := hm k hkk
    rcases h3 with h3 | ⟨h3, h4⟩
    · exact Or.inr h3
    · rcases hk.2 k' h1 with h5 | h5
      · rcases List.mem_cons.mp h5 with h5 | h5
        · exact absurd h5 h4
        · exact Or.inl (h2 ▸ h5)
      · exact Or.inr (h3 ▸ h5)
  · intro hx; cases hx
  · intro c hx; cases hx
  · show (if p ∈ s.others then p :: s.stray else s.stray) = []
    obtain ⟨k, hkk, rfl⟩ := htab
    rw [if_neg (h.apart k hkk)]
    exact h.stray
  · intro k hk _
    exact Or.inr (Or.inr (Or.inr trivial))
  · intro _; exact ha
  · rcases h.pidfile with hx | ⟨c, hx⟩
    · exact Or.inl hx
    · rw [hpc] at hx; cases hx

theorem Inv.childname {a : Prop} {s : State} {i : Nat} {ready r0 : List Nat} {c : Sock} (h : Inv a s) (hpc : s.pc = .socks i r0) :
    Inv a (Loop.childname s i ready c) := by
  have hn : ∀ p, s.pc ≠ .removed p := by intro p; rw [hpc]; simp
  have h5 : ∀ c, s.pc ≠ .exited c := by intro p; rw [hpc]; simp
  have hz : ¬ s.pc.reaping ∧ ¬ s.pc.stopping := by rw [hpc]; exact ⟨id, id⟩
  unfold Loop.childname
  cases c.peer with
  | idle => exact h.goto hn (by simp) (by simp) (by simp) (by simp) h5 (Or.inr (Or.inl hz))
  | asked => exact (h.goto (pc := .socks (i + 1) ready) hn (by simp) (by simp) (by simp) (by simp) h5 (Or.inr (Or.inl hz))).socks _ _
  | askedGone => exact h.goto hn (by simp) (by simp) (by simp) (by simp) h5 (Or.inr (Or.inl hz))
  | gone => exact (h.goto (pc := .socks (i + 1) ready) hn (by simp) (by simp) (by simp) (by simp) h5 (Or.inr (Or.inl hz))).socks _ _

theorem Inv.own {a : Prop} {s s' : State} {limit : Nat} {ans : Answer} (h : Inv a s) (he : ownStep limit s ans = .val s') : Inv a s' := by
  unfold ownStep at he
  cases hpc : s.pc with
  | top =>
    rw [hpc] at he
    have hn : ∀ p, s.pc ≠ .removed p := by intro p; rw [hpc]; simp
    have h5 : ∀ c, s.pc ≠ .exited c := by intro p; rw [hpc]; simp
    have hz : ¬ s.pc.reaping ∧ ¬ s.pc.stopping := by rw [hpc]; exact ⟨id, id⟩
    dsimp only at he
    by_cases h1 : s.term = true
    · rw [if_pos h1] at he
      simp only [Out.val.injEq] at he
      subst he
      refine ⟨h.nodup, h.apart, ?_, (by intro p hp; cases hp), ?_, (by intro hp; cases hp), (by intro c hp; cases hp), h.stray, ?_, ?_, ?_⟩
      · intro p
        show p ∈ s.table ↔ _ ∨ Pc.kill _ = _
        rw [h.table p, hpc]
        simp
      · intro rest hr
        cases hr
        exact ⟨fun p hp => hp, fun k hk => Or.inl ((h.table _).mpr (Or.inl ⟨k, hk, rfl⟩))⟩
      · intro k _ _; exact Or.inr (Or.inr (Or.inr trivial))
      · intro _; exact h.wanted (Or.inr (Or.inl h1))
      · rcases h.pidfile with hx | ⟨c, hx⟩
        · exact Or.inl hx
        · exact absurd hx (h5 c)
    · rw [if_neg h1] at he
      by_cases h2 : s.chld = true
      · rw [if_pos h2] at he
        simp only [Out.val.injEq] at he
        subst he
        refine ⟨h.nodup, h.apart, ?_, (by intro p hp; cases hp), (by intro r hp; cases hp), (by intro hp; cases hp), (by intro c hp; cases hp), h.stray, ?_, ?_, ?_⟩
        · intro p
          show p ∈ s.table ↔ _ ∨ Pc.reap = _
          rw [h.table p, hpc]
          simp
        · intro k _ _; exact Or.inr (Or.inr (Or.inl trivial))
        · rintro (hx | hx | ⟨r, hx⟩ | hx | ⟨c, hx⟩ | hx)
          · exact h.wanted (Or.inl hx)
          · exact h.wanted (Or.inr (Or.inl hx))
          · cases hx
          · cases hx
          · cases hx
          · exact h.wanted (Or.inr (Or.inr (Or.inr (Or.inr (Or.inr hx)))))
        · rcases h.pidfile with hx | ⟨c, hx⟩
          · exact Or.inl hx
          · exact absurd hx (h5 c)
      · rw [if_neg h2] at he
        simp only [Out.val.injEq] at he
        subst he
        exact (h.goto (pc := .select) hn (by simp) (by simp) (by simp) (by simp) h5 (Or.inr (Or.inl hz))).setHup _
  | kill rest =>
    rw [hpc] at he
    cases rest with
    | nil =>
      simp only [Out.val.injEq] at he
      subst he
      have hk := (h.killing _ hpc).2
      refine ⟨h.nodup, h.apart, ?_, (by intro p hp; cases hp), (by intro r hp; cases hp), ?_, (by intro c hp; cases hp), h.stray, ?_, ?_, ?_⟩
      · intro p
        show p ∈ s.table ↔ _ ∨ Pc.unlink = _
        rw [h.table p, hpc]
        simp
      · intro _ k hkk
        rcases hk k hkk with hx | hx
        · cases hx
        · exact hx
      · intro k _ _; exact Or.inr (Or.inr (Or.inr trivial))
      · intro _; exact h.wanted (Or.inr (Or.inr (Or.inl ⟨_, hpc⟩)))
      · rcases h.pidfile with hx | ⟨c, hx⟩
        · exact Or.inl hx
        · rw [hpc] at hx; cases hx
    | cons p rest =>
      simp only [Out.val.injEq] at he
      subst he
      exact h.kill hpc
  | unlink =>
    rw [hpc] at he
    simp only [Out.val.injEq] at he
    subst he
    refine ⟨h.nodup, h.apart, ?_, (by intro p hp; cases hp), (by intro r hp; cases hp), (by intro hp; cases hp), ?_, h.stray, ?_, ?_, Or.inr ⟨0, rfl⟩⟩
    · intro p
      show p ∈ s.table ↔ _ ∨ Pc.exited 0 = _
      rw [h.table p, hpc]
      simp
    · intro c hc
      cases hc
      exact ⟨rfl, rfl, h.unlink hpc⟩
    · intro k _ _; exact Or.inr (Or.inr (Or.inr trivial))
    · intro _; exact h.wanted (Or.inr (Or.inr (Or.inr (Or.inl hpc))))
  | reap =>
    rw [hpc] at he
    have h5 : ∀ c, s.pc ≠ .exited c := by intro p; rw [hpc]; simp
    cases ans with
    | waited pid =>
      cases pid with
      | none =>
        dsimp only at he
        by_cases hz : ∃ k ∈ s.kids, k.ended = true
        · rw [if_pos hz] at he
          cases he; exact h
        · rw [if_neg hz] at he
          simp only [Out.val.injEq] at he
          subst he
          refine (h.goto (pc := .select) (by intro p; rw [hpc]; simp) (by simp) (by simp) (by simp) (by simp) h5 (Or.inl ?_)).setHup _
          intro k hk
          cases hx : k.ended with
          | false => rfl
          | true => exact absurd ⟨k, hk, hx⟩ hz
      | some pid =>
        dsimp only at he
        by_cases hz : ∃ k ∈ s.kids, k.pid = pid ∧ k.ended = true
        · rw [if_pos hz] at he
          simp only [Out.val.injEq] at he
          subst he
          obtain ⟨kz, hkz, hkp, -⟩ := hz
          refine ⟨?_, ?_, ?_, ?_, (by intro r hp; cases hp), (by intro hp; cases hp), (by intro c hp; cases hp), h.stray, ?_, ?_, ?_⟩
          · exact List.Nodup.sublist (List.Sublist.map _ List.filter_sublist) h.nodup
          · intro k hk
            exact h.apart k ((List.mem_filter.mp hk).1)
          · intro p
            show p ∈ s.table ↔ (∃ k ∈ s.kids.filter _, _) ∨ Pc.removed pid = _
            rw [h.table p, hpc]
            constructor
            · rintro (⟨k, hk, rfl⟩ | hx)
              · by_cases hp : k.pid = pid
                · exact Or.inr (by rw [hp])
                · exact Or.inl ⟨k, List.mem_filter.mpr ⟨hk, by simpa using hp⟩, rfl⟩
              · cases hx
            · rintro (⟨k, hk, rfl⟩ | hx)
              · exact Or.inl ⟨k, (List.mem_filter.mp hk).1, rfl⟩
              · cases hx
                exact Or.inl ⟨kz, hkz, hkp⟩
          · intro p hp k hk
            cases hp
            have := (List.mem_filter.mp hk).2
            simpa using this
          · intro k _ _; exact Or.inr (Or.inr (Or.inl trivial))
          · rintro (hx | hx | ⟨r, hx⟩ | hx | ⟨c, hx⟩ | ⟨k, hk, ht⟩)
            · exact h.wanted (Or.inl hx)
            · exact h.wanted (Or.inr (Or.inl hx))
            · cases hx
            · cases hx
            · cases hx
            · exact h.wanted (Or.inr (Or.inr (Or.inr (Or.inr (Or.inr ⟨k, (List.mem_filter.mp hk).1, ht⟩)))))
          · rcases h.pidfile with hx | ⟨c, hx⟩
            · exact Or.inl hx
            · exact absurd hx (h5 c)
        · rw [if_neg hz] at he
          cases he; exact h
    | _ => cases he; exact h
  | removed pid =>
    rw [hpc] at he
    simp only [Out.val.injEq] at he
    subst he
    refine ⟨h.nodup, h.apart, ?_, (by intro p hp; cases hp), (by intro r hp; cases hp), (by intro hp; cases hp), (by intro c hp; cases hp), h.stray, ?_, ?_, ?_⟩
    · intro p
      show p ∈ s.table.filter _ ↔ _ ∨ Pc.reap = _
      rw [List.mem_filter, h.table p, hpc]
      constructor
      · rintro ⟨hx | hx, hy⟩
        · exact Or.inl hx
        · cases hx; simp at hy
      · rintro (⟨k, hk, rfl⟩ | hx)
        · exact ⟨Or.inl ⟨k, hk, rfl⟩, by simpa using h.removed pid hpc k hk⟩
        · cases hx
    · intro k _ _; exact Or.inr (Or.inr (Or.inl trivial))
    · rintro (hx | hx | ⟨r, hx⟩ | hx | ⟨c, hx⟩ | hx)
      · exact h.wanted (Or.inl hx)
      · exact h.wanted (Or.inr (Or.inl hx))
      · cases hx
      · cases hx
      · cases hx
      · exact h.wanted (Or.inr (Or.inr (Or.inr (Or.inr (Or.inr hx)))))
    · rcases h.pidfile with hx | ⟨c, hx⟩
      · exact Or.inl hx
      · rw [hpc] at hx; cases hx
  | select =>
    rw [hpc] at he
    have hn : ∀ p, s.pc ≠ .removed p := by intro p; rw [hpc]; simp
    have h5 : ∀ c, s.pc ≠ .exited c := by intro p; rw [hpc]; simp
    have hz : ¬ s.pc.reaping ∧ ¬ s.pc.stopping := by rw [hpc]; exact ⟨id, id⟩
    dsimp only at he
    by_cases hfd : ∃ c ∈ s.childsocks, 1024 ≤ c.fd
    · rw [if_pos hfd] at he; cases he
    · rw [if_neg hfd] at he
      cases ans with
      | interrupted =>
        dsimp only at he
        by_cases hs : s.termP = true ∨ s.chldP = true ∨ s.hupP = true
        · rw [if_pos hs] at he
          simp only [Out.val.injEq] at he
          subst he
          refine ⟨h.nodup, h.apart, ?_, (by intro p hp; cases hp), (by intro r hp; cases hp), (by intro hp; cases hp), (by intro c hp; cases hp), h.stray, ?_, ?_, ?_⟩
          · intro p
            show p ∈ s.table ↔ _ ∨ Pc.top = _
            rw [h.table p, hpc]
            simp
          · intro k hk hz'
            rcases h.zombie k hk hz' with hx | hx | hx | hx
            · exact Or.inr (Or.inl (by simp [hx]))
            · exact Or.inr (Or.inl (by simp [hx]))
            · exact absurd hx hz.1
            · exact absurd hx hz.2
          · rintro (hx | hx | ⟨r, hx⟩ | hx | ⟨c, hx⟩ | hx)
            · cases hx
            · rcases Bool.or_eq_true _ _ |>.mp hx with hx | hx
              · exact h.wanted (Or.inr (Or.inl hx))
              · exact h.wanted (Or.inl hx)
            · cases hx
            · cases hx
            · cases hx
            · exact h.wanted (Or.inr (Or.inr (Or.inr (Or.inr (Or.inr hx)))))
          · rcases h.pidfile with hx | ⟨c, hx⟩
            · exact Or.inl hx
            · exact absurd hx (h5 c)
        · rw [if_neg hs] at he
          cases he; exact h
      | ready n fds =>
        dsimp only at he
        split at he
        · simp only [Out.val.injEq] at he
          subst he
          exact h.goto hn (by simp) (by simp) (by simp) (by simp) h5 (Or.inr (Or.inl hz))
        · cases he; exact h
      | _ => cases he; exact h
  | conns n ready =>
    rw [hpc] at he
    have hn : ∀ p, s.pc ≠ .removed p := by intro p; rw [hpc]; simp
    have h5 : ∀ c, s.pc ≠ .exited c := by intro p; rw [hpc]; simp
    have hz : ¬ s.pc.reaping ∧ ¬ s.pc.stopping := by rw [hpc]; exact ⟨id, id⟩
    cases n with
    | zero =>
      simp only [Out.val.injEq] at he
      subst he
      exact h.goto hn (by simp) (by simp) (by simp) (by simp) h5 (Or.inr (Or.inl hz))
    | succ n =>
      have hg : Inv a { s with pc := .conns n ready } := h.goto hn (by simp) (by simp) (by simp) (by simp) h5 (Or.inr (Or.inl hz))
      cases ans with
      | forked pid =>
        cases pid with
        | none => exact hg.accept ⟨id, id⟩ (by simp) he
        | some pid =>
          dsimp only at he
          by_cases hf : s.free pid
          · rw [if_pos hf] at he
            refine hg.accept ⟨id, id⟩ ?_ he
            intro q hq
            cases hq
            exact hf
          · rw [if_neg hf] at he
            cases he; exact h
      | _ => cases he; exact h
  | socks i ready =>
    rw [hpc] at he
    have hn : ∀ p, s.pc ≠ .removed p := by intro p; rw [hpc]; simp
    have h5 : ∀ c, s.pc ≠ .exited c := by intro p; rw [hpc]; simp
    have hz : ¬ s.pc.reaping ∧ ¬ s.pc.stopping := by rw [hpc]; exact ⟨id, id⟩
    dsimp only at he
    rcases hc : s.childsocks[i]? with _ | c
    · rw [hc] at he
      simp only [Out.val.injEq] at he
      subst he
      exact h.goto hn (by simp) (by simp) (by simp) (by simp) h5 (Or.inr (Or.inl hz))
    · rw [hc] at he
      dsimp only at he
      by_cases hr : c.fd ∈ ready
      · rw [if_pos hr] at he
        simp only [Out.val.injEq] at he
        subst he
        exact h.childname hpc
      · rw [if_neg hr] at he
        simp only [Out.val.injEq] at he
        subst he
        exact h.goto hn (by simp) (by simp) (by simp) (by simp) h5 (Or.inr (Or.inl hz))
  | exited c =>
    rw [hpc] at he
    cases he; exact h
  | dead =>
    rw [hpc] at he
    cases he; exact h

theorem Inv.run {limit : Nat} (acts : List Act) {a : Prop} {s s' : State} (h : Inv a s) (he : Loop.run limit acts s = .val s') :
    Inv (a ∨ .env .sigterm ∈ acts) s' := by
  induction acts generalizing a s with
  | nil =>
    cases he
    exact h.mono Or.inl
  | cons x xs ih =>
    unfold Loop.run at he
    cases x with
    | env e =>
      dsimp only [step] at he
      refine (ih (h.env e) he).mono ?_
      rintro ((hx | rfl) | hx)
      · exact Or.inl hx
      · exact Or.inr List.mem_cons_self
      · exact Or.inr (List.mem_cons_of_mem _ hx)
    | own ans =>
      dsimp only [step] at he
      rcases ho : ownStep limit s ans with s1 | _ | _
      · rw [ho] at he
        refine (ih (h.own ho) he).mono ?_
        rintro (hx | hx)
        · exact Or.inl hx
        · exact Or.inr (List.mem_cons_of_mem _ hx)
      · rw [ho] at he; cases he
      · rw [ho] at he; cases he

end Nbd.Loop
