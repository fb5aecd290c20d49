import Verif.LoopLemmas
/-!
# Descriptors and sockets of the parent
-/

set_option autoImplicit false

namespace Nbd.Loop

theorem length_le_of_subset {l m : List Nat} (hn : l.Nodup) (hs : ∀ x ∈ l, x ∈ m) : l.length ≤ m.length := by
  induction l generalizing m with
  | nil => simp
  | cons x xs ih =>
    obtain ⟨hx, hn⟩ := List.nodup_cons.mp hn
    have hm : x ∈ m := hs x List.mem_cons_self
    have := ih (m := m.erase x) hn (by
      intro y hy
      refine (List.mem_erase_of_ne ?_).mpr (hs y (List.mem_cons_of_mem _ hy))
      rintro rfl
      exact hx hy)
    rw [List.length_erase_of_mem hm] at this
    have := List.length_pos_of_mem hm
    simp only [List.length_cons]
    omega

theorem exists_free (used : List Nat) : ∃ n ∈ List.range (used.length + 1), n ∉ used := by
  apply Classical.byContradiction
  intro hc
  have hsub : ∀ n ∈ List.range (used.length + 1), n ∈ used := by
    intro n hn
    apply Classical.byContradiction
    intro hx
    exact hc ⟨n, hn, hx⟩
  have := length_le_of_subset (List.nodup_range (n := used.length + 1)) hsub
  simp only [List.length_range] at this
  omega

theorem pid_inj {ks : List Child} (hn : (ks.map (·.pid)).Nodup) {a b : Child} (ha : a ∈ ks) (hb : b ∈ ks) (h : a.pid = b.pid) : a = b := by
  induction ks with
  | nil => cases ha
  | cons x xs ih =>
    obtain ⟨hx, hn⟩ := List.nodup_cons.mp hn
    rcases List.mem_cons.mp ha with h1 | h1 <;> rcases List.mem_cons.mp hb with h2 | h2
    · rw [h1, h2]
    · exact (hx (List.mem_map.mpr ⟨b, h2, by rw [← h1]; exact h.symm⟩)).elim
    · exact (hx (List.mem_map.mpr ⟨a, h1, by rw [← h2]; exact h⟩)).elim
    · exact ih hn h1 h2

theorem leastFree_spec (used : List Nat) : leastFree used ∉ used ∧ leastFree used ≤ used.length := by
  obtain ⟨n, hn, hf⟩ := exists_free used
  unfold leastFree
  rcases hx : (List.range (used.length + 1)).find? (fun n => decide (n ∉ used)) with _ | m
  · have := List.find?_eq_none.mp hx n hn
    simp at this
    exact absurd this hf
  · have h1 := List.find?_some hx
    have h2 := List.mem_of_find?_eq_some hx
    simp only [Option.getD_some]
    refine ⟨by simpa using h1, ?_⟩
    rw [List.mem_range] at h2
    omega

theorem alloc_some {limit : Nat} {used : List Nat} {fd : Nat} (h : alloc limit used = some fd) :
    fd ∉ used ∧ fd ≤ used.length ∧ fd < limit := by
  unfold alloc at h
  split at h
  · rename_i hl
    cases h
    exact ⟨(leastFree_spec used).1, (leastFree_spec used).2, hl⟩
  · cases h

theorem alloc_room {limit : Nat} {used : List Nat} (h : used.length < limit) : ∃ fd, alloc limit used = some fd := by
  unfold alloc
  rw [if_pos (by have := (leastFree_spec used).2; omega)]
  exact ⟨_, rfl⟩

/-- The child at the other end has not gone. -/
def Peer.here : Peer → Bool
  | .idle => true
  | .asked => true
  | _ => false

/-- Which descriptors are open, and whose the sockets are. -/
structure Owns (used0 : List Nat) (s : State) : Prop where
  used : s.used.Perm (s.childsocks.map (·.fd) ++ used0)
  nodup : s.used.Nodup
  live : ∀ c ∈ s.childsocks, c.peer.here = true → ∃ k ∈ s.kids, k.pid = c.pid ∧ k.ended = false
  one : ((s.childsocks.filter (·.peer.here)).map (·.pid)).Nodup

/-- Nothing that `Owns` speaks of has changed. -/
theorem Owns.same {used0 : List Nat} {s s' : State} (h : Owns used0 s) (h1 : s'.used = s.used) (h2 : s'.childsocks = s.childsocks)
    (h3 : ∀ k ∈ s.kids, k.ended = false → ∃ k' ∈ s'.kids, k'.pid = k.pid ∧ k'.ended = false) : Owns used0 s' := by
  refine ⟨by rw [h1, h2]; exact h.used, by rw [h1]; exact h.nodup, ?_, by rw [h2]; exact h.one⟩
  rw [h2]
  intro c hc hp
  obtain ⟨k, hk, hkp, hke⟩ := h.live c hc hp
  obtain ⟨k', h4, h5, h6⟩ := h3 k hk hke
  exact ⟨k', h4, h5.trans hkp, h6⟩

/-- The sockets change their state in place, and none comes back. -/
theorem Owns.peers {used0 : List Nat} {s s' : State} (h : Owns used0 s) (f : Sock → Sock) (hf : ∀ c, (f c).fd = c.fd ∧ (f c).pid = c.pid)
    (hl : ∀ c ∈ s.childsocks, (f c).peer.here = true → c.peer.here = true ∧ ∀ k ∈ s.kids, k.pid = c.pid → k.ended = false →
      ∃ k' ∈ s'.kids, k'.pid = k.pid ∧ k'.ended = false)
    (h1 : s'.used = s.used) (h2 : s'.childsocks = s.childsocks.map f) : Owns used0 s' := by
  refine ⟨?_, by rw [h1]; exact h.nodup, ?_, ?_⟩
  · rw [h1, h2, List.map_map]
    have : (fun c : Sock => c.fd) ∘ f = (fun c => c.fd) := by funext c; exact (hf c).1
    rw [this]
    exact h.used
  · rw [h2]
    intro c hc hp
    obtain ⟨c0, hc0, rfl⟩ := List.mem_map.mp hc
    obtain ⟨hp0, hk0⟩ := hl c0 hc0 hp
    obtain ⟨k, hk, hkp, hke⟩ := h.live c0 hc0 hp0
    obtain ⟨k', h4, h5, h6⟩ := hk0 k hk hkp hke
    exact ⟨k', h4, by rw [h5, hkp, (hf c0).2], h6⟩
  · rw [h2]
    have : (((s.childsocks.map f).filter (·.peer.here)).map (·.pid)).Sublist ((s.childsocks.filter (·.peer.here)).map (·.pid)) := by
      clear h2
      generalize s.childsocks = cs at hl
      induction cs with
      | nil => simp
      | cons c cs ih =>
        have ih' := ih (fun c hc => hl c (List.mem_cons_of_mem _ hc))
        have hc := hl c List.mem_cons_self
        simp only [List.map_cons, List.filter_cons]
        by_cases hp : (f c).peer.here = true
        · rw [if_pos hp, if_pos (hc hp).1]
          simp only [List.map_cons, (hf c).2]
          exact List.Sublist.cons_cons _ ih'
        · rw [if_neg hp]
          split
          · exact List.Sublist.cons _ ih'
          · exact ih'
    exact List.Nodup.sublist this h.one

theorem leave_here (p : Peer) : p.leave.here = false := by cases p <;> rfl

theorem Owns.env {used0 : List Nat} {s : State} (h : Owns used0 s) (e : Env) : Owns used0 (envStep s e) := by
  have hid : ∀ {s' : State}, s'.used = s.used → s'.childsocks = s.childsocks → s'.kids = s.kids → Owns used0 s' := by
    intro s' h1 h2 h3
    exact h.same h1 h2 (fun k hk hke => ⟨k, by rw [h3]; exact hk, rfl, hke⟩)
  cases e with
  | ends pid =>
    simp only [envStep]
    split
    · refine h.peers (fun c => if c.pid = pid then { c with peer := c.peer.leave } else c) ?_ ?_ rfl rfl
      · intro c
        by_cases hp : c.pid = pid <;> simp [hp]
      · intro c hc hp
        by_cases hpid : c.pid = pid
        · rw [if_pos hpid, leave_here] at hp
          cases hp
        · rw [if_neg hpid] at hp
          refine ⟨hp, ?_⟩
          intro k hk hkp hke
          refine ⟨k, ?_, rfl, hke⟩
          refine List.mem_map.mpr ⟨k, hk, ?_⟩
          rw [if_neg (by rw [hkp]; exact hpid)]
    · exact h
  | asks pid =>
    simp only [envStep]
    split
    · refine h.peers (fun c => if c.pid = pid ∧ c.peer = .idle then { c with peer := .asked } else c) ?_ ?_ rfl rfl
      · intro c
        by_cases hp : c.pid = pid ∧ c.peer = .idle <;> simp [hp]
      · intro c hc hp
        refine ⟨?_, fun k hk _ hke => ⟨k, hk, rfl, hke⟩⟩
        by_cases hpid : c.pid = pid ∧ c.peer = .idle
        · rw [hpid.2]; rfl
        · rw [if_neg hpid] at hp; exact hp
    · exact h
  | hangsUp pid =>
    simp only [envStep]
    split
    · refine h.peers (fun c => if c.pid = pid ∧ c.peer = .idle then { c with peer := .gone } else c) ?_ ?_ rfl rfl
      · intro c
        by_cases hp : c.pid = pid ∧ c.peer = .idle <;> simp [hp]
      · intro c hc hp
        refine ⟨?_, fun k hk _ hke => ⟨k, hk, rfl, hke⟩⟩
        by_cases hpid : c.pid = pid ∧ c.peer = .idle
        · rw [hpid.2]; rfl
        · rw [if_neg hpid] at hp; exact hp
    · exact h
  | starts pid =>
    simp only [envStep]
    split
    · exact hid rfl rfl rfl
    · exact h
  | stops pid => exact hid rfl rfl rfl
  | sigterm => exact hid rfl rfl rfl
  | sighup => exact hid rfl rfl rfl

theorem accept_cases {limit : Nat} {s s' : State} {fork : Option Nat} (he : accept limit s fork = .val s') :
    s' = s ∨ ∃ pid s0 net s1, fork = some pid ∧ alloc limit (s0 :: net :: s.used) = some s1 ∧
      s' = { s with
        table := pid :: s.table
        used := s1 :: s.used
        childsocks := s.childsocks ++ [⟨s1, pid, .idle⟩]
        kids := s.kids ++ [{ pid := pid }] } := by
  unfold accept at he
  split at he
  · cases he; exact Or.inl rfl
  · rename_i net h1
    split at he
    · cases he
    · rename_i s0 h2
      split at he
      · cases he
      · rename_i s1 h3
        split at he
        · cases he; exact Or.inl rfl
        · rename_i pid
          simp only [Out.val.injEq] at he
          exact Or.inr ⟨pid, s0, net, s1, rfl, h3, he.symm⟩

theorem Owns.accept {used0 : List Nat} {s s' : State} {limit : Nat} {fork : Option Nat} (h : Owns used0 s)
    (hf : ∀ pid, fork = some pid → s.free pid) (he : Loop.accept limit s fork = .val s') : Owns used0 s' := by
  rcases accept_cases he with rfl | ⟨pid, s0, net, s1, hfk, hal, rfl⟩
  · exact h
  · have hfree := hf pid hfk
    have hs1 : s1 ∉ s.used := by
      intro hx
      exact (alloc_some hal).1 (List.mem_cons_of_mem _ (List.mem_cons_of_mem _ hx))
    constructor
    · show (s1 :: s.used).Perm ((s.childsocks ++ [_]).map _ ++ used0)
      rw [List.map_append, List.map_singleton, List.append_assoc, List.singleton_append]
      exact (h.used.cons s1).trans List.perm_middle.symm
    · exact List.nodup_cons.mpr ⟨hs1, h.nodup⟩
    · intro c hc hp
      rcases List.mem_append.mp hc with hc | hc
      · obtain ⟨k, hk, h1, h2⟩ := h.live c hc hp
        exact ⟨k, List.mem_append_left _ hk, h1, h2⟩
      · simp only [List.mem_singleton] at hc
        subst hc
        exact ⟨{ pid := pid }, List.mem_append_right _ (List.mem_singleton.mpr rfl), rfl, rfl⟩
    · show (((s.childsocks ++ [_]).filter _).map _).Nodup
      rw [List.filter_append, List.map_append, List.nodup_append]
      refine ⟨h.one, by simp [Peer.here], ?_⟩
      intro x hx y hy
      have hy' : y = pid := by simpa [Peer.here] using hy
      subst hy'
      obtain ⟨c, hc, rfl⟩ := List.mem_map.mp hx
      obtain ⟨hc1, hc2⟩ := List.mem_filter.mp hc
      obtain ⟨k, hk, hkp, -⟩ := h.live c hc1 hc2
      rw [← hkp]
      exact hfree.1 k hk

theorem eraseIdx_perm {α : Type} {l : List α} {i : Nat} {a : α} (h : l[i]? = some a) : l.Perm (a :: l.eraseIdx i) := by
  induction l generalizing i with
  | nil => simp at h
  | cons x xs ih =>
    cases i with
    | zero =>
      simp only [List.getElem?_cons_zero, Option.some.injEq] at h
      subst h
      simp
    | succ i =>
      simp only [List.getElem?_cons_succ] at h
      simp only [List.eraseIdx_cons_succ]
      exact ((ih h).cons x).trans (List.Perm.swap _ _ _)

theorem filter_ne_perm {l m : List Nat} {a : Nat} (h : l.Perm (a :: m)) (hn : l.Nodup) : (l.filter (· ≠ a)).Perm m := by
  have hn' : (a :: m).Nodup := h.nodup_iff.mp hn
  have h1 : (l.filter (· ≠ a)).Perm ((a :: m).filter (· ≠ a)) := h.filter _
  have h2 : m.filter (fun x => decide (x ≠ a)) = m := by
    rw [List.filter_eq_self]
    intro x hx
    have := (List.nodup_cons.mp hn').1
    simp only [decide_eq_true_eq]
    rintro rfl
    exact this hx
  rw [List.filter_cons_of_neg (by simp), h2] at h1
  exact h1

theorem Owns.childname {used0 : List Nat} {s : State} {i : Nat} {ready : List Nat} {c : Sock} (h : Owns used0 s) (hc : s.childsocks[i]? = some c) :
    Owns used0 (Loop.childname s i ready c) := by
  have hid : ∀ {s' : State}, s'.used = s.used → s'.childsocks = s.childsocks → s'.kids = s.kids → Owns used0 s' := by
    intro s' h1 h2 h3
    exact h.same h1 h2 (fun k hk hke => ⟨k, by rw [h3]; exact hk, rfl, hke⟩)
  unfold Loop.childname
  rcases hp : c.peer with _ | _ | _ | _
  · exact hid rfl rfl rfl
  · dsimp only
    have hset : ∀ {β : Type} (g : Sock → β), g { c with peer := .idle } = g c → (s.childsocks.set i { c with peer := .idle }).map g = s.childsocks.map g := by
      intro β g hg
      rw [List.map_set, hg]
      apply List.ext_getElem?
      intro n
      rw [List.getElem?_set]
      split
      · rename_i hin
        subst hin
        split
        · rw [List.getElem?_map, hc]; rfl
        · rename_i hl
          simp only [List.length_map] at hl
          rw [List.getElem?_eq_none (by simpa using hl)]
      · rfl
    refine ⟨?_, h.nodup, ?_, ?_⟩
    · show s.used.Perm ((s.childsocks.set i _).map (fun c => c.fd) ++ used0)
      rw [hset _ rfl]
      exact h.used
    · intro d hd hdp
      rcases List.mem_or_eq_of_mem_set hd with hd | rfl
      · exact h.live d hd hdp
      · exact h.live c (List.mem_of_getElem? hc) (by rw [hp]; rfl)
    · show (((s.childsocks.set i _).filter (fun c => c.peer.here)).map (fun c => c.pid)).Nodup
      have h1 : ∀ l : List Sock, (l.filter (fun c => c.peer.here)).map (fun c => c.pid) = ((l.map fun c => (c.peer.here, c.pid)).filter (·.1)).map (·.2) := by
        intro l
        induction l with
        | nil => rfl
        | cons x xs ih =>
          simp only [List.map_cons, List.filter_cons]
          by_cases hx : x.peer.here = true
          · simp only [hx, if_true, List.map_cons, ih]
          · simp only [hx, if_false, Bool.false_eq_true, ih]
      rw [h1, hset (fun c => (c.peer.here, c.pid)) (by simp [hp, Peer.here]), ← h1]
      exact h.one
  · dsimp only
    refine ⟨?_, h.nodup.filter _, ?_, ?_⟩
    · apply filter_ne_perm (l := s.used) _ h.nodup
      have := (eraseIdx_perm hc).map (·.fd)
      exact h.used.trans ((this.append_right used0))
    · intro d hd hdp
      exact h.live d (List.mem_of_mem_eraseIdx hd) hdp
    · exact List.Nodup.sublist (((List.eraseIdx_sublist _ _).filter _).map _) h.one
  · exact hid rfl rfl rfl

theorem Owns.own {a : Prop} {used0 : List Nat} {s s' : State} {limit : Nat} {ans : Answer} (h : Owns used0 s) (hi : Inv a s)
    (he : ownStep limit s ans = .val s') : Owns used0 s' := by
  have hid : ∀ {s' : State}, s'.used = s.used → s'.childsocks = s.childsocks → s'.kids = s.kids → Owns used0 s' := by
    intro s' h1 h2 h3
    exact h.same h1 h2 (fun k hk hke => ⟨k, by rw [h3]; exact hk, rfl, hke⟩)
  unfold ownStep at he
  cases hpc : s.pc with
  | top =>
    rw [hpc] at he
    dsimp only at he
    split at he
    · cases he; exact hid rfl rfl rfl
    · split at he
      · cases he; exact hid rfl rfl rfl
      · cases he; exact hid rfl rfl rfl
  | kill rest =>
    rw [hpc] at he
    cases rest with
    | nil => cases he; exact hid rfl rfl rfl
    | cons p rest =>
      cases he
      refine h.same rfl rfl ?_
      intro k hk hke
      refine ⟨_, List.mem_map_of_mem hk, ?_⟩
      by_cases hp : k.pid = p <;> simp [hp, hke]
  | unlink => rw [hpc] at he; cases he; exact hid rfl rfl rfl
  | reap =>
    rw [hpc] at he
    cases ans with
    | waited pid =>
      cases pid with
      | none =>
        dsimp only at he
        split at he
        · cases he; exact h
        · cases he; exact hid rfl rfl rfl
      | some pid =>
        dsimp only at he
        split at he
        · rename_i hz
          cases he
          obtain ⟨kz, hkz, hkp, hkz'⟩ := hz
          refine h.same rfl rfl ?_
          intro k hk hke
          refine ⟨k, List.mem_filter.mpr ⟨hk, ?_⟩, rfl, hke⟩
          simp only [decide_eq_true_eq]
          intro hx
          have : k = kz := pid_inj hi.nodup hk hkz (hx.trans hkp.symm)
          rw [this, hkz'] at hke
          cases hke
        · cases he; exact h
    | _ => cases he; exact h
  | removed pid => rw [hpc] at he; cases he; exact hid rfl rfl rfl
  | select =>
    rw [hpc] at he
    dsimp only at he
    split at he
    · cases he
    · cases ans with
      | interrupted =>
        dsimp only at he
        split at he
        · cases he; exact hid rfl rfl rfl
        · cases he; exact h
      | ready n fds =>
        dsimp only at he
        split at he
        · cases he; exact hid rfl rfl rfl
        · cases he; exact h
      | _ => cases he; exact h
  | conns n ready =>
    rw [hpc] at he
    cases n with
    | zero => cases he; exact hid rfl rfl rfl
    | succ n =>
      have hg : Owns used0 { s with pc := .conns n ready } := hid rfl rfl rfl
      cases ans with
      | forked pid =>
        cases pid with
        | none => exact hg.accept (by simp) he
        | some pid =>
          dsimp only at he
          by_cases hf : s.free pid
          · rw [if_pos hf] at he
            refine hg.accept ?_ he
            intro q hq
            cases hq
            exact hf
          · rw [if_neg hf] at he
            cases he; exact h
      | _ => cases he; exact h
  | socks i ready =>
    rw [hpc] at he
    dsimp only at he
    rcases hc : s.childsocks[i]? with _ | c
    · rw [hc] at he
      cases he; exact hid rfl rfl rfl
    · rw [hc] at he
      dsimp only at he
      by_cases hr : c.fd ∈ ready
      · rw [if_pos hr] at he
        cases he
        exact h.childname hc
      · rw [if_neg hr] at he
        cases he; exact hid rfl rfl rfl
  | exited c => rw [hpc] at he; cases he; exact h
  | dead => rw [hpc] at he; cases he; exact h

theorem Owns.start {used others : List Nat} (hu : used.Nodup) (tp hp : Bool) : Owns used (start used others tp hp) := by
  constructor
  · simp [Loop.start]
  · exact hu
  · simp [Loop.start]
  · simp [Loop.start]

theorem Owns.run {limit : Nat} {used0 : List Nat} (acts : List Act) {a : Prop} {s s' : State} (h : Owns used0 s) (hi : Inv a s)
    (he : Loop.run limit acts s = .val s') : Owns used0 s' := by
  induction acts generalizing a s with
  | nil => cases he; exact h
  | cons x xs ih =>
    unfold Loop.run at he
    cases x with
    | env e => exact ih (h.env e) (hi.env e) he
    | own ans =>
      dsimp only [step] at he
      rcases ho : ownStep limit s ans with s1 | _ | _
      · rw [ho] at he
        exact ih (h.own hi ho) (hi.own ho) he
      · rw [ho] at he; cases he
      · rw [ho] at he; cases he

end Nbd.Loop
