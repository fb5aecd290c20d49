import Verif.Finish
/-!
# Commands and files at the end of a session (C86)
-/

set_option autoImplicit false

namespace Nbd

open Finish

namespace Spec

/-- Nothing unusual happens: the client sends what the protocol allows, the export can be set up, no write fails, nobody kills the process. -/
def Usual (a : Act) : Prop := a ≠ .badMagic ∧ a ≠ .failed ∧ a ≠ .sigpipe ∧ a ≠ .kill ∧ a ≠ .abort ∧ a ≠ .choose false

end Spec

open Spec

namespace Props

/-- Who is in `finalize_client`, past the pool: at most one thread, and the command has been run by nobody else. -/
structure Fin (s : State) : Prop where
  posts : (∀ c p, s.reader ≠ .finishing c p) → s.worker = none → s.posts = []
  reader : ∀ c p, s.reader = .finishing c p → s.worker = none ∧ (p = .post → s.posts = []) ∧ s.posts.length ≤ 1 ∧ s.pool = false
  worker : ∀ p, s.worker = some p → (p = .post → s.posts = []) ∧ s.posts.length ≤ 1 ∧ s.writing = false ∧ s.hung = false ∧ s.pool = false ∧
    ∃ c, s.reader = .freeing c
  hung : s.hung = true → s.pool = false ∧ s.writing = false ∧ s.worker = none ∧ ∀ c, s.reader ≠ .freeing c
  shut : s.pool = false → s.hung = true ∨ (∃ c, s.reader = .freeing c) ∨ ((∃ c p, s.reader = .finishing c p) ∧ s.pending = 0)
  fresh : s.pool = true → s.reader = .reading ∨ s.reader = .choosing
  pre : s.pre = s.commit.toNat
  none_yet : s.commit = false → s.reader = .choosing
  choosing : s.reader = .choosing → s.pending = 0 ∧ s.pool = true

theorem Fin.init : Fin {} := by
  constructor <;> simp [State.pending]

theorem freePool_fin {s : State} {code : Nat} (h : Fin s) (hr : s.reader = .reading ∨ (s.reader = .choosing ∧ s.commit = true)) : Fin (freePool s code) := by
  have hw : s.worker = none := by
    rcases hx : s.worker with _ | p
    · rfl
    · obtain ⟨-, -, -, -, -, c, hc⟩ := h.worker p hx
      rcases hr with hr | hr
      · rw [hr] at hc; cases hc
      · rw [hr.1] at hc; cases hc
  have hnf : ∀ c p, s.reader ≠ .finishing c p := by
    intro c p hx
    rcases hr with hr | hr
    · rw [hr] at hx; cases hx
    · rw [hr.1] at hx; cases hx
  have hp := h.posts hnf hw
  have hcom : s.commit = true := by
    cases hc : s.commit with
    | true => rfl
    | false =>
      have := h.none_yet hc
      rcases hr with hr | hr
      · rw [hr] at this; cases this
      · rw [hc] at hr; cases hr.2
  unfold freePool
  by_cases hpool : s.pool = true
  · rw [if_pos hpool]
    refine ⟨fun _ _ => hp, (by intro c p hx; cases hx), ?_, ?_, ?_, (by intro hx; cases hx), h.pre, ?_, (by intro hx; cases hx)⟩
    · intro p hx
      rw [show s.worker = some p from hx] at hw
      cases hw
    · intro hx
      have := (h.hung hx).1
      rw [hpool] at this
      cases this
    · intro _
      exact Or.inr (Or.inl ⟨code, rfl⟩)
    · intro hx
      rw [show s.commit = false from hx] at hcom
      cases hcom
  · rw [if_neg hpool]
    have hpf : s.pool = false := by simpa using hpool
    have hh : s.hung = true := by
      rcases h.shut hpf with hx | ⟨c, hx⟩ | ⟨⟨c, p, hx⟩, -⟩
      · exact hx
      · rcases hr with hr | hr
        · rw [hr] at hx; cases hx
        · rw [hr.1] at hx; cases hx
      · exact absurd hx (hnf c p)
    refine ⟨(fun hx => absurd rfl (hx code .post)), ?_, ?_, ?_, ?_, (by intro hx; rw [hx] at hpf; cases hpf), h.pre, ?_, (by intro hx; cases hx)⟩
    · intro c p _
      exact ⟨hw, fun _ => hp, by rw [hp]; simp, hpf⟩
    · intro p hx
      rw [show s.worker = some p from hx] at hw
      cases hw
    · intro hx
      exact ⟨(h.hung hx).1, (h.hung hx).2.1, (h.hung hx).2.2.1, by intro c hc; cases hc⟩
    · intro _
      exact Or.inl hh
    · intro hx
      rw [show s.commit = false from hx] at hcom
      cases hcom

/-- Steps that change only who works on what. -/
theorem Fin.work {s : State} (h : Fin s) (q b : Nat) (w : Bool) (hp : q + b + w.toNat ≤ s.pending) (hw : w = true → s.hung = false ∧ s.worker = none) :
    Fin { s with queue := q, busy := b, writing := w } := by
  refine ⟨h.posts, h.reader, ?_, ?_, ?_, h.fresh, h.pre, h.none_yet, ?_⟩
  · intro p hx
    obtain ⟨h1, h2, h3, h4, h5, h6⟩ := h.worker p hx
    refine ⟨h1, h2, ?_, h4, h5, h6⟩
    cases w with
    | false => rfl
    | true => rw [(hw rfl).2] at hx; cases hx
  · intro hx
    obtain ⟨h1, h2, h3, h4⟩ := h.hung hx
    refine ⟨h1, ?_, h3, h4⟩
    cases w with
    | false => rfl
    | true => rw [show s.hung = true from hx] at hw; cases (hw rfl).1
  · intro hx
    rcases h.shut hx with h1 | h1 | ⟨h1, h2⟩
    · exact Or.inl h1
    · exact Or.inr (Or.inl h1)
    · refine Or.inr (Or.inr ⟨h1, ?_⟩)
      show q + b + w.toNat = 0
      omega
  · intro hx
    refine ⟨?_, (h.choosing hx).2⟩
    show q + b + w.toNat = 0
    have := (h.choosing hx).1
    omega

theorem Fin.step {s : State} (h : Fin s) (a : Act) : Fin (Finish.step s a) := by
  unfold Finish.step
  split
  · exact h
  · cases a with
    | close => exact ⟨h.posts, h.reader, h.worker, h.hung, h.shut, h.fresh, h.pre, h.none_yet, h.choosing⟩
    | choose setup =>
      dsimp only
      split
      · rename_i hc
        obtain ⟨hc1, hc2⟩ := hc
        obtain ⟨hc3, hc4⟩ := h.choosing hc1
        have hw : s.worker = none := by
          rcases hx : s.worker with _ | p
          · rfl
          · have := (h.worker p hx).2.2.2.2.1
            rw [hc4] at this; cases this
        have hrd : ∀ c p, (if setup = true then Reader.reading else .choosing) ≠ .finishing c p := by intro c p; cases setup <;> simp
        refine ⟨fun _ _ => h.posts (by intro c p hx; rw [hc1] at hx; cases hx) hw, (fun c p hx => absurd hx (hrd c p)), ?_, ?_, ?_, ?_, ?_, (by intro hx; cases hx), ?_⟩
        · intro p hx
          rw [show s.worker = some p from hx] at hw
          cases hw
        · intro hx
          have := (h.hung hx).1
          rw [hc4] at this; cases this
        · intro hx
          rw [show s.pool = false from hx] at hc4
          cases hc4
        · intro _
          cases setup
          · exact Or.inr rfl
          · exact Or.inl rfl
        · show s.pre + 1 = 1
          rw [h.pre, hc2]
          rfl
        · intro _
          exact ⟨hc3, hc4⟩
      · exact h
    | abort =>
      dsimp only
      split
      · exact ⟨h.posts, h.reader, h.worker, h.hung, h.shut, h.fresh, h.pre, h.none_yet, h.choosing⟩
      · exact h
    | request =>
      dsimp only
      split
      · rename_i hc
        refine ⟨h.posts, h.reader, h.worker, h.hung, ?_, h.fresh, h.pre, h.none_yet, ?_⟩
        · intro hx
          rw [show s.pool = false from hx] at hc
          cases hc.2
        · intro hx
          rw [hc.1] at hx
          cases hx
      · exact h
    | disc =>
      dsimp only
      split
      · rename_i hc
        exact freePool_fin h (Or.inl hc)
      · exact h
    | badMagic =>
      dsimp only
      split
      · exact ⟨h.posts, h.reader, h.worker, h.hung, h.shut, h.fresh, h.pre, h.none_yet, h.choosing⟩
      · exact h
    | eof =>
      dsimp only
      split
      · split
        · rename_i hc
          exact freePool_fin h hc
        · split
          · exact ⟨h.posts, h.reader, h.worker, h.hung, h.shut, h.fresh, h.pre, h.none_yet, h.choosing⟩
          · exact h
      · exact h
    | freed =>
      dsimp only
      rcases hr : s.reader with _ | _ | code | ⟨code, p⟩
      · exact h
      · exact h
      · dsimp only
        split
        · rename_i hi
          simp only [State.idle, Bool.and_eq_true, beq_iff_eq, Bool.not_eq_true'] at hi
          obtain ⟨⟨hi1, hi2⟩, hi3⟩ := hi
          have hw : s.worker = none := by simpa using hi3
          have hpool : s.pool = false := by
            cases hx : s.pool with
            | false => rfl
            | true =>
              rcases h.fresh hx with h1 | h1 <;> rw [hr] at h1 <;> cases h1
          have hp := h.posts (by intro c p hx; rw [hr] at hx; cases hx) hw
          refine ⟨(fun hx => absurd rfl (hx code .post)), ?_, ?_, ?_, ?_, ?_, h.pre, ?_, (by intro hx; cases hx)⟩
          · intro c p _
            exact ⟨hw, fun _ => hp, by rw [hp]; simp, hpool⟩
          · intro p hx
            rw [show s.worker = some p from hx] at hw
            cases hw
          · intro hx
            rw [show s.hung = true from hx] at hi2
            cases hi2
          · intro _
            exact Or.inr (Or.inr ⟨⟨code, .post, rfl⟩, hi1⟩)
          · intro hx
            rw [show s.pool = true from hx] at hpool
            cases hpool
          · intro hx
            have := h.none_yet hx
            rw [hr] at this
            cases this
        · exact h
      · exact h
    | next =>
      dsimp only
      rcases hr : s.reader with _ | _ | code | ⟨code, p⟩
      · exact h
      · exact h
      · exact h
      · dsimp only
        obtain ⟨h1, h2, h3, h4⟩ := h.reader code p hr
        have key : ∀ (s' : State) (q : Phase), s'.worker = s.worker → s'.pool = s.pool → s'.hung = s.hung → s'.writing = s.writing → s'.queue = s.queue →
            s'.busy = s.busy → s'.pre = s.pre → s'.commit = s.commit → s'.posts.length ≤ 1 → q ≠ .post → Fin { s' with reader := .finishing code q } := by
          intro s' q e1 e2 e3 e4 e5 e6 e7 e8 e9 hq
          refine ⟨(fun hx => absurd rfl (hx code q)), ?_, ?_, ?_, ?_, ?_, by show s'.pre = s'.commit.toNat; rw [e7, e8]; exact h.pre, ?_, (by intro hx; cases hx)⟩
          · intro c p' hx
            cases hx
            exact ⟨e1.trans h1, (fun hx => absurd hx hq), e9, e2.trans h4⟩
          · intro p' hx
            rw [show s'.worker = some p' from hx, h1] at e1
            cases e1
          · intro hx
            rw [show s'.hung = true from hx] at e3
            obtain ⟨g1, g2, g3, g4⟩ := h.hung e3.symm
            exact ⟨e2.trans g1, e4.trans g2, e1.trans g3, by intro c hc; cases hc⟩
          · intro _
            rcases h.shut h4 with g | ⟨c, g⟩ | ⟨-, g⟩
            · exact Or.inl (e3.trans g)
            · rw [hr] at g; cases g
            · refine Or.inr (Or.inr ⟨⟨code, q, rfl⟩, ?_⟩)
              show s'.queue + s'.busy + s'.writing.toNat = 0
              rw [e4, e5, e6]
              exact g
          · intro hx
            rw [show s'.pool = true from hx, h4] at e2
            cases e2
          · intro hx
            rw [show s'.commit = false from hx] at e8
            have := h.none_yet e8.symm
            rw [hr] at this
            cases this
        cases p with
        | post => exact key _ _ rfl rfl rfl rfl rfl rfl rfl rfl (by show (s.posts ++ [_]).length ≤ 1; rw [h2 rfl]; simp) (by simp)
        | log => exact key _ _ rfl rfl rfl rfl rfl rfl rfl rfl h3 (by simp)
        | unlink => exact key _ _ rfl rfl rfl rfl rfl rfl rfl rfl h3 (by simp)
        | leave => exact ⟨h.posts, h.reader, h.worker, h.hung, h.shut, h.fresh, h.pre, h.none_yet, h.choosing⟩
    | take =>
      dsimp only
      split
      · rename_i hq
        refine h.work _ _ _ ?_ ?_
        · show s.queue - 1 + (s.busy + 1) + s.writing.toNat ≤ s.queue + s.busy + s.writing.toNat
          omega
        · intro hw
          refine ⟨?_, ?_⟩
          · cases hx : s.hung with
            | false => rfl
            | true => rw [(h.hung hx).2.1] at hw; cases hw
          · rcases hx : s.worker with _ | p
            · rfl
            · rw [(h.worker p hx).2.2.1] at hw; cases hw
      · exact h
    | lock =>
      dsimp only
      split
      · rename_i hq
        obtain ⟨hq1, hq2⟩ := hq
        simp only [State.unlocked, Bool.and_eq_true, Bool.not_eq_true'] at hq2
        obtain ⟨⟨hq2, hq3⟩, hq4⟩ := hq2
        refine h.work _ _ _ ?_ ?_
        · show s.queue + (s.busy - 1) + 1 ≤ s.queue + s.busy + s.writing.toNat
          omega
        · intro _
          exact ⟨hq3, by simpa using hq4⟩
      · exact h
    | written =>
      refine h.work _ _ _ ?_ (by intro hx; cases hx)
      show s.queue + s.busy + 0 ≤ s.queue + s.busy + s.writing.toNat
      omega
    | failed =>
      dsimp only
      split
      · rename_i hc
        obtain ⟨hc1, -⟩ := hc
        have hh : s.hung = false := by
          cases hx : s.hung with
          | false => rfl
          | true => rw [(h.hung hx).2.1] at hc1; cases hc1
        have hw : s.worker = none := by
          rcases hx : s.worker with _ | p
          · rfl
          · rw [(h.worker p hx).2.2.1] at hc1; cases hc1
        have hpend : s.pending ≠ 0 := by
          simp only [State.pending, hc1, Bool.toNat_true]
          omega
        split
        · rename_i hpool
          have hfr := h.fresh hpool
          refine ⟨h.posts, ?_, ?_, ?_, (fun _ => Or.inl rfl), (by intro hx; cases hx), h.pre, h.none_yet, ?_⟩
          · intro c p hx
            have := (h.reader c p hx).2.2.2
            rw [hpool] at this
            cases this
          · intro p hx
            rw [show s.worker = some p from hx] at hw
            cases hw
          · intro _
            refine ⟨rfl, rfl, hw, ?_⟩
            intro c hx
            rcases hfr with g | g <;> rw [show s.reader = .freeing c from hx] at g <;> cases g
          · intro hx
            exact absurd (h.choosing hx).1 hpend
        · rename_i hpool
          have hpool : s.pool = false := by simpa using hpool
          have hfree : ∃ c, s.reader = .freeing c := by
            rcases h.shut hpool with g | g | ⟨-, g⟩
            · rw [hh] at g; cases g
            · exact g
            · exact absurd g hpend
          have hp : s.posts = [] := by
            obtain ⟨c, hc⟩ := hfree
            exact h.posts (by intro c' p hx; rw [hc] at hx; cases hx) hw
          refine ⟨(by intro _ hx; cases hx), ?_, ?_, ?_, (fun _ => Or.inr (Or.inl hfree)), h.fresh, h.pre, h.none_yet, ?_⟩
          · intro c p hx
            obtain ⟨c', hc'⟩ := hfree
            rw [show s.reader = .finishing c p from hx] at hc'
            cases hc'
          · intro p hx
            exact ⟨fun _ => hp, by show s.posts.length ≤ 1; rw [hp]; simp, rfl, hh, hpool, hfree⟩
          · intro hx
            rw [show s.hung = true from hx] at hh
            cases hh
          · intro hx
            exact absurd (h.choosing hx).1 hpend
      · exact h
    | sigpipe =>
      dsimp only
      split
      · exact ⟨h.posts, h.reader, h.worker, h.hung, h.shut, h.fresh, h.pre, h.none_yet, h.choosing⟩
      · exact h
    | wnext =>
      dsimp only
      rcases hx : s.worker with _ | p
      · exact h
      · dsimp only
        obtain ⟨h1, h2, h3, h4, h5, c, h6⟩ := h.worker p hx
        have key : ∀ (s' : State) (q : Phase), s'.reader = s.reader → s'.pool = s.pool → s'.hung = s.hung → s'.writing = s.writing →
            s'.pre = s.pre → s'.commit = s.commit → s'.posts.length ≤ 1 → q ≠ .post → Fin { s' with worker := some q } := by
          intro s' q e1 e2 e3 e4 e7 e8 e9 hq
          refine ⟨(by intro _ hx; cases hx), ?_, ?_, ?_, ?_, ?_, by show s'.pre = s'.commit.toNat; rw [e7, e8]; exact h.pre, ?_, ?_⟩
          · intro c' p' hx
            rw [show s'.reader = _ from hx, h6] at e1
            cases e1
          · intro p' hx
            cases hx
            exact ⟨(fun hx => absurd hx hq), e9, e4.trans h3, e3.trans h4, e2.trans h5, c, e1.trans h6⟩
          · intro hx
            rw [show s'.hung = true from hx, h4] at e3
            cases e3
          · intro _
            exact Or.inr (Or.inl ⟨c, e1.trans h6⟩)
          · intro hx
            rw [show s'.pool = true from hx, h5] at e2
            cases e2
          · intro hx
            rw [show s'.commit = false from hx] at e8
            have := h.none_yet e8.symm
            rw [h6] at this
            cases this
          · intro hx
            rw [show s'.reader = .choosing from hx, h6] at e1
            cases e1
        cases p with
        | post => exact key _ _ rfl rfl rfl rfl rfl rfl (by show (s.posts ++ [_]).length ≤ 1; rw [h1 rfl]; simp) (by simp)
        | log => exact key _ _ rfl rfl rfl rfl rfl rfl h2 (by simp)
        | unlink => exact key _ _ rfl rfl rfl rfl rfl rfl h2 (by simp)
        | leave => exact ⟨h.posts, h.reader, h.worker, h.hung, h.shut, h.fresh, h.pre, h.none_yet, h.choosing⟩
    | kill => exact ⟨h.posts, h.reader, h.worker, h.hung, h.shut, h.fresh, h.pre, h.none_yet, h.choosing⟩

theorem run_fin (acts : List Act) {s : State} (h : Fin s) : Fin (Finish.run acts s) := by
  induction acts generalizing s with
  | nil => exact h
  | cons a as ih => exact ih (h.step a)

/-- C86 (part). In every execution, whatever fails and whoever kills the process: the prerun command has succeeded once at most, the postrun command is run once at most, and only
if prerun has succeeded. -/
theorem C86_once_partial (acts : List Act) :
    (Finish.run acts {}).posts.length ≤ (Finish.run acts {}).pre ∧ (Finish.run acts {}).pre ≤ 1 := by
  have h := run_fin acts Fin.init
  generalize Finish.run acts {} = s at h
  have hpre : s.pre ≤ 1 := by
    rw [h.pre]
    cases s.commit <;> simp
  refine ⟨?_, hpre⟩
  have hcom : ∀ {r : Reader}, s.reader = r → r ≠ .choosing → s.pre = 1 := by
    intro r hr hne
    rw [h.pre]
    cases hc : s.commit with
    | true => rfl
    | false => exact absurd ((h.none_yet hc).symm.trans hr).symm hne
  by_cases hf : ∃ c p, s.reader = .finishing c p
  · obtain ⟨c, p, hf⟩ := hf
    rw [hcom hf (by simp)]
    exact (h.reader c p hf).2.2.1
  · rcases hx : s.worker with _ | p
    · rw [h.posts (fun c p hx => hf ⟨c, p, hx⟩) hx]
      simp
    · obtain ⟨-, h2, -, -, -, c, h6⟩ := h.worker p hx
      rw [hcom h6 (by simp)]
      exact h2

/-- What holds as long as nothing unusual happens. -/
structure Calm (s : State) : Prop where
  hung : s.hung = false
  worker : s.worker = none
  posts : s.posts = match s.reader with
    | .finishing _ .log => [0]
    | .finishing _ .unlink => [0]
    | .finishing _ .leave => [0]
    | _ => []
  pending : ∀ c p, s.reader = .finishing c p → s.pending = 0
  log : ∀ c p, s.reader = .finishing c p → p = .unlink ∨ p = .leave → s.logOpen = false
  diff : ∀ c, s.reader = .finishing c .leave → s.diff = false
  pre : s.pre = if s.reader = .choosing then 0 else 1
  commit : s.commit = if s.reader = .choosing then false else true
  pool : s.pool = true ↔ s.reader = .reading ∨ s.reader = .choosing
  start : s.reader = .choosing → s.logOpen = false ∧ s.diff = false
  fate : ∀ f, s.fate = some f → (∃ c, s.reader = .finishing c .leave ∧ f = .exit c) ∨ (s.reader = .choosing ∧ f = .exit 1)

theorem Calm.init : Calm {} := by
  constructor <;> simp

theorem Calm.step {s : State} (h : Calm s) (hq : s.reader = .choosing → s.pending = 0) (a : Act) (ha : Usual a) :
    Calm (Finish.step s a) ∧ ((Finish.step s a).reader = .choosing → (Finish.step s a).pending = 0) := by
  obtain ⟨a1, a2, a3, a4, a5, a6⟩ := ha
  unfold Finish.step
  split
  · exact ⟨h, hq⟩
  · rename_i hfate
    have hfn : s.fate = none := by simpa using hfate
    have hfree : ∀ code, s.reader = .reading → Calm (freePool s code) ∧ ((freePool s code).reader = .choosing → (freePool s code).pending = 0) := by
      intro code hr
      unfold freePool
      rw [if_pos (h.pool.mpr (Or.inl hr))]
      have hp := h.posts
      have h1 := h.pre
      have h2 := h.commit
      rw [hr] at hp h1 h2
      refine ⟨⟨h.hung, h.worker, hp, (by intro c p hx; cases hx), (by intro c p hx; cases hx), (by intro c hx; cases hx), h1, h2, by simp, (by intro hx; cases hx), ?_⟩, (by intro hx; cases hx)⟩
      intro f hf
      rw [show s.fate = some f from hf] at hfn
      cases hfn
    cases a with
    | close => exact ⟨⟨h.hung, h.worker, h.posts, h.pending, h.log, h.diff, h.pre, h.commit, h.pool, h.start, h.fate⟩, hq⟩
    | choose setup =>
      cases setup with
      | false => exact absurd rfl a6
      | true =>
        dsimp only
        split
        · rename_i hc
          have hp := h.posts
          have h1 := h.pre
          rw [hc.1] at hp h1
          refine ⟨⟨h.hung, h.worker, hp, (by intro c p hx; cases hx), (by intro c p hx; cases hx), (by intro c hx; cases hx), by show s.pre + 1 = 1; rw [h1]; rfl, rfl, ?_, (by intro hx; cases hx), ?_⟩, (by intro hx; cases hx)⟩
          · show s.pool = true ↔ _
            rw [h.pool, hc.1]
            simp
          · intro f hf
            rw [show s.fate = some f from hf] at hfn
            cases hfn
        · exact ⟨h, hq⟩
    | abort => exact absurd rfl a5
    | request =>
      dsimp only
      split
      · rename_i hc
        refine ⟨⟨h.hung, h.worker, h.posts, ?_, h.log, h.diff, h.pre, h.commit, h.pool, h.start, h.fate⟩, ?_⟩
        · intro c p hx
          rw [show s.reader = _ from hx] at hc
          cases hc.1
        · intro hx
          rw [show s.reader = _ from hx] at hc
          cases hc.1
      · exact ⟨h, hq⟩
    | disc =>
      dsimp only
      split
      · rename_i hc
        exact hfree 0 hc
      · exact ⟨h, hq⟩
    | badMagic => exact absurd rfl a1
    | eof =>
      dsimp only
      split
      · split
        · rename_i hc
          rcases hc with hc | ⟨hc, hc2⟩
          · exact hfree 1 hc
          · have := h.commit
            rw [hc, hc2] at this
            cases this
        · split
          · rename_i hc
            refine ⟨⟨h.hung, h.worker, h.posts, h.pending, h.log, h.diff, h.pre, h.commit, h.pool, h.start, ?_⟩, hq⟩
            intro f hf
            simp only [Option.some.injEq] at hf
            exact Or.inr ⟨hc, hf.symm⟩
          · exact ⟨h, hq⟩
      · exact ⟨h, hq⟩
    | freed =>
      dsimp only
      rcases hr : s.reader with _ | _ | code | ⟨code, p⟩
      · exact ⟨h, fun _ => hq hr⟩
      · exact ⟨h, hq⟩
      · dsimp only
        split
        · rename_i hi
          simp only [State.idle, Bool.and_eq_true, beq_iff_eq, Bool.not_eq_true'] at hi
          have hp := h.posts
          have h1 := h.pre
          have h2 := h.commit
          have h3 := h.pool
          rw [hr] at hp h1 h2 h3
          refine ⟨⟨h.hung, h.worker, hp, (fun _ _ _ => hi.1.1), ?_, (by intro c hx; cases hx), h1, h2, ?_, (by intro hx; cases hx), ?_⟩, (by intro hx; cases hx)⟩
          · intro c p hx hy
            cases hx
            rcases hy with hy | hy <;> cases hy
          · show s.pool = true ↔ _
            rw [h3]
            simp
          · intro f hf
            rw [show s.fate = some f from hf] at hfn
            cases hfn
        · exact ⟨h, hq⟩
      · exact ⟨h, hq⟩
    | next =>
      dsimp only
      rcases hr : s.reader with _ | _ | code | ⟨code, p⟩
      · exact ⟨h, fun _ => hq hr⟩
      · exact ⟨h, hq⟩
      · exact ⟨h, hq⟩
      · dsimp only
        have hp := h.posts
        have h1 := h.pre
        have h2 := h.commit
        have h3 := h.pool
        have h4 := h.pending code p hr
        rw [hr] at hp h1 h2 h3
        have hpool : s.pool = false := by
          cases hx : s.pool with
          | false => rfl
          | true => rw [hx] at h3; simp at h3
        cases p with
        | post =>
          refine ⟨⟨h.hung, h.worker, ?_, fun _ _ _ => h4, ?_, (by intro c hx; cases hx), h1, h2, ?_, (by intro hx; cases hx), ?_⟩, (by intro hx; cases hx)⟩
          · show s.posts ++ [s.pending] = [0]
            rw [hp, h4]
            rfl
          · intro c p hx hy
            cases hx
            rcases hy with hy | hy <;> cases hy
          · show s.pool = true ↔ _
            rw [hpool]
            simp [finalizeStep]
          · intro f hf
            rw [show s.fate = some f from hf] at hfn
            cases hfn
        | log =>
          refine ⟨⟨h.hung, h.worker, hp, fun _ _ _ => h4, fun _ _ _ _ => rfl, (by intro c hx; cases hx), h1, h2, ?_, (by intro hx; cases hx), ?_⟩, (by intro hx; cases hx)⟩
          · show s.pool = true ↔ _
            rw [hpool]
            simp [finalizeStep]
          · intro f hf
            rw [show s.fate = some f from hf] at hfn
            cases hfn
        | unlink =>
          refine ⟨⟨h.hung, h.worker, hp, fun _ _ _ => h4, fun _ _ _ _ => h.log code .unlink hr (Or.inl rfl), fun _ _ => rfl, h1, h2, ?_, (by intro hx; cases hx), ?_⟩, (by intro hx; cases hx)⟩
          · show s.pool = true ↔ _
            rw [hpool]
            simp [finalizeStep]
          · intro f hf
            rw [show s.fate = some f from hf] at hfn
            cases hfn
        | leave =>
          refine ⟨⟨h.hung, h.worker, h.posts, h.pending, h.log, h.diff, h.pre, h.commit, h.pool, h.start, ?_⟩, hq⟩
          intro f hf
          cases hf
          exact Or.inl ⟨code, hr, rfl⟩
    | take =>
      dsimp only
      split
      · rename_i hx
        refine ⟨⟨h.hung, h.worker, h.posts, ?_, h.log, h.diff, h.pre, h.commit, h.pool, h.start, h.fate⟩, ?_⟩
        · intro c p hy
          have := h.pending c p hy
          simp only [State.pending] at this
          omega
        · intro hy
          have := hq hy
          simp only [State.pending] at this
          omega
      · exact ⟨h, hq⟩
    | lock =>
      dsimp only
      split
      · rename_i hx
        refine ⟨⟨h.hung, h.worker, h.posts, ?_, h.log, h.diff, h.pre, h.commit, h.pool, h.start, h.fate⟩, ?_⟩
        · intro c p hy
          have := h.pending c p hy
          simp only [State.pending] at this
          omega
        · intro hy
          have := hq hy
          simp only [State.pending] at this
          omega
      · exact ⟨h, hq⟩
    | written =>
      refine ⟨⟨h.hung, h.worker, h.posts, ?_, h.log, h.diff, h.pre, h.commit, h.pool, h.start, h.fate⟩, ?_⟩
      · intro c p hy
        have := h.pending c p hy
        simp only [State.pending] at this
        show s.queue + s.busy + 0 = 0
        omega
      · intro hy
        have := hq hy
        simp only [State.pending] at this
        show s.queue + s.busy + 0 = 0
        omega
    | failed => exact absurd rfl a2
    | sigpipe => exact absurd rfl a3
    | wnext =>
      rw [h.worker]
      exact ⟨h, hq⟩
    | kill => exact absurd rfl a4

theorem run_calm (acts : List Act) {s : State} (h : Calm s) (hq : s.reader = .choosing → s.pending = 0) (ha : ∀ a ∈ acts, Usual a) : Calm (Finish.run acts s) := by
  induction acts generalizing s with
  | nil => exact h
  | cons a as ih =>
    obtain ⟨h1, h2⟩ := h.step hq a (ha a List.mem_cons_self)
    exact ih h1 h2 (fun b hb => ha b (List.mem_cons_of_mem _ hb))

/-- C86 (part). In every execution in which nothing unusual happens, with any number of requests and threads: until the process ends, or is about to, postrun is not run. When
it has ended, postrun has been run exactly if prerun had, once, when no request was left to be worked on or answered; the log is closed and the diff file is gone. -/
theorem C86_usual_partial (acts : List Act) (ha : ∀ a ∈ acts, Usual a) :
    (∀ n ∈ (Finish.run acts {}).posts, n = 0) ∧
    ∀ f, (Finish.run acts {}).fate = some f →
      (Finish.run acts {}).posts.length = (Finish.run acts {}).pre ∧ (Finish.run acts {}).logOpen = false ∧ (Finish.run acts {}).diff = false := by
  have h := run_calm acts Calm.init (fun _ => rfl) ha
  generalize Finish.run acts {} = s at h
  constructor
  · intro n hn
    have := h.posts
    rw [this] at hn
    split at hn <;> first | exact List.mem_singleton.mp hn | cases hn
  · intro f hf
    rcases h.fate f hf with ⟨c, hr, -⟩ | ⟨hr, -⟩
    · have h1 := h.posts
      have h2 := h.pre
      rw [hr] at h1 h2
      exact ⟨by rw [h1, h2]; rfl, h.log c .leave hr (Or.inr rfl), h.diff c hr⟩
    · have h1 := h.posts
      have h2 := h.pre
      rw [hr] at h1 h2
      exact ⟨by rw [h1, h2]; rfl, (h.start hr).1, (h.start hr).2⟩

/-- Two requests, then the end; the second is answered while the reading thread waits. -/
def usualActs : List Act :=
  [.choose true, .request, .take, .request, .lock, .written, .disc, .freed, .take, .lock, .written, .freed, .next, .next, .next, .next]

example : (∀ a ∈ usualActs, Usual a) ∧ (Finish.run usualActs {}).fate = some (.exit 0) ∧ (Finish.run usualActs {}).posts = [0] :=
  ⟨by unfold Usual; decide +kernel, by decide +kernel, by decide +kernel⟩

/-- C86 is false: a request without the magic number ends the process at once. Postrun is not run, and the diff file stays. -/
theorem C86_false_magic : (Finish.run [.choose true, .badMagic] {}).fate = some (.exit 1) ∧ (Finish.run [.choose true, .badMagic] {}).pre = 1 ∧
    (Finish.run [.choose true, .badMagic] {}).posts = [] ∧ (Finish.run [.choose true, .badMagic] {}).diff = true := by decide +kernel

/-- C86 is false: if the client goes away before it has got all replies, the process may be killed when it writes the next one (SIGPIPE). -/
theorem C86_false_pipe : ∃ acts, acts = [.choose true, .request, .close, .take, .lock, .sigpipe] ∧ (Finish.run acts {}).fate = some .signal ∧
    (Finish.run acts {}).pre = 1 ∧ (Finish.run acts {}).posts = [] ∧ (Finish.run acts {}).diff = true := ⟨_, rfl, by decide +kernel⟩

/-- C86 is false: when the server is stopped (SIGTERM, C83), its sessions end without postrun. -/
theorem C86_false_stop : ∃ acts, acts = [.choose true, .kill] ∧ (Finish.run acts {}).fate = some .signal ∧ (Finish.run acts {}).pre = 1 ∧
    (Finish.run acts {}).posts = [] ∧ (Finish.run acts {}).diff = true := ⟨_, rfl, by decide +kernel⟩

/-- C86 is false: if prerun succeeds, but the export cannot be set up (its file is missing, say), and the client then gives up as the protocol says, postrun is not run. -/
theorem C86_false_setup : ∃ acts, acts = [.choose false, .abort] ∧ (Finish.run acts {}).fate = some (.exit 1) ∧ (Finish.run acts {}).pre = 1 ∧
    (Finish.run acts {}).posts = [] := ⟨_, rfl, by decide +kernel⟩

/-- C86 is false: if writing a reply fails while the reading thread already waits for the others, postrun is run, and the process ends, while a request is still being worked on. -/
theorem C86_false_early : ∃ acts, acts = [.choose true, .request, .request, .take, .take, .close, .eof, .lock, .failed, .wnext, .wnext, .wnext, .wnext] ∧
    (Finish.run acts {}).fate = some (.exit 1) ∧ (Finish.run acts {}).posts = [1] ∧ (Finish.run acts {}).busy = 1 := ⟨_, rfl, by decide +kernel⟩

end Props

end Nbd
