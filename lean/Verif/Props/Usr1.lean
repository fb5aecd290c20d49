import Verif.Usr1
/-!
# When a waiting export goes over to its file (C97)

nbd-server(5) says of `waitfile` that the server takes writes, but no reads, "until the server is sent a SIGUSR1", that it then merges the outstanding writes into the file, and
that "once this operation finishes, the diff file will be removed".
-/

set_option autoImplicit false

namespace Nbd.Spec

/-- Session `i` has gone over to the file. -/
def Switched (s : Usr1.State) (i : Nat) : Prop := ∃ x, s.sess[i]? = some x ∧ x.thread = .switched

/-- Session `i` is set up and waits for a signal. -/
def Waits (s : Usr1.State) (i : Nat) : Prop :=
  ∃ x, s.sess[i]? = some x ∧ x.thread = .waiting ∧ x.map = true ∧ x.ended = false

/-- The process of session `i` has crashed. -/
def Crashed (s : Usr1.State) (i : Nat) : Prop := ∃ x, s.sess[i]? = some x ∧ x.thread = .crashed

end Nbd.Spec

namespace Nbd.Props

open Nbd.Spec Nbd.Usr1

/-- What an act does to session `i`. -/
def usr1Own (file : Bool) (i : Nat) (x : Sess) (a : Act) : Sess :=
  if x.ended then x
  else if a = .sig i then { x with sem := x.sem + 1 }
  else if a = .setup i then (if x.thread = .none then { x with thread := .waiting } else x)
  else if a = .prepare i then (if x.thread = .none then x else { x with map := true, diff := true })
  else if a = .finish i then { x with ended := true }
  else if a = .wait i then threadStep file x
  else x

/-- A step, seen from a session that is there. -/
theorem usr1_step {s : State} {a : Act} {i : Nat} {x : Sess} (h : s.sess[i]? = some x) :
    (step s a).sess[i]? = some (usr1Own s.file i x a) := by
  have hat : ∀ (j : Nat) (f : Sess → Sess), (s.at j f).sess[i]? = some (if i = j ∧ x.ended = false then f x else x) := by
    intro j f
    show (s.sess.modify j _)[i]? = _
    rw [List.getElem?_modify, h]
    by_cases hij : j = i
    · subst hij
      cases he : x.ended <;> simp [he]
    · simp [hij, Ne.symm hij]
  have hlt := (List.getElem?_eq_some_iff.mp h).1
  cases a with
  | sigParent => simp [step, usr1Own, h]
  | file => simp [step, usr1Own, h]
  | fork =>
    show (s.sess ++ _)[i]? = _
    rw [List.getElem?_append_left hlt, h]
    simp [usr1Own]
  | sig j => rw [step, hat]; by_cases hij : i = j <;> cases he : x.ended <;> simp [usr1Own, hij, he, Ne.symm] <;> (intro h; exact absurd h.symm hij)
  | setup j => rw [step, hat]; by_cases hij : i = j <;> cases he : x.ended <;> simp [usr1Own, hij, he] <;> (intro h; exact absurd h.symm hij)
  | prepare j => rw [step, hat]; by_cases hij : i = j <;> cases he : x.ended <;> simp [usr1Own, hij, he] <;> (intro h; exact absurd h.symm hij)
  | finish j => rw [step, hat]; by_cases hij : i = j <;> cases he : x.ended <;> simp [usr1Own, hij, he] <;> (intro h; exact absurd h.symm hij)
  | wait j => rw [step, hat]; by_cases hij : i = j <;> cases he : x.ended <;> simp [usr1Own, hij, he] <;> (intro h; exact absurd h.symm hij)

theorem usr1_length {s : State} {a : Act} : (step s a).sess.length = s.sess.length + (if a = .fork then 1 else 0) := by
  cases a <;> simp [step, State.at]

/-- Sessions do not come but by `fork`. -/
theorem usr1_new {s : State} {a : Act} {i : Nat} {y : Sess} (h0 : s.sess[i]? = none) (h : (step s a).sess[i]? = some y) :
    a = .fork ∧ y = { sem := s.parent } := by
  have hl := (List.getElem?_eq_some_iff.mp h).1
  have h1 : s.sess.length ≤ i := List.getElem?_eq_none_iff.mp h0
  rw [usr1_length] at hl
  by_cases hf : a = .fork
  · subst hf
    refine ⟨rfl, ?_⟩
    rw [if_pos rfl] at hl
    have : i = s.sess.length := by omega
    subst this
    have h : (s.sess ++ [{ sem := s.parent }])[s.sess.length]? = some y := h
    rw [List.getElem?_append_right (Nat.le_refl _)] at h
    simpa using h.symm
  · rw [if_neg hf] at hl
    omega

/-- The session as an observer of one process sees it. -/
theorem usr1_run (bs : List Act) : ∀ (s : State) (i : Nat) (x : Sess), s.sess[i]? = some x → ∃ y, (run bs s).sess[i]? = some y := by
  induction bs with
  | nil => intro s i x h; exact ⟨x, h⟩
  | cons a bs ih => intro s i x h; exact ih (step s a) i _ (usr1_step h)

/-- Whatever every act preserves of a session holds at the end. -/
theorem usr1_keeps {P : Sess → Prop} (i : Nat) {Q : Act → Prop} (hP : ∀ file x a, Q a → P x → P (usr1Own file i x a)) (bs : List Act) :
    ∀ (s : State) (x : Sess), (∀ a ∈ bs, Q a) → s.sess[i]? = some x → P x → ∃ y, (run bs s).sess[i]? = some y ∧ P y := by
  induction bs with
  | nil => intro s x _ h hx; exact ⟨x, h, hx⟩
  | cons a bs ih =>
    intro s x hq h hx
    exact ih (step s a) _ (fun b hb => hq b (by simp [hb])) (usr1_step h) (hP _ _ _ (hq a (by simp)) hx)

/-- Without signals: the semaphore is 0, and nothing has moved. -/
def usr1Quiet (x : Sess) : Prop := x.sem = 0 ∧ (x.thread = .none ∨ x.thread = .waiting)

theorem usr1Quiet_keeps (i : Nat) (file : Bool) (x : Sess) (a : Act) (ha : a ≠ .sig i) (h : usr1Quiet x) : usr1Quiet (usr1Own file i x a) := by
  obtain ⟨h1, h2⟩ := h
  unfold usr1Own
  repeat' split
  all_goals first | exact ⟨h1, h2⟩ | (exact absurd ‹_› ha) | skip
  · exact ⟨h1, .inr rfl⟩
  · unfold threadStep
    rcases h2 with h2 | h2
    · rw [h2]; exact ⟨h1, .inl h2⟩
    · rw [h2]
      dsimp only
      rw [if_neg (by omega)]
      exact ⟨h1, .inr h2⟩

theorem usr1_parent (as : List Act) : ∀ s : State, .sigParent ∉ as → (run as s).parent = s.parent := by
  induction as with
  | nil => intro s _; rfl
  | cons a as ih =>
    intro s h
    simp only [List.mem_cons, not_or] at h
    show (run as (step s a)).parent = _
    rw [ih _ h.2]
    cases a <;> first | rfl | exact absurd rfl h.1

/-- Before any signal. -/
theorem usr1_quiet (as : List Act) (i : Nat) : ∀ s : State, s.parent = 0 → (∀ x, s.sess[i]? = some x → usr1Quiet x) → .sigParent ∉ as → .sig i ∉ as →
    ∀ x, (run as s).sess[i]? = some x → usr1Quiet x := by
  induction as with
  | nil => intro s _ h _ _ x hx; exact h x hx
  | cons a as ih =>
    intro s hp h h1 h2
    simp only [List.mem_cons, not_or] at h1 h2
    refine ih (step s a) (by rw [show step s a = run [a] s from rfl, usr1_parent [a] s (by simpa using h1.1), hp]) ?_ h1.2 h2.2
    intro y hy
    cases hx : s.sess[i]? with
    | none =>
      obtain ⟨-, rfl⟩ := usr1_new hx hy
      exact ⟨hp, .inl rfl⟩
    | some x =>
      rw [usr1_step hx] at hy
      cases hy
      exact usr1Quiet_keeps i _ x a (Ne.symm h2.1) (h x hx)

/-- C97 (part). Before any signal no session goes over to its file, whether that is there or not. -/
theorem C97_before_partial (acts : List Act) (i : Nat) (hp : .sigParent ∉ acts) (hi : .sig i ∉ acts) : ¬ Switched (run acts {}) i := by
  rintro ⟨x, hx, ht⟩
  have := usr1_quiet acts i {} rfl (by intro x hx; simp at hx) hp hi x hx
  rcases this.2 with h1 | h1 <;> rw [h1] at ht <;> cases ht

/-- A session that waits, with the file there. -/
example : Waits (run [.file, .fork, .setup 0, .prepare 0, .wait 0, .wait 0] {}) 0 := ⟨_, rfl, by decide⟩

/-- How far a signalled thread still has to go. -/
def usr1Togo (x : Sess) : Nat :=
  match x.thread with
  | .waiting => 3
  | .opening => 2
  | .opened => 1
  | _ => 0

/-- A session that has been signalled, with the file there. -/
def usr1Called (x : Sess) : Prop :=
  x.ended = false ∧ x.map = true ∧ (x.thread = .switched ∨ x.thread = .opened ∨ x.thread = .opening ∨ (x.thread = .waiting ∧ 0 < x.sem))

theorem usr1_called (i : Nat) (x : Sess) (a : Act) (ha : a ≠ .finish i) (h : usr1Called x) :
    usr1Called (usr1Own true i x a) ∧ usr1Togo (usr1Own true i x a) ≤ usr1Togo x - (if a = .wait i then 1 else 0) := by
  obtain ⟨h1, h2, h3⟩ := h
  unfold usr1Own
  rw [if_neg (by rw [h1]; decide)]
  by_cases a1 : a = .sig i
  · subst a1
    rw [if_pos rfl]
    refine ⟨⟨h1, h2, ?_⟩, ?_⟩
    · rcases h3 with h3 | h3 | h3 | ⟨h3, h4⟩
      · exact .inl h3
      · exact .inr (.inl h3)
      · exact .inr (.inr (.inl h3))
      · exact .inr (.inr (.inr ⟨h3, by dsimp only; omega⟩))
    · rw [if_neg (by intro h; cases h)]; exact Nat.le_refl _
  rw [if_neg a1]
  by_cases a2 : a = .setup i
  · subst a2
    have : x.thread ≠ .none := by rcases h3 with h3 | h3 | h3 | ⟨h3, -⟩ <;> rw [h3] <;> decide
    rw [if_pos rfl, if_neg this, if_neg (by intro h; cases h)]
    exact ⟨⟨h1, h2, h3⟩, Nat.le_refl _⟩
  rw [if_neg a2]
  by_cases a3 : a = .prepare i
  · subst a3
    have : x.thread ≠ .none := by rcases h3 with h3 | h3 | h3 | ⟨h3, -⟩ <;> rw [h3] <;> decide
    rw [if_pos rfl, if_neg this]
    refine ⟨⟨h1, rfl, h3⟩, ?_⟩
    rw [if_neg (by intro h; cases h)]
    exact Nat.le_refl _
  rw [if_neg a3, if_neg ha]
  by_cases a5 : a = .wait i
  · rw [if_pos a5, if_pos a5]
    unfold threadStep usr1Togo
    rcases h3 with h3 | h3 | h3 | ⟨h3, h4⟩
    · rw [h3]; exact ⟨⟨h1, h2, .inl h3⟩, by simp [h3]⟩
    · rw [h3]
      simp only [h2, if_true]
      exact ⟨⟨h1, rfl, .inl rfl⟩, by simp⟩
    · rw [h3]
      simp only [if_true]
      exact ⟨⟨h1, h2, .inr (.inl rfl)⟩, by simp⟩
    · rw [h3]
      simp only [if_pos h4]
      exact ⟨⟨h1, h2, .inr (.inr (.inl rfl))⟩, by simp⟩
  · rw [if_neg a5, if_neg a5]
    exact ⟨⟨h1, h2, h3⟩, Nat.le_refl _⟩

theorem usr1_called_run (i : Nat) (bs : List Act) : ∀ (s : State) (x : Sess), s.file = true → s.sess[i]? = some x → usr1Called x → .finish i ∉ bs →
    ∃ y, (run bs s).sess[i]? = some y ∧ usr1Called y ∧ usr1Togo y ≤ usr1Togo x - bs.count (.wait i) := by
  induction bs with
  | nil => intro s x _ hx hc _; exact ⟨x, hx, hc, by simp⟩
  | cons a bs ih =>
    intro s x hf hx hc hn
    simp only [List.mem_cons, not_or] at hn
    obtain ⟨h1, h2⟩ := usr1_called i x a (Ne.symm hn.1) hc
    have hf' : (step s a).file = true := by cases a <;> first | exact hf | rfl
    have hx' := usr1_step (a := a) hx
    rw [hf] at hx'
    obtain ⟨y, g1, g2, g3⟩ := ih (step s a) _ hf' hx' h1 hn.2
    refine ⟨y, g1, g2, ?_⟩
    rw [List.count_cons]
    have : (a == Act.wait i) = decide (a = .wait i) := rfl
    by_cases ha : a = .wait i
    · rw [if_pos ha] at h2
      simp only [ha, beq_self_eq_true, if_true]
      omega
    · rw [if_neg ha] at h2
      have hb : (a == Act.wait i) = false := by simp [ha]
      simp only [hb, Bool.false_eq_true, if_false]
      omega

/-- C97 (part). In every run: a session that is set up, waits, and gets a signal in its own process when the file is there goes over to the file, unless it ends before; three steps of its thread
suffice, whatever else happens between them. -/
theorem C97_signalled_partial (acts more : List Act) (i : Nat) (hw : Waits (run acts {}) i) (hf : (run acts {}).file = true)
    (hn : .finish i ∉ more) (h3 : 3 ≤ more.count (.wait i)) : Switched (run (acts ++ [.sig i] ++ more) {}) i := by
  obtain ⟨x, hx, h1, h2, h4⟩ := hw
  have e : run (acts ++ [.sig i] ++ more) {} = run more (step (run acts {}) (.sig i)) := by
    simp [run, List.foldl_append]
  have hx' := usr1_step (a := .sig i) hx
  have ho : usr1Own (run acts {}).file i x (.sig i) = { x with sem := x.sem + 1 } := by
    unfold usr1Own
    rw [if_neg (by rw [h4]; decide), if_pos rfl]
  rw [ho] at hx'
  obtain ⟨y, g1, g2, g3⟩ := usr1_called_run i more (step (run acts {}) (.sig i)) _ hf hx'
    ⟨h4, h2, .inr (.inr (.inr ⟨h1, Nat.succ_pos _⟩))⟩ hn
  have g4 : usr1Togo { x with sem := x.sem + 1 } ≤ 3 := by unfold usr1Togo; dsimp only; rw [h1]; exact Nat.le_refl _
  refine ⟨y, by rw [e]; exact g1, ?_⟩
  have g5 : usr1Togo y = 0 := by omega
  rcases g2.2.2 with h | h | h | ⟨h, -⟩
  · exact h
  all_goals (unfold usr1Togo at g5; rw [h] at g5; cases g5)

example : Switched (run [.file, .fork, .setup 0, .prepare 0, .fork, .sig 0, .wait 0, .sigParent, .wait 0, .setup 1, .wait 0] {}) 0 := ⟨_, rfl, by decide⟩

/-- C97 (part). A session that is still waiting when it is set up does not crash later. -/
theorem C97_safe_partial (acts more : List Act) (i : Nat) (hw : Waits (run acts {}) i) :
    ¬ Crashed (run (acts ++ more) {}) i := by
  obtain ⟨x, hx, h1, h2, -⟩ := hw
  rintro ⟨y, hy, ht⟩
  have e : run (acts ++ more) {} = run more (run acts {}) := by simp [run, List.foldl_append]
  rw [e] at hy
  obtain ⟨z, g1, g2, g3⟩ := usr1_keeps (P := fun x => x.map = true ∧ x.thread ≠ .crashed) i (Q := fun _ => True) (by
    intro file x a _ ⟨k1, k2⟩
    unfold usr1Own
    repeat' split
    all_goals first | exact ⟨k1, k2⟩ | exact ⟨rfl, k2⟩ | skip
    · exact ⟨k1, by simp⟩
    · unfold threadStep
      cases hth : x.thread <;> dsimp only
      · exact ⟨k1, by rw [hth]; simp⟩
      · split
        · exact ⟨k1, by simp⟩
        · exact ⟨k1, by rw [hth]; simp⟩
      · split <;> exact ⟨k1, by simp⟩
      · rw [if_pos k1]; exact ⟨k1, by simp⟩
      · exact ⟨k1, by rw [hth]; simp⟩
      · exact absurd hth k2) more _ x (fun _ _ => trivial) hx ⟨h2, by rw [h1]; simp⟩
  rw [hy] at g1
  cases g1
  exact g3 ht

/-- C97 is false of the code: it is not the server that must be sent the signal. However often the parent, whose number is in the process file, gets it, a session that had begun before goes on
waiting, file or not. -/
theorem C97_false_parent (acts more : List Act) (i : Nat) (hp : .sigParent ∉ acts) (hi : .sig i ∉ acts) (hw : Waits (run acts {}) i)
    (hm : .sig i ∉ more) : ¬ Switched (run (acts ++ more) {}) i := by
  obtain ⟨x, hx, -⟩ := hw
  rintro ⟨y, hy, ht⟩
  have hq := usr1_quiet acts i {} rfl (by intro x hx; simp at hx) hp hi x hx
  have e : run (acts ++ more) {} = run more (run acts {}) := by simp [run, List.foldl_append]
  rw [e] at hy
  obtain ⟨z, g1, g2⟩ := usr1_keeps (P := usr1Quiet) i (Q := fun a => a ≠ .sig i) (fun file x a ha hx => usr1Quiet_keeps i file x a ha hx) more _ x
    (fun a ha h => hm (h ▸ ha)) hx hq
  rw [hy] at g1
  cases g1
  rcases g2.2 with h1 | h1 <;> rw [h1] at ht <;> cases ht

/-- For instance: the file is there, the parent is sent the signal, and nothing happens. -/
example : Waits (run [.fork, .setup 0, .prepare 0] {}) 0 ∧
    ¬ Switched (run ([.fork, .setup 0, .prepare 0] ++ [.file, .sigParent, .wait 0, .sigParent, .wait 0]) {}) 0 :=
  ⟨⟨_, rfl, by decide⟩, C97_false_parent _ _ 0 (by decide) (by decide) ⟨_, rfl, by decide⟩ (by decide)⟩

/-- C97 is false of the code: after the parent was sent the signal, a session that begins does not wait, and its thread may come to use the table of saved blocks before there is one, and crash. -/
theorem C97_false_early : Crashed (run [.file, .sigParent, .fork, .setup 0, .wait 0, .wait 0, .wait 0] {}) 0 := ⟨_, rfl, by decide⟩

/-- C97 is false of the code: the diff file is never removed, neither when the session has gone over to the file nor when it ends. -/
theorem C97_false_diff (acts : List Act) (i : Nat) (x : Sess) (h : (run acts {}).sess[i]? = some x) (hm : x.map = true) : x.diff = true := by
  have gen : ∀ (bs : List Act) (s : State), (∀ x, s.sess[i]? = some x → x.map = true → x.diff = true) →
      ∀ x, (run bs s).sess[i]? = some x → x.map = true → x.diff = true := by
    intro bs
    induction bs with
    | nil => intro s h; exact h
    | cons a bs ih =>
      intro s hs
      refine ih (step s a) ?_
      intro y hy hym
      cases hx : s.sess[i]? with
      | none =>
        obtain ⟨-, rfl⟩ := usr1_new hx hy
        cases hym
      | some x =>
        rw [usr1_step hx] at hy
        cases hy
        have := hs x hx
        revert hym
        unfold usr1Own threadStep
        repeat' split
        all_goals first | exact this | (intro _; rfl)
  exact gen acts {} (by intro x hx; simp at hx) x h hm

example : (run [.file, .fork, .setup 0, .prepare 0, .sig 0, .wait 0, .wait 0, .wait 0, .finish 0] {}).sess =
    [⟨0, .switched, true, true, true⟩] := by decide

end Nbd.Props
