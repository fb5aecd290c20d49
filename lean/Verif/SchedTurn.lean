import Verif.Sched
/-!
# Schedules as lists of turns

`Step` as a function of who moves, to build concrete executions; nothing here is part of the
model of the code.
-/

set_option autoImplicit false

namespace Nbd

/-- Whose turn it is: the main thread, or a worker (`n`: how many bytes a `write` may take). -/
inductive Move where
  | main
  | work (i n : Nat)

def Session.turnMain {σ : Type} (v : Server σ) (sid : Nat) (sh : Shared σ) (s : Session σ) :
    Option (List Ext × Shared σ × Session σ) :=
  match s.main with
  | .reading =>
    if v.keeps s.stream then
      if sh.sem.isNone then
        some ([], { sh with sem := some sid }.record s.pos (v.header s.stream),
          { s with main := .payload, pos := s.pos + (v.header s.stream).length })
      else
        match v.take sh.st s.stream with
        | .ub => some ([], sh, { s with main := .broken })
        | .exit => some ([], sh, { s with main := .dead })
        | .val _ => none
    else
      match v.take sh.st s.stream with
      | .ub => some ([], sh, { s with main := .broken })
      | .exit => some ([], sh, { s with main := .dead })
      | .val (st, .gone) =>
        if v.logging && decide (28 ≤ s.stream.length) && sh.sem.isSome then none
        else if v.badMagic s.stream then
          if v.logging && sh.sem.isSome then none
          else some ([], sh.record s.pos (v.unlogged s), { s with main := .dead })
        else
          some ([], { sh with st := st }.record s.pos (v.unlogged s),
            { s with main := .closing, pos := s.pos + (v.unlogged s).length })
      | .val (st, f) =>
        if v.logging && sh.sem.isSome then none
        else if v.badMagic s.stream then
          some ([], sh.record s.pos (v.unlogged s), { s with main := .dead })
        else
          match f with
          | .push r p rest =>
            some ([.recv ⟨s.count, r, p⟩], { sh with st := st }.record s.pos (v.header s.stream),
              { s with stream := rest, count := s.count + 1, queue := s.queue ++ [⟨s.count, r, p⟩],
                       pos := s.pos + (v.header s.stream).length })
          | .disc rest =>
            some ([], { sh with st := st }.record s.pos (v.header s.stream),
              { s with stream := rest, main := .closing
                       pos := s.pos + (v.header s.stream).length })
          | .gone => none
  | .payload =>
    if v.badMagic s.stream then
      some ([], sh.record s.pos (v.unlogged s), { s with main := .dead })
    else
      match v.take sh.st s.stream with
      | .ub => some ([], sh, { s with main := .broken })
      | .exit => some ([], sh, { s with main := .dead })
      | .val (st, .push r (.data bs) rest) =>
        some ([.recv ⟨s.count, r, .data bs⟩], { sh with st := st, sem := none }.record s.pos bs,
          { s with stream := rest, main := .reading, count := s.count + 1
                   queue := s.queue ++ [⟨s.count, r, .data bs⟩], pos := s.pos + bs.length })
      | .val (st, .gone) =>
        some ([], { sh with st := st }.record s.pos (v.unlogged s),
          { s with main := .closing, pos := s.pos + (v.unlogged s).length })
      | _ => none
  | .closing =>
    if s.queue.isEmpty && s.workers.all (fun x => match x with | .idle _ => true | _ => false) then
      some ([], sh, { s with main := .over })
    else none
  | _ => none

def Session.turnWork {σ : Type} (v : Server σ) (sh : Shared σ) (s : Session σ) (i n : Nat) :
    Option (List Ext × Shared σ × Session σ) :=
  if s.main.alive then
    match s.workers[i]? with
    | none => none
    | some (.idle en) =>
      match s.queue with
      | [] => none
      | j :: q =>
        some ([], sh,
          { s with queue := q, workers := s.workers.set i (.busy j (v.code en j.req j.payload)) })
    | some (.busy j (.op f k)) =>
      match f sh.st with
      | .ub => some ([], sh, { s with main := .broken })
      | .exit => some ([], sh, { s with main := .dead })
      | .val (st, a) =>
        some ([], { sh with st := st }, { s with workers := s.workers.set i (.busy j (k a)) })
    | some (.busy j (.send m k)) =>
      if s.lock.isNone then
        some ([], sh, { s with lock := some i, workers := s.workers.set i (.sending j m m.bytes k) })
      else none
    | some (.busy j (.log bs k)) =>
      if sh.sem.isNone then
        some ([], sh.record s.pos bs,
          { s with pos := s.pos + bs.length, workers := s.workers.set i (.busy j k) })
      else none
    | some (.busy _ (.done en)) => some ([], sh, { s with workers := s.workers.set i (.idle en) })
    | some (.sending j m rest k) =>
      if n + 1 < rest.length then
        some ([], sh, { s with sock := s.sock ++ rest.take (n + 1)
                               workers := s.workers.set i (.sending j m (rest.drop (n + 1)) k) })
      else
        some ([.sent j.id m], sh, { s with lock := none, sock := s.sock ++ rest
                                           workers := s.workers.set i (.busy j k) })
  else none

def Session.turn {σ : Type} (v : Server σ) (sid : Nat) (sh : Shared σ) (s : Session σ) :
    Move → Option (List Ext × Shared σ × Session σ)
  | .main => s.turnMain v sid sh
  | .work i n => s.turnWork v sh i n

theorem isNone_eq {α : Type _} {o : Option α} (h : o.isNone = true) : o = none := by
  cases o with
  | none => rfl
  | some _ => cases h

theorem Session.turnMain_step {σ : Type} (v : Server σ) (sid : Nat) (sh : Shared σ)
    (s : Session σ) (evs : List Ext) (sh' : Shared σ) (s' : Session σ)
    (h : s.turnMain v sid sh = some (evs, sh', s')) : Step v sid sh s evs sh' s' := by
  unfold Session.turnMain at h
  split at h
  · rename_i hm
    split at h
    · rename_i hk
      split at h
      · rename_i hn
        cases h
        exact .hold sh s hm hk (isNone_eq hn)
      · split at h
        · rename_i ht
          cases h
          exact .takeFails sh s _ (.inl hm) (.inl ⟨ht, rfl⟩)
        · rename_i ht
          cases h
          exact .takeFails sh s _ (.inl hm) (.inr ⟨ht, rfl⟩)
        · cases h
    · rename_i hk
      have hk' : v.keeps s.stream = false := by simpa using hk
      split at h
      · rename_i ht
        cases h
        exact .takeFails sh s _ (.inl hm) (.inl ⟨ht, rfl⟩)
      · rename_i ht
        cases h
        exact .takeFails sh s _ (.inl hm) (.inr ⟨ht, rfl⟩)
      · rename_i st ht
        split at h
        · cases h
        · rename_i hn
          split at h
          · rename_i hb
            split at h
            · cases h
            · rename_i hn2
              have hsem : v.logging = true → sh.sem = none := by
                intro hl
                cases hs : sh.sem with
                | none => rfl
                | some x => exact absurd (by simp [hl, hs]) hn2
              cases h
              exact .magic sh s (.inl ⟨hm, hk', hsem⟩) hb
          · rename_i hb
            have hb' : v.badMagic s.stream = false := by simpa using hb
            cases h
            refine .gone sh s st (.inl ⟨hm, hk', fun hl h28 => ?_⟩) hb' ht
            cases hs : sh.sem with
            | none => rfl
            | some x => exact absurd (by simp [hl, hs, h28]) hn
      · rename_i st f hf ht
        split at h
        · cases h
        · rename_i hn
          have hsem : v.logging = true → sh.sem = none := by
            intro hl
            cases hs : sh.sem with
            | none => rfl
            | some x => exact absurd (by simp [hl, hs]) hn
          split at h
          · rename_i hb
            cases h
            exact .magic sh s (.inl ⟨hm, hk', hsem⟩) hb
          · rename_i hb
            split at h
            · cases h
              exact .accept sh s st _ _ _ hm hk' hsem ht
            · cases h
              exact .disc sh s st _ hm hk' hsem ht
            · cases h
  · rename_i hm
    split at h
    · rename_i hb
      cases h
      exact .magic sh s (.inr hm) hb
    · rename_i hb
      have hb' : v.badMagic s.stream = false := by simpa using hb
      split at h
      · rename_i ht
        cases h
        exact .takeFails sh s _ (.inr hm) (.inl ⟨ht, rfl⟩)
      · rename_i ht
        cases h
        exact .takeFails sh s _ (.inr hm) (.inr ⟨ht, rfl⟩)
      · rename_i ht
        cases h
        exact .acceptData sh s _ _ _ _ hm ht
      · rename_i ht
        cases h
        exact .gone sh s _ (.inr hm) hb' ht
      · cases h
  · rename_i hm
    split at h
    · rename_i hq
      cases h
      rw [Bool.and_eq_true] at hq
      refine .close sh s hm (List.isEmpty_iff.mp hq.1) ?_
      intro x hx
      have := List.all_eq_true.mp hq.2 x hx
      cases x with
      | idle en => exact ⟨en, rfl⟩
      | busy j p => cases this
      | sending j m r k => cases this
    · cases h
  · cases h

theorem Session.turnWork_step {σ : Type} (v : Server σ) (sid : Nat) (sh : Shared σ)
    (s : Session σ) (i n : Nat) (evs : List Ext) (sh' : Shared σ) (s' : Session σ)
    (h : s.turnWork v sh i n = some (evs, sh', s')) : Step v sid sh s evs sh' s' := by
  unfold Session.turnWork at h
  split at h
  · rename_i ha
    split at h
    · cases h
    · rename_i en hw
      split at h
      · cases h
      · rename_i j q hq
        cases h
        exact .start sh s i en j q ha hw hq
    · rename_i hw
      split at h
      · rename_i hf
        cases h
        exact .opFails sh s i _ _ _ _ ha hw (.inl ⟨hf, rfl⟩)
      · rename_i hf
        cases h
        exact .opFails sh s i _ _ _ _ ha hw (.inr ⟨hf, rfl⟩)
      · rename_i hf
        cases h
        exact .op sh s i _ _ _ _ _ ha hw hf
    · rename_i hw
      split at h
      · rename_i hn
        cases h
        exact .lock sh s i _ _ _ ha hw (isNone_eq hn)
      · cases h
    · rename_i hw
      split at h
      · rename_i hn
        cases h
        exact .log sh s i _ _ _ ha hw (isNone_eq hn)
      · cases h
    · rename_i hw
      cases h
      exact .finish sh s i _ _ ha hw
    · rename_i j m rest k hw
      split at h
      · rename_i hn
        cases h
        refine .write sh s i j m (rest.take (n + 1)) (rest.drop (n + 1)) k ha ?_ ?_ ?_
        · rw [List.take_append_drop]
          exact hw
        · intro h0
          have := congrArg List.length h0
          simp at this
          rw [this] at hn
          simp at hn
        · intro h0
          have := congrArg List.length h0
          simp at this
          omega
      · cases h
        exact .unlock sh s i _ _ _ _ ha hw
  · cases h

theorem Session.turn_step {σ : Type} (v : Server σ) (sid : Nat) (sh : Shared σ)
    (s : Session σ) (t : Move) (evs : List Ext) (sh' : Shared σ) (s' : Session σ)
    (h : s.turn v sid sh t = some (evs, sh', s')) : Step v sid sh s evs sh' s' := by
  cases t with
  | main => exact Session.turnMain_step v sid sh s evs sh' s' h
  | work i n => exact Session.turnWork_step v sid sh s i n evs sh' s' h

/-- A schedule: session and thread; a thread that cannot move is skipped. -/
def System.play {σ : Type} (v : Nat → Server σ) :
    List (Nat × Move) → List (Nat × Ext) → System σ → Option (List (Nat × Ext) × System σ)
  | [], tr, S => some (tr, S)
  | (sid, t) :: ts, tr, S =>
    match S.sessions[sid]? with
    | none => none
    | some s =>
      match s.turn (v sid) sid S.sh t with
      | none => System.play v ts tr S
      | some (evs, sh', s') =>
        System.play v ts (tr ++ evs.map (fun x => (sid, x))) ⟨sh', S.sessions.set sid s'⟩

theorem System.play_exec {σ : Type} (v : Nat → Server σ) (S0 : System σ) (ts : List (Nat × Move))
    (tr tr' : List (Nat × Ext)) (S T : System σ) (h0 : Exec v S0 tr S)
    (h : System.play v ts tr S = some (tr', T)) : Exec v S0 tr' T := by
  induction ts generalizing tr S with
  | nil => cases h; exact h0
  | cons x ts ih =>
    obtain ⟨sid, t⟩ := x
    unfold System.play at h
    split at h
    · cases h
    · rename_i s hs
      split at h
      · exact ih _ _ h0 h
      · rename_i evs sh' s' ht
        exact ih _ _ (.step tr S sid s s' evs sh' h0 hs (Session.turn_step _ _ _ _ _ _ _ _ ht)) h

/-- A schedule from the start. -/
theorem System.play_start {σ : Type} (v : Nat → Server σ) (S : System σ) (ts : List (Nat × Move))
    (x : List (Nat × Ext) × System σ) (h : System.play v ts [] S = some x) : Exec v S x.1 x.2 :=
  System.play_exec v S ts [] x.1 S x.2 .nil h

/-- What a schedule leads to meets a condition that can be computed. -/
theorem System.play_check {σ : Type} (v : Nat → Server σ) (S : System σ) (ts : List (Nat × Move))
    (c : List (Nat × Ext) → System σ → Bool)
    (h : (match System.play v ts [] S with | some (tr, T) => c tr T | none => false) = true) :
    ∃ tr T, Exec v S tr T ∧ c tr T = true := by
  split at h
  · rename_i tr T ht
    exact ⟨tr, T, System.play_start v S ts _ ht, h⟩
  · cases h

/-! ### When nobody can move -/

/-- Every step is somebody's turn. -/
theorem Step.turn_some {σ : Type} {v : Server σ} {sid : Nat} {sh sh' : Shared σ}
    {s s' : Session σ} {evs : List Ext} (h : Step v sid sh s evs sh' s') :
    (s.turnMain v sid sh).isSome = true ∨
      ∃ i, i < s.workers.length ∧ (s.turnWork v sh i 0).isSome = true := by
  have lt : ∀ {i : Nat} {x : Worker σ}, s.workers[i]? = some x → i < s.workers.length :=
    fun h => (List.getElem?_eq_some_iff.mp h).1
  cases h with
  | accept st r p rest hm hk hsem h =>
    left
    unfold Session.turnMain
    simp only [hm, hk, h, Bool.false_eq_true, if_false]
    split
    · rename_i hh
      simp only [Bool.and_eq_true] at hh
      rw [hsem hh.1] at hh
      simp at hh
    · split <;> rfl
  | hold hm hk hsem =>
    left
    unfold Session.turnMain
    simp only [hm, hk, hsem]
    rfl
  | acceptData st r bs rest hm h =>
    left
    unfold Session.turnMain
    simp only [hm, h]
    split <;> rfl
  | magic hm hb =>
    left
    unfold Session.turnMain
    rcases hm with ⟨hm, hk, hsem⟩ | hm
    · simp only [hm, hk, hb, if_true, Bool.false_eq_true, if_false]
      split
      · rfl
      · rfl
      · split
        · rename_i hh
          simp only [Bool.and_eq_true] at hh
          rw [hsem hh.1.1] at hh
          simp at hh
        · split
          · rename_i hh
            simp only [Bool.and_eq_true] at hh
            rw [hsem hh.1] at hh
            simp at hh
          · rfl
      · split
        · rename_i hh
          simp only [Bool.and_eq_true] at hh
          rw [hsem hh.1] at hh
          simp at hh
        · rfl
    · simp only [hm, hb, if_true]
      rfl
  | gone st hm hb h =>
    left
    unfold Session.turnMain
    rcases hm with ⟨hm, hk, hsem⟩ | hm
    · simp only [hm, hk, hb, h, Bool.false_eq_true, if_false]
      split
      · rename_i hh
        simp only [Bool.and_eq_true, decide_eq_true_eq] at hh
        rw [hsem hh.1.1 hh.1.2] at hh
        simp at hh
      · rfl
    · simp only [hm, hb, h, Bool.false_eq_true, if_false]
      rfl
  | disc st rest hm hk hsem h =>
    left
    unfold Session.turnMain
    simp only [hm, hk, h, Bool.false_eq_true, if_false]
    split
    · rename_i hh
      simp only [Bool.and_eq_true] at hh
      rw [hsem hh.1] at hh
      simp at hh
    · split <;> rfl
  | takeFails ph hm h =>
    left
    unfold Session.turnMain
    rcases hm with hm | hm <;> simp only [hm] <;> rcases h with ⟨h, _⟩ | ⟨h, _⟩ <;>
      simp only [h] <;> split
    · split <;> rfl
    · rfl
    · split <;> rfl
    · rfl
    · rfl
    · rfl
    · rfl
    · rfl
  | close hm hq hw =>
    left
    unfold Session.turnMain
    simp only [hm, hq]
    rw [if_pos]
    · rfl
    · simp only [List.isEmpty_nil, Bool.true_and, List.all_eq_true]
      intro x hx
      obtain ⟨en, rfl⟩ := hw x hx
      rfl
  | start i en j q ha hw hq =>
    right
    refine ⟨i, lt hw, ?_⟩
    unfold Session.turnWork
    simp only [ha, hw, hq, if_true]
    rfl
  | op i j f k st a ha hw h =>
    right
    refine ⟨i, lt hw, ?_⟩
    unfold Session.turnWork
    simp only [ha, hw, h, if_true]
    rfl
  | opFails i j f k ph ha hw h =>
    right
    refine ⟨i, lt hw, ?_⟩
    unfold Session.turnWork
    rcases h with ⟨h, _⟩ | ⟨h, _⟩ <;> simp only [ha, hw, h, if_true] <;> rfl
  | lock i j m k ha hw hl =>
    right
    refine ⟨i, lt hw, ?_⟩
    unfold Session.turnWork
    simp only [ha, hw, hl, if_true]
    rfl
  | write i j m xs ys k ha hw hx hy =>
    right
    refine ⟨i, lt hw, ?_⟩
    unfold Session.turnWork
    simp only [ha, hw, if_true]
    split <;> rfl
  | unlock i j m rest k ha hw =>
    right
    refine ⟨i, lt hw, ?_⟩
    unfold Session.turnWork
    simp only [ha, hw, if_true]
    split <;> rfl
  | log i j bs k ha hw hsem =>
    right
    refine ⟨i, lt hw, ?_⟩
    unfold Session.turnWork
    simp only [ha, hw, hsem, if_true]
    rfl
  | finish i j en ha hw =>
    right
    refine ⟨i, lt hw, ?_⟩
    unfold Session.turnWork
    simp only [ha, hw, if_true]
    rfl

/-- Nobody can take a turn. -/
def System.stuck {σ : Type} (v : Nat → Server σ) (T : System σ) : Bool :=
  (List.range T.sessions.length).all fun sid =>
    match T.sessions[sid]? with
    | none => true
    | some s => (s.turnMain (v sid) sid T.sh).isNone &&
        (List.range s.workers.length).all fun i => (s.turnWork (v sid) T.sh i 0).isNone

theorem System.stuck_sound {σ : Type} {v : Nat → Server σ} {T : System σ}
    (h : T.stuck v = true) (sid : Nat) (s : Session σ) (hs : T.sessions[sid]? = some s)
    (evs : List Ext) (sh' : Shared σ) (s' : Session σ) :
    ¬ Step (v sid) sid T.sh s evs sh' s' := by
  intro h1
  have := List.all_eq_true.mp h sid
    (List.mem_range.mpr (List.getElem?_eq_some_iff.mp hs).1)
  rw [hs] at this
  simp only [Bool.and_eq_true] at this
  rcases h1.turn_some with h2 | ⟨i, hi, h2⟩
  · rw [isNone_eq this.1] at h2; cases h2
  · rw [isNone_eq (List.all_eq_true.mp this.2 i (List.mem_range.mpr hi))] at h2; cases h2

end Nbd
