import Verif.SchedRun
/-! # Sessions end -/

set_option autoImplicit false

namespace Nbd

section
variable {σ : Type}

/-! ### Every execution ends -/

/-- One step of one session, whatever the state of what it shares with others. -/
def Smaller (v : Server σ) (sid : Nat) (s' s : Session σ) : Prop :=
  ∃ sh evs sh', Step v sid sh s evs sh' s'

/-- What a thread can turn into by going on with its request. -/
inductive WStep : Worker σ → Worker σ → Prop where
  | op (j : Job) {α : Type} (f : σ → Out (σ × α)) (k : α → Prog σ) (a : α) :
      WStep (.busy j (k a)) (.busy j (.op f k))
  | lock (j : Job) (m : Msg) (k : Prog σ) : WStep (.sending j m m.bytes k) (.busy j (.send m k))
  | write (j : Job) (m : Msg) (xs ys : List Byte) (k : Prog σ) (hx : xs ≠ []) :
      WStep (.sending j m ys k) (.sending j m (xs ++ ys) k)
  | unlock (j : Job) (m : Msg) (rest : List Byte) (k : Prog σ) :
      WStep (.busy j k) (.sending j m rest k)
  | log (j : Job) (bs : List Byte) (k : Prog σ) : WStep (.busy j k) (.busy j (.log bs k))
  | finish (j : Job) (en : Nat) : WStep (.idle en) (.busy j (.done en))

theorem wstep_idle (en : Nat) : Acc WStep (Worker.idle (σ := σ) en) :=
  ⟨_, fun y h => by cases h⟩

theorem wstep_sending (j : Job) (m : Msg) (k : Prog σ) (hk : Acc WStep (Worker.busy j k)) (n : Nat) :
    ∀ rest : List Byte, rest.length = n → Acc WStep (Worker.sending j m rest k) := by
  induction n using Nat.strongRecOn with
  | _ n ih =>
    intro rest hn
    refine ⟨_, fun y h => ?_⟩
    generalize hx : Worker.sending j m rest k = x at h
    cases h with
    | op => cases hx
    | lock => cases hx
    | write j' m' xs ys k' hne =>
      cases hx
      refine ih ys.length ?_ ys rfl
      cases xs with
      | nil => exact absurd rfl hne
      | cons a xs => rw [← hn]; simp only [List.length_append, List.length_cons]; omega
    | unlock => cases hx; exact hk
    | log => cases hx
    | finish => cases hx

theorem wstep_busy (j : Job) (p : Prog σ) : Acc WStep (Worker.busy j p) := by
  induction p with
  | done en =>
    refine ⟨_, fun y h => ?_⟩
    generalize hx : Worker.busy j (Prog.done en) = x at h
    cases h <;> cases hx
    exact wstep_idle _
  | op f k ih =>
    refine ⟨_, fun y h => ?_⟩
    generalize hx : Worker.busy j (Prog.op f k) = x at h
    cases h <;> cases hx
    exact ih _
  | send m k ih =>
    refine ⟨_, fun y h => ?_⟩
    generalize hx : Worker.busy j (Prog.send m k) = x at h
    cases h <;> cases hx
    exact wstep_sending j m k ih _ _ rfl
  | log bs k ih =>
    refine ⟨_, fun y h => ?_⟩
    generalize hx : Worker.busy j (Prog.log bs k) = x at h
    cases h <;> cases hx
    exact ih

theorem wstep_acc (x : Worker σ) : Acc WStep x := by
  cases x with
  | idle en => exact wstep_idle en
  | busy j p => exact wstep_busy j p
  | sending j m rest k => exact wstep_sending j m k (wstep_busy j k) _ _ rfl

/-- One element of a list is replaced by a smaller one. -/
inductive ListStep {α : Type _} (r : Nat → α → α → Prop) : Nat → List α → List α → Prop where
  | here (n : Nat) (a b : α) (l : List α) (h : r n b a) : ListStep r n (b :: l) (a :: l)
  | there (n : Nat) (a : α) (l m : List α) (h : ListStep r (n + 1) m l) :
      ListStep r n (a :: m) (a :: l)

theorem listStep_acc {α : Type _} {r : Nat → α → α → Prop} (l : List α) :
    ∀ n, (∀ (i : Nat) (a : α), l[i]? = some a → Acc (r (n + i)) a) → Acc (ListStep r n) l := by
  induction l with
  | nil => intro n _; exact ⟨_, fun y h => by cases h⟩
  | cons a l ih =>
    intro n h
    have ha : Acc (r n) a := h 0 a rfl
    have hl : Acc (ListStep r (n + 1)) l := ih (n + 1) (fun i b hb => by
      have := h (i + 1) b hb
      rwa [show n + (i + 1) = n + 1 + i by omega] at this)
    clear ih h
    induction ha generalizing l with
    | intro a _ iha =>
      induction hl with
      | intro l hl0 ihl =>
        refine ⟨_, fun y hy => ?_⟩
        cases hy with
        | here _ _ b _ hb => exact iha b hb l ⟨_, hl0⟩
        | there _ _ _ m hm => exact ihl m hm

theorem listStep_set {α : Type _} {r : Nat → α → α → Prop} {l : List α} {i : Nat} {a b : α}
    (hl : l[i]? = some a) (n : Nat) (h : r (n + i) b a) : ListStep r n (l.set i b) l := by
  induction l generalizing i n with
  | nil => simp at hl
  | cons x l ih =>
    cases i with
    | zero => simp at hl; subst hl; exact .here _ _ _ _ h
    | succ i =>
      simp at hl
      exact .there _ _ _ _ (ih hl (n + 1) (by rwa [show n + 1 + i = n + (i + 1) by omega]))

/-- Requests are taken off the stream. -/
structure Server.Shrinks (v : Server σ) : Prop where
  push : ∀ st st' stream r p rest, v.take st stream = .val (st', .push r p rest) →
    rest.length < stream.length
  disc : ∀ st st' stream rest, v.take st stream = .val (st', .disc rest) →
    rest.length ≤ stream.length

/-- How much the main thread can still do. -/
def Session.left (s : Session σ) : Nat :=
  2 * s.stream.length + match s.main with
    | .reading => 3
    | .payload => 2
    | .closing => 1
    | _ => 0

/-- Every step of a session makes it smaller in this order: what the main thread can still do, the
requests in the queue, what the threads have to do. -/
theorem Smaller.cases {v : Server σ} (hv : v.Shrinks) {sid : Nat} {s s' : Session σ}
    (h : Smaller v sid s' s) :
    s'.left < s.left ∨ (s'.left = s.left ∧ s'.queue.length < s.queue.length) ∨
      (s'.left = s.left ∧ s'.queue.length = s.queue.length ∧
        ListStep (fun _ => WStep) 0 s'.workers s.workers) := by
  obtain ⟨sh, evs, sh', h⟩ := h
  cases h with
  | accept st r p rest hm hk hsem h =>
    have := hv.push _ _ _ _ _ _ h
    left; simp only [Session.left, hm]; omega
  | hold hm hk hsem => left; simp only [Session.left, hm]; omega
  | acceptData st r bs rest hm h =>
    have := hv.push _ _ _ _ _ _ h
    left; simp only [Session.left, hm]; omega
  | magic hm hb =>
    left
    rcases hm with ⟨hm, _⟩ | hm <;> simp only [Session.left, hm] <;> omega
  | gone st hm hb h =>
    left
    rcases hm with ⟨hm, _⟩ | hm <;> simp only [Session.left, hm] <;> omega
  | disc st rest hm hk hsem h =>
    have := hv.disc _ _ _ _ h
    left; simp only [Session.left, hm]; omega
  | takeFails ph hm h =>
    left
    rcases h with ⟨_, rfl⟩ | ⟨_, rfl⟩ <;> rcases hm with hm | hm <;>
      simp only [Session.left, hm] <;> omega
  | close hm hq hw => left; simp only [Session.left, hm]; omega
  | start i en j q ha hw hq => right; left; exact ⟨rfl, by rw [hq]; simp⟩
  | op i j f k st a ha hw h =>
    exact .inr (.inr ⟨rfl, rfl, listStep_set hw 0 (.op j f k a)⟩)
  | opFails i j f k ph ha hw h =>
    left
    have hd : ph = .broken ∨ ph = .dead := by
      rcases h with ⟨_, rfl⟩ | ⟨_, rfl⟩
      · exact .inl rfl
      · exact .inr rfl
    cases hm : s.main <;> rw [hm] at ha <;> try cases ha
    all_goals rcases hd with rfl | rfl <;> simp only [Session.left, hm] <;> omega
  | lock i j m k ha hw hl => exact .inr (.inr ⟨rfl, rfl, listStep_set hw 0 (.lock j m k)⟩)
  | write i j m xs ys k ha hw hx hy =>
    exact .inr (.inr ⟨rfl, rfl, listStep_set hw 0 (.write j m xs ys k hx)⟩)
  | unlock i j m rest k ha hw => exact .inr (.inr ⟨rfl, rfl, listStep_set hw 0 (.unlock j m rest k)⟩)
  | log i j bs k ha hw hsem => exact .inr (.inr ⟨rfl, rfl, listStep_set hw 0 (.log j bs k)⟩)
  | finish i j en ha hw => exact .inr (.inr ⟨rfl, rfl, listStep_set hw 0 (.finish j en)⟩)

theorem smaller_acc {v : Server σ} (hv : v.Shrinks) (sid : Nat) (n : Nat) :
    ∀ q (s : Session σ), s.left = n → s.queue.length = q → Acc (Smaller v sid) s := by
  induction n using Nat.strongRecOn with
  | _ n ihn =>
    intro q
    induction q using Nat.strongRecOn with
    | _ q ihq =>
      intro s hn hq
      have hw : Acc (ListStep (fun _ => WStep) 0) s.workers :=
        listStep_acc _ _ (fun _ a _ => wstep_acc a)
      generalize hws : s.workers = ws at hw
      induction hw generalizing s with
      | intro ws _ ihw =>
        refine ⟨_, fun s' h => ?_⟩
        rcases h.cases hv with h | ⟨h1, h2⟩ | ⟨h1, h2, h3⟩
        · exact ihn _ (by omega) _ s' rfl rfl
        · exact ihq _ (by omega) s' (by omega) rfl
        · exact ihw s'.workers (by rw [← hws]; exact h3) s' (by omega) (by omega) rfl

/-- One step of a system. -/
def System.Next (v : Nat → Server σ) (T S : System σ) : Prop :=
  ∃ sid s s' evs sh', S.sessions[sid]? = some s ∧ Step (v sid) sid S.sh s evs sh' s' ∧
    T = ⟨sh', S.sessions.set sid s'⟩

theorem next_acc {v : Nat → Server σ} (hv : ∀ sid, (v sid).Shrinks) (S : System σ) :
    Acc (System.Next v) S := by
  have hs : Acc (ListStep (fun sid => Smaller (v sid) sid) 0) S.sessions :=
    listStep_acc _ _ (fun i a _ => by rw [Nat.zero_add]; exact smaller_acc (hv i) i _ _ a rfl rfl)
  generalize hl : S.sessions = l at hs
  induction hs generalizing S with
  | intro l _ ih =>
    refine ⟨_, fun T h => ?_⟩
    obtain ⟨sid, s, s', evs, sh', h1, h2, rfl⟩ := h
    refine ih _ ?_ _ rfl
    rw [← hl]
    refine listStep_set h1 0 ?_
    rw [Nat.zero_add]
    exact ⟨_, _, _, h2⟩

/-! ### No session is ever stuck -/

/-- The thread that holds the lock is sending. -/
def Session.Locked (s : Session σ) : Prop :=
  ∀ i, s.lock = some i → ∃ j m rest k, s.workers[i]? = some (.sending j m rest k)

theorem Session.Locked.set {s s' : Session σ} (hl : s.Locked) {i : Nat} {x : Worker σ}
    (hw : s.workers[i]? = some x) (hx : ∀ j m rest k, x ≠ .sending j m rest k) {y : Worker σ}
    (h1 : s'.lock = s.lock) (h2 : s'.workers = s.workers.set i y) : s'.Locked := by
  intro i' hi'
  rw [h1] at hi'
  obtain ⟨j, m, rest, k, h⟩ := hl i' hi'
  refine ⟨j, m, rest, k, ?_⟩
  rw [h2]
  have hne : i ≠ i' := by
    intro hh
    subst hh
    rw [hw] at h
    exact hx _ _ _ _ (Option.some.inj h)
  rw [List.getElem?_set_ne hne, h]

theorem Step.locked {v : Server σ} {sid : Nat} {sh sh' : Shared σ} {s s' : Session σ}
    {evs : List Ext} (h : Step v sid sh s evs sh' s') (hl : s.Locked) : s'.Locked := by
  cases h with
  | accept st r p rest hm hk hsem h => exact hl
  | hold hm hk hsem => exact hl
  | acceptData st r bs rest hm h => exact hl
  | magic hm hb => exact hl
  | gone st hm hb h => exact hl
  | disc st rest hm hk hsem h => exact hl
  | takeFails ph hm h => exact hl
  | close hm hq hw => exact hl
  | start i en j q ha hw hq => exact hl.set hw (fun _ _ _ _ h => by cases h) rfl rfl
  | op i j f k st a ha hw h => exact hl.set hw (fun _ _ _ _ h => by cases h) rfl rfl
  | opFails i j f k ph ha hw h => exact hl
  | lock i j m k ha hw hlk =>
    intro i' hi'
    cases hi'
    exact ⟨j, m, m.bytes, k, List.getElem?_set_self (List.getElem?_eq_some_iff.mp hw).1⟩
  | write i j m xs ys k ha hw hx hy =>
    intro i' hi'
    by_cases hii : i = i'
    · subst hii
      exact ⟨j, m, ys, k, List.getElem?_set_self (List.getElem?_eq_some_iff.mp hw).1⟩
    · obtain ⟨j', m', rest', k', h⟩ := hl i' hi'
      exact ⟨j', m', rest', k', by rw [← h]; exact List.getElem?_set_ne hii⟩
  | unlock i j m rest k ha hw => intro i' hi'; cases hi'
  | log i j bs k ha hw hsem => exact hl.set hw (fun _ _ _ _ h => by cases h) rfl rfl
  | finish i j en ha hw => exact hl.set hw (fun _ _ _ _ h => by cases h) rfl rfl

/-- If nobody keeps the semaphore, it is free and no main thread is inside a write request. -/
theorem Step.free {v : Server σ} (hk : ∀ stream, v.keeps stream = false) {sid : Nat}
    {sh sh' : Shared σ} {s s' : Session σ} {evs : List Ext} (h : Step v sid sh s evs sh' s')
    (hsem : sh.sem = none) (hm : s.main ≠ .payload) : sh'.sem = none ∧ s'.main ≠ .payload := by
  cases h with
  | accept st r p rest hm' hk' hsem' h => exact ⟨hsem, hm⟩
  | hold hm' hk' hsem' => rw [hk] at hk'; cases hk'
  | acceptData st r bs rest hm' h => exact absurd hm' hm
  | magic hm' hb => exact ⟨hsem, by simp⟩
  | gone st hm' hb h => exact ⟨hsem, by simp⟩
  | disc st rest hm' hk' hsem' h => exact ⟨hsem, by simp⟩
  | takeFails ph hm' h => rcases h with ⟨_, rfl⟩ | ⟨_, rfl⟩ <;> exact ⟨hsem, by simp⟩
  | close hm' hq hw => exact ⟨hsem, by simp⟩
  | start i en j q ha hw hq => exact ⟨hsem, hm⟩
  | op i j f k st a ha hw h => exact ⟨hsem, hm⟩
  | opFails i j f k ph ha hw h => rcases h with ⟨_, rfl⟩ | ⟨_, rfl⟩ <;> exact ⟨hsem, by simp⟩
  | lock i j m k ha hw hlk => exact ⟨hsem, hm⟩
  | write i j m xs ys k ha hw hx hy => exact ⟨hsem, hm⟩
  | unlock i j m rest k ha hw => exact ⟨hsem, hm⟩
  | log i j bs k ha hw hsem' => exact ⟨hsem, hm⟩
  | finish i j en ha hw => exact ⟨hsem, hm⟩

theorem Exec.free {v : Nat → Server σ} (hk : ∀ sid stream, (v sid).keeps stream = false)
    {S T : System σ} {tr : List (Nat × Ext)} (hsem : S.sh.sem = none)
    (hf : ∀ s ∈ S.sessions, s.Fresh) (hx : Exec v S tr T) :
    T.sh.sem = none ∧ ∀ s ∈ T.sessions, s.main ≠ .payload := by
  induction hx with
  | nil =>
    refine ⟨hsem, fun s hs => ?_⟩
    obtain ⟨_, _, _, rfl⟩ := hf s hs
    simp [Session.fresh]
  | step tr T sid s s' evs sh' h hs h1 ih =>
    obtain ⟨h2, h3⟩ := h1.free (hk sid) ih.1 (ih.2 s (List.mem_of_getElem? hs))
    refine ⟨h2, fun x hx => ?_⟩
    rcases List.mem_or_eq_of_mem_set hx with hx | rfl
    · exact ih.2 x hx
    · exact h3

theorem Exec.locked {v : Nat → Server σ} {S T : System σ} {tr : List (Nat × Ext)}
    (hf : ∀ s ∈ S.sessions, s.Fresh) (hx : Exec v S tr T) :
    ∀ (sid : Nat) s, T.sessions[sid]? = some s → s.Locked :=
  hx.always (I := fun _ s => s.Locked) (fun _ _ _ _ _ _ h hi => h.locked hi)
    (fun _ s hs => by
      obtain ⟨_, _, _, rfl⟩ := hf s (List.mem_of_getElem? hs)
      intro i hi
      cases hi)

/-- The number of threads does not change. -/
theorem Step.threads {v : Server σ} {sid : Nat} {sh sh' : Shared σ} {s s' : Session σ}
    {evs : List Ext} (h : Step v sid sh s evs sh' s') : s'.workers.length = s.workers.length := by
  cases h <;> simp

theorem Exec.threads {v : Nat → Server σ} {S T : System σ} {tr : List (Nat × Ext)}
    (hw : ∀ s ∈ S.sessions, s.workers ≠ []) (hx : Exec v S tr T) :
    ∀ (sid : Nat) s, T.sessions[sid]? = some s → s.workers ≠ [] :=
  hx.always (I := fun _ s => s.workers ≠ [])
    (fun _ _ _ s s' _ h hi => by
      have := h.threads
      intro h0
      rw [h0] at this
      exact hi (List.length_eq_zero_iff.mp this.symm))
    (fun _ s hs => hw s (List.mem_of_getElem? hs))

/-- A thread that is not idle can go on, or the one that holds the lock can. -/
theorem Step.worker (v : Server σ) (sid : Nat) (sh : Shared σ) (s : Session σ)
    (ha : s.main.alive = true) (hsem : sh.sem = none) (hl : s.Locked) {i : Nat} {x : Worker σ}
    (hw : s.workers[i]? = some x) (hx : ∀ en, x ≠ .idle en) :
    ∃ evs sh' s', Step v sid sh s evs sh' s' := by
  cases x with
  | idle en => exact absurd rfl (hx en)
  | sending j m rest k => exact ⟨_, _, _, .unlock sh s i j m rest k ha hw⟩
  | busy j p =>
    cases p with
    | done en => exact ⟨_, _, _, .finish sh s i j en ha hw⟩
    | op f k =>
      cases hf : f sh.st with
      | ub => exact ⟨_, _, _, .opFails sh s i j f k .broken ha hw (.inl ⟨hf, rfl⟩)⟩
      | exit => exact ⟨_, _, _, .opFails sh s i j f k .dead ha hw (.inr ⟨hf, rfl⟩)⟩
      | val y => exact ⟨_, _, _, .op sh s i j f k y.1 y.2 ha hw hf⟩
    | send m k =>
      cases hlk : s.lock with
      | none => exact ⟨_, _, _, .lock sh s i j m k ha hw hlk⟩
      | some i' =>
        obtain ⟨j', m', rest', k', h⟩ := hl i' hlk
        exact ⟨_, _, _, .unlock sh s i' j' m' rest' k' ha h⟩
    | log bs k => exact ⟨_, _, _, .log sh s i j bs k ha hw hsem⟩

/-- A session that has not ended can go on by itself. -/
theorem Step.progress (v : Server σ) (sid : Nat) (sh : Shared σ) (s : Session σ)
    (hk : v.keeps s.stream = false) (ha : s.main.alive = true) (hsem : sh.sem = none)
    (hm : s.main ≠ .payload) (hl : s.Locked) (hw : s.workers ≠ []) :
    ∃ evs sh' s', Step v sid sh s evs sh' s' := by
  cases hmain : s.main with
  | payload => exact absurd hmain hm
  | over => rw [hmain] at ha; cases ha
  | dead => rw [hmain] at ha; cases ha
  | broken => rw [hmain] at ha; cases ha
  | reading =>
    cases ht : v.take sh.st s.stream with
    | ub => exact ⟨_, _, _, .takeFails sh s .broken (.inl hmain) (.inl ⟨ht, rfl⟩)⟩
    | exit => exact ⟨_, _, _, .takeFails sh s .dead (.inl hmain) (.inr ⟨ht, rfl⟩)⟩
    | val x =>
      obtain ⟨st, x⟩ := x
      cases hb : v.badMagic s.stream with
      | true => exact ⟨_, _, _, .magic sh s (.inl ⟨hmain, hk, fun _ => hsem⟩) hb⟩
      | false =>
        cases x with
        | push r p rest => exact ⟨_, _, _, .accept sh s st r p rest hmain hk (fun _ => hsem) ht⟩
        | gone => exact ⟨_, _, _, .gone sh s st (.inl ⟨hmain, hk, fun _ _ => hsem⟩) hb ht⟩
        | disc rest => exact ⟨_, _, _, .disc sh s st rest hmain hk (fun _ => hsem) ht⟩
  | closing =>
    by_cases hidle : ∀ x ∈ s.workers, ∃ en, x = .idle en
    · cases hq : s.queue with
      | nil => exact ⟨_, _, _, .close sh s hmain hq hidle⟩
      | cons j q =>
        cases hws : s.workers with
        | nil => exact absurd hws hw
        | cons x xs =>
          obtain ⟨en, rfl⟩ := hidle x (by rw [hws]; exact List.mem_cons_self)
          exact ⟨_, _, _, .start sh s 0 en j q ha (by rw [hws]; rfl) hq⟩
    · obtain ⟨x, hidle⟩ := Classical.not_forall.mp hidle
      obtain ⟨hx, hne⟩ := Classical.not_imp.mp hidle
      obtain ⟨i, hi⟩ := List.getElem?_of_mem hx
      exact Step.worker v sid sh s ha hsem hl hi (fun en he => hne ⟨en, he⟩)

end

/-! ### The servers -/

theorem fetch_disc_le (e : Endian) (cl : Client) (w w' : World) (stream rest : List Byte)
    (h : fetch e cl w stream = .val (w', .disc rest)) : rest.length ≤ stream.length := by
  unfold fetch at h
  split at h
  · cases h
  · dsimp only at h
    split at h
    · cases h
    · split at h
      · generalize (if has cl.ex.flags F_SPLICE = true then _ else _ : World × Bool) = mp at h
        split at h
        · cases h
        · split at h
          · cases h
          · split at h <;> cases h
      · split at h
        · cases h
          rw [List.length_drop]; omega
        · cases h

theorem plainServer_shrinks (e : Endian) (cl : Client) (lg : Bool) :
    (plainServer e cl lg).Shrinks :=
  ⟨fun _ _ _ _ _ _ h => fetch_push_lt _ _ _ _ _ _ _ _ h, fun _ _ _ _ h => fetch_disc_le _ _ _ _ _ _ h⟩

theorem anyServer_shrinks (e : Endian) (cl : Client) (lg : Bool) :
    (anyServer e cl lg).Shrinks := by
  constructor
  · intro st st' stream r p rest h
    change (match fetch e st.1 st.2 stream with
      | .ub => Out.ub
      | .exit => .exit
      | .val (w, f) => .val ((st.1, w), f)) = _ at h
    split at h
    · cases h
    · cases h
    · rename_i hf
      cases h
      exact fetch_push_lt _ _ _ _ _ _ _ _ hf
  · intro st st' stream rest h
    change (match fetch e st.1 st.2 stream with
      | .ub => Out.ub
      | .exit => .exit
      | .val (w, f) => .val ((st.1, w), f)) = _ at h
    split at h
    · cases h
    · cases h
    · rename_i hf
      cases h
      exact fetch_disc_le _ _ _ _ _ _ hf

end Nbd
