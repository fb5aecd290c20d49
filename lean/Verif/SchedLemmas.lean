import Verif.Sched
import Verif.Spec
/-! # Every interleaving of worker threads is a history of accesses and messages -/

set_option autoImplicit false

namespace Nbd

namespace Spec

/-- What a request does, step by step: it sees a byte of the export, changes a byte of the export,
or sends a message. -/
inductive Act where
  | get (i : Nat) (b : Byte)
  | put (i : Nat) (b : Byte)
  | msg (m : Msg)

/-- `Legal f l g`: done in this order on an array that is `f` at first, every `get` sees what is
there, and the array is `g` afterwards. -/
inductive Legal : Flat → List Act → Flat → Prop where
  | nil (f : Flat) : Legal f [] f
  | get (f g : Flat) (i : Nat) (b : Byte) (l : List Act) (hb : f i = b) (h : Legal f l g) :
      Legal f (.get i b :: l) g
  | put (f g : Flat) (i : Nat) (b : Byte) (l : List Act) (h : Legal (f.write i [b]) l g) :
      Legal f (.put i b :: l) g
  | msg (f g : Flat) (m : Msg) (l : List Act) (h : Legal f l g) : Legal f (.msg m :: l) g

/-- An event of a history: session `sid` reads a request, or does something for its request
number `jid`. -/
inductive Ev where
  | recv (sid : Nat) (j : Job)
  | act (sid jid : Nat) (x : Act)

/-- What can be seen of a history on the connections. -/
def visible : List Ev → List (Nat × Ext)
  | [] => []
  | .recv sid j :: h => (sid, .recv j) :: visible h
  | .act sid jid (.msg m) :: h => (sid, .sent jid m) :: visible h
  | .act _ _ (.get _ _) :: h => visible h
  | .act _ _ (.put _ _) :: h => visible h

/-- Everything done in a history, in order. -/
def acts : List Ev → List Act
  | [] => []
  | .recv _ _ :: h => acts h
  | .act _ _ x :: h => x :: acts h

/-- What was done for request `jid` of session `sid`. -/
def mine (sid jid : Nat) : List Ev → List Act
  | [] => []
  | .recv _ _ :: h => mine sid jid h
  | .act s j x :: h => if s = sid ∧ j = jid then x :: mine sid jid h else mine sid jid h

/-- The requests session `sid` has read. -/
def recvs (sid : Nat) : List Ev → List Job
  | [] => []
  | .recv s j :: h => if s = sid then j :: recvs sid h else recvs sid h
  | .act _ _ _ :: h => recvs sid h

/-- The messages session `sid` has sent, with the request they belong to. -/
def sends (sid : Nat) : List Ev → List (Nat × Msg)
  | [] => []
  | .recv _ _ :: h => sends sid h
  | .act s j (.msg m) :: h => if s = sid then (j, m) :: sends sid h else sends sid h
  | .act _ _ (.get _ _) :: h => sends sid h
  | .act _ _ (.put _ _) :: h => sends sid h

/-- Nothing is done for a request before it has been read. -/
def Causal (h : List Ev) : Prop :=
  ∀ pre sid jid x post, h = pre ++ .act sid jid x :: post → ∃ j ∈ recvs sid pre, j.id = jid

end Spec

open Spec

theorem Legal.append {f g k : Flat} {l m : List Act} (h1 : Legal f l g) (h2 : Legal g m k) :
    Legal f (l ++ m) k := by
  induction h1 with
  | nil => exact h2
  | get f g i b l hb h ih => exact .get _ _ _ _ _ hb (ih h2)
  | put f g i b l h ih => exact .put _ _ _ _ _ (ih h2)
  | msg f g m l h ih => exact .msg _ _ _ _ (ih h2)

theorem visible_append (h g : List Ev) : visible (h ++ g) = visible h ++ visible g := by
  fun_induction visible h <;> simp_all [visible]

theorem acts_append (h g : List Ev) : acts (h ++ g) = acts h ++ acts g := by
  fun_induction acts h <;> simp_all [acts]

theorem mine_append (sid jid : Nat) (h g : List Ev) :
    mine sid jid (h ++ g) = mine sid jid h ++ mine sid jid g := by
  fun_induction mine sid jid h <;> simp_all [mine]

theorem recvs_append (sid : Nat) (h g : List Ev) :
    recvs sid (h ++ g) = recvs sid h ++ recvs sid g := by
  fun_induction recvs sid h <;> simp_all [recvs]

theorem sends_append (sid : Nat) (h g : List Ev) :
    sends sid (h ++ g) = sends sid h ++ sends sid g := by
  fun_induction sends sid h <;> simp_all [sends]

/-- The actions of one request, as events. -/
def tag (sid jid : Nat) (l : List Act) : List Ev := l.map (.act sid jid)

/-- No message among these. -/
def Quiet (l : List Act) : Prop := ∀ x ∈ l, ∀ m, x ≠ .msg m

theorem acts_tag (sid jid : Nat) (l : List Act) : acts (tag sid jid l) = l := by
  induction l with
  | nil => rfl
  | cons x l ih => simp only [tag, List.map_cons, acts] at *; rw [ih]

theorem mine_tag (sid jid sid' jid' : Nat) (l : List Act) :
    mine sid jid (tag sid' jid' l) = if sid' = sid ∧ jid' = jid then l else [] := by
  induction l with
  | nil => simp [tag, mine]
  | cons x l ih =>
    simp only [tag, List.map_cons, mine] at *
    rw [ih]
    split <;> simp_all

theorem recvs_tag (sid sid' jid' : Nat) (l : List Act) : recvs sid (tag sid' jid' l) = [] := by
  induction l with
  | nil => rfl
  | cons x l ih => simpa [tag, recvs] using ih

theorem sends_tag_quiet (sid sid' jid' : Nat) (l : List Act) (hq : Quiet l) :
    sends sid (tag sid' jid' l) = [] := by
  induction l with
  | nil => rfl
  | cons x l ih =>
    have ih := ih (fun y hy => hq y (List.mem_cons_of_mem _ hy))
    have hx := hq x List.mem_cons_self
    cases x with
    | get i b => simpa [tag, sends] using ih
    | put i b => simpa [tag, sends] using ih
    | msg m => exact absurd rfl (hx m)

theorem visible_tag_quiet (sid jid : Nat) (l : List Act) (hq : Quiet l) :
    visible (tag sid jid l) = [] := by
  induction l with
  | nil => rfl
  | cons x l ih =>
    have ih := ih (fun y hy => hq y (List.mem_cons_of_mem _ hy))
    have hx := hq x List.mem_cons_self
    cases x with
    | get i b => simpa [tag, visible] using ih
    | put i b => simpa [tag, visible] using ih
    | msg m => exact absurd rfl (hx m)

/-- Events of session `sid` only. -/
def Own (sid : Nat) (h : List Ev) : Prop :=
  ∀ x ∈ h, (∃ j, x = .recv sid j) ∨ ∃ jid a, x = .act sid jid a

theorem Own.tag (sid jid : Nat) (l : List Act) : Own sid (tag sid jid l) := by
  intro x hx
  simp only [Nbd.tag, List.mem_map] at hx
  obtain ⟨a, _, rfl⟩ := hx
  exact .inr ⟨jid, a, rfl⟩

theorem Own.mine {sid sid' : Nat} {h : List Ev} (ho : Own sid h) (hne : sid ≠ sid') (jid : Nat) :
    Spec.mine sid' jid h = [] := by
  induction h with
  | nil => rfl
  | cons x h ih =>
    have ih := ih (fun y hy => ho y (List.mem_cons_of_mem _ hy))
    rcases ho x List.mem_cons_self with ⟨j, rfl⟩ | ⟨jid', a, rfl⟩
    · exact ih
    · simp only [Spec.mine, hne, false_and, if_false]; exact ih

theorem Own.recvs {sid sid' : Nat} {h : List Ev} (ho : Own sid h) (hne : sid ≠ sid') :
    Spec.recvs sid' h = [] := by
  induction h with
  | nil => rfl
  | cons x h ih =>
    have ih := ih (fun y hy => ho y (List.mem_cons_of_mem _ hy))
    rcases ho x List.mem_cons_self with ⟨j, rfl⟩ | ⟨jid', a, rfl⟩
    · simp only [Spec.recvs, hne, if_false]; exact ih
    · exact ih

theorem Own.sends {sid sid' : Nat} {h : List Ev} (ho : Own sid h) (hne : sid ≠ sid') :
    Spec.sends sid' h = [] := by
  induction h with
  | nil => rfl
  | cons x h ih =>
    have ih := ih (fun y hy => ho y (List.mem_cons_of_mem _ hy))
    rcases ho x List.mem_cons_self with ⟨j, rfl⟩ | ⟨jid', a, rfl⟩
    · exact ih
    · cases a with
      | get i b => exact ih
      | put i b => exact ih
      | msg m => simp only [Spec.sends, hne, if_false]; exact ih

/-! ### Programs that keep to a specification -/

/-- Whatever the shared state is at each step, the program, having done `l` so far, does only what
`Q` permits and has met `P` when it is done; each access to the shared state changes the array
`view` as the recorded actions say. -/
def Prog.Good {σ : Type} (view : σ → Flat) (P Q : List Act → Prop) : Prog σ → List Act → Prop
  | .done _, l => P l
  | .op f k, l => Q l ∧ ∀ s s' a, f s = .val (s', a) →
      ∃ es, Quiet es ∧ Legal (view s) es (view s') ∧ (k a).Good view P Q (l ++ es)
  | .send m k, l => Q l ∧ k.Good view P Q (l ++ [.msg m])
  | .log _ k, l => Q l ∧ k.Good view P Q l

theorem Prog.Good.permitted {σ : Type} {view : σ → Flat} {P Q : List Act → Prop}
    (hpq : ∀ l, P l → Q l) {p : Prog σ} {l : List Act} (h : p.Good view P Q l) : Q l := by
  cases p with
  | done en => exact hpq _ h
  | op f k => exact h.1
  | send m k => exact h.1
  | log bs k => exact h.1

/-! ### The invariant -/

/-- Bytes of the messages a session has completed. -/
def wireOf (sid : Nat) (h : List Ev) : List Byte := (sends sid h).flatMap (fun x => x.2.bytes)

/-- The request a thread works on. -/
def Worker.job {σ : Type} : Worker σ → Option Job
  | .idle _ => none
  | .busy j _ => some j
  | .sending j _ _ _ => some j

section
variable {σ : Type} (view : σ → Flat) (J : Job → Prop) (P Q : Job → List Act → Prop) (sid : Nat)

/-- The state of thread `i`; requests below `started` have left the queue. -/
def WInv (h : List Ev) (started : Nat) (lock : Option Nat) (sock : List Byte) (i : Nat) :
    Worker σ → Prop
  | .idle _ => lock ≠ some i
  | .busy j p => lock ≠ some i ∧ j ∈ recvs sid h ∧ j.id < started ∧
      p.Good view (P j) (Q j) (mine sid j.id h)
  | .sending j m rest k => lock = some i ∧ j ∈ recvs sid h ∧ j.id < started ∧
      Q j (mine sid j.id h) ∧ k.Good view (P j) (Q j) (mine sid j.id h ++ [.msg m]) ∧
      ∃ part, m.bytes = part ++ rest ∧ sock = wireOf sid h ++ part

/-- The state of a session, after history `h`. -/
structure SInv (h : List Ev) (s : Session σ) : Prop where
  ids : (recvs sid h).map Job.id = List.range s.count
  started : ∃ n, s.count = n + s.queue.length ∧ s.queue.map Job.id = List.range' n s.queue.length ∧
    (∀ (i : Nat) x, s.workers[i]? = some x → WInv view P Q sid h n s.lock s.sock i x)
  queued : ∀ j ∈ s.queue, j ∈ recvs sid h ∧ mine sid j.id h = []
  distinct : ∀ (i i' : Nat) (x x' : Worker σ) (j j' : Job), s.workers[i]? = some x →
    s.workers[i']? = some x' → x.job = some j → x'.job = some j' → j.id = j'.id → i = i'
  finished : ∀ j ∈ recvs sid h, j ∈ s.queue ∨
    (∃ (i : Nat) (x : Worker σ), s.workers[i]? = some x ∧ x.job = some j) ∨ P j (mine sid j.id h)
  locked : ∀ i, s.lock = some i → i < s.workers.length
  free : s.lock = none → s.sock = wireOf sid h
  unread : ∀ jid, s.count ≤ jid → mine sid jid h = []
  wf : ∀ j ∈ recvs sid h, J j

end

section
variable {σ : Type} {view : σ → Flat} {J : Job → Prop} {P Q : Job → List Act → Prop} {sid : Nat}

/-- A session's invariant does not depend on what other sessions do. -/
theorem SInv.other {h add : List Ev} {s : Session σ} {sid' : Nat} (hi : SInv view J P Q sid h s)
    (ho : Own sid' add) (hne : sid' ≠ sid) : SInv view J P Q sid (h ++ add) s := by
  have h1 : recvs sid (h ++ add) = recvs sid h := by rw [recvs_append, ho.recvs hne, List.append_nil]
  have h2 : ∀ j, mine sid j (h ++ add) = mine sid j h := by
    intro j; rw [mine_append, ho.mine hne, List.append_nil]
  have h3 : wireOf sid (h ++ add) = wireOf sid h := by
    unfold wireOf; rw [sends_append, ho.sends hne, List.append_nil]
  obtain ⟨a, ⟨n, b1, b2, b3⟩, c, d, e, f, g, u, w⟩ := hi
  refine ⟨by rw [h1]; exact a, ⟨n, b1, b2, ?_⟩, ?_, d, ?_, f, by rw [h3]; exact g, ?_, by rw [h1]; exact w⟩
  · intro i x hx
    have := b3 i x hx
    cases x with
    | idle en => exact this
    | busy j p => simp only [WInv, h1, h2] at this ⊢; exact this
    | sending j m rest k => simp only [WInv, h1, h2, h3] at this ⊢; exact this
  · intro j hj; rw [h1, h2]; exact c j hj
  · intro j hj; rw [h1] at hj; rw [h2]; exact e j hj
  · intro jid hj; rw [h2]; exact u jid hj

/-- Only these parts of a session matter. -/
theorem SInv.congr {h : List Ev} {s s' : Session σ} (hi : SInv view J P Q sid h s)
    (h1 : s'.count = s.count) (h2 : s'.queue = s.queue) (h3 : s'.workers = s.workers)
    (h4 : s'.lock = s.lock) (h5 : s'.sock = s.sock) : SInv view J P Q sid h s' := by
  obtain ⟨a, b, c, d, e, f, g, u, w⟩ := hi
  constructor
  · rw [h1]; exact a
  · rw [h1, h2, h3, h4, h5]; exact b
  · rw [h2]; exact c
  · rw [h3]; exact d
  · rw [h2, h3]; exact e
  · rw [h3, h4]; exact f
  · rw [h4, h5]; exact g
  · rw [h1]; exact u
  · exact w

theorem getElem?_set_cases {α : Type 1} {l : List α} {i i' : Nat} {x y : α}
    (h : (l.set i x)[i']? = some y) : (i' = i ∧ y = x) ∨ (i' ≠ i ∧ l[i']? = some y) := by
  by_cases hi : i' = i
  · subst hi
    rw [List.getElem?_set_self'] at h
    cases hl : l[i']? with
    | none => rw [hl] at h; cases h
    | some z => rw [hl] at h; cases h; exact .inl ⟨rfl, rfl⟩
  · rw [List.getElem?_set_ne (Ne.symm hi)] at h
    exact .inr ⟨hi, h⟩

/-- Two recorded requests with the same number are the same. -/
theorem ids_inj {n : Nat} {l : List Job} (h : l.map Job.id = List.range n) {j j' : Job}
    (hj : j ∈ l) (hj' : j' ∈ l) (he : j.id = j'.id) : j = j' := by
  obtain ⟨a, ha⟩ := List.mem_iff_getElem?.mp hj
  obtain ⟨b, hb⟩ := List.mem_iff_getElem?.mp hj'
  have h1 : (l.map Job.id)[a]? = some j.id := by rw [List.getElem?_map, ha]; rfl
  have h2 : (l.map Job.id)[b]? = some j'.id := by rw [List.getElem?_map, hb]; rfl
  rw [h, List.getElem?_range] at h1 h2
  · cases h1
    cases h2
    rw [he] at ha
    rw [ha] at hb
    exact Option.some.inj hb
  all_goals
    first
    | (have := (List.getElem?_eq_some_iff.mp h1).1; simpa using this)
    | (have := (List.getElem?_eq_some_iff.mp h2).1; simpa using this)

/-- A thread goes on with its request. -/
theorem SInv.work {h : List Ev} {s s' : Session σ} (hi : SInv view J P Q sid h s) {i : Nat}
    {x x' : Worker σ} {j : Job} (es : List Act)
    (hw : s.workers[i]? = some x) (hx : x.job = some j) (hx' : x'.job = some j)
    (h1 : s'.count = s.count) (h2 : s'.queue = s.queue) (h3 : s'.workers = s.workers.set i x')
    (hnew : ∀ n, WInv view P Q sid h n s.lock s.sock i x →
      WInv view P Q sid (h ++ tag sid j.id es) n s'.lock s'.sock i x')
    (hA : ∀ i', i' ≠ i → s.lock ≠ some i' → s'.lock ≠ some i')
    (hB : (s'.lock = s.lock ∧ s'.sock = s.sock ∧ Quiet es) ∨ ∀ i', i' ≠ i → s.lock ≠ some i')
    (hC : s'.lock = none → s'.sock = wireOf sid (h ++ tag sid j.id es))
    (hD : ∀ i', s'.lock = some i' → i' < s.workers.length) :
    SInv view J P Q sid (h ++ tag sid j.id es) s' := by
  have r1 : recvs sid (h ++ tag sid j.id es) = recvs sid h := by
    rw [recvs_append, recvs_tag, List.append_nil]
  have r2 : ∀ jid, jid ≠ j.id → mine sid jid (h ++ tag sid j.id es) = mine sid jid h := by
    intro jid hne
    rw [mine_append, mine_tag, if_neg (fun hh => hne hh.2.symm), List.append_nil]
  obtain ⟨a, ⟨n, b1, b2, b3⟩, c, d, e, f, g, u, w⟩ := hi
  have hjn : j ∈ recvs sid h ∧ j.id < n := by
    have := b3 i x hw
    cases x with
    | idle en => cases hx
    | busy j0 p => cases hx; exact ⟨this.2.1, this.2.2.1⟩
    | sending j0 m rest k => cases hx; exact ⟨this.2.1, this.2.2.1⟩
  refine ⟨by rw [r1, h1]; exact a, ⟨n, by rw [h1, h2]; exact b1, by rw [h2]; exact b2, ?_⟩, ?_, ?_,
    ?_, by rw [h3, List.length_set]; exact hD, hC, ?_, by rw [r1]; exact w⟩
  · intro i' y hy
    rw [h3] at hy
    rcases getElem?_set_cases hy with ⟨rfl, rfl⟩ | ⟨hne, hy⟩
    · exact hnew n (b3 _ _ hw)
    · have hinv := b3 i' y hy
      cases y with
      | idle en => exact hA i' hne hinv
      | busy j' p =>
        have hj' : j'.id ≠ j.id := fun hh => hne (d i' i _ _ j' j hy hw rfl hx hh)
        obtain ⟨w1, w2, w3, w4⟩ := hinv
        refine ⟨hA i' hne w1, by rw [r1]; exact w2, w3, ?_⟩
        rw [r2 _ hj']; exact w4
      | sending j' m rest k =>
        have hj' : j'.id ≠ j.id := fun hh => hne (d i' i _ _ j' j hy hw rfl hx hh)
        obtain ⟨w1, w2, w3, w4, w5, part, w6, w7⟩ := hinv
        rcases hB with ⟨q1, q2, q3⟩ | hB
        · refine ⟨by rw [q1]; exact w1, by rw [r1]; exact w2, w3, ?_, ?_, part, w6, ?_⟩
          · rw [r2 _ hj']; exact w4
          · rw [r2 _ hj']; exact w5
          · rw [q2, w7]
            unfold wireOf
            rw [sends_append, sends_tag_quiet _ _ _ _ q3, List.append_nil]
        · exact absurd w1 (hB i' hne)
  · intro j' hj'
    rw [h2] at hj'
    have hid : j'.id ∈ s.queue.map Job.id := List.mem_map_of_mem hj'
    rw [b2, List.mem_range'_1] at hid
    rw [r1, r2 _ (by omega)]
    exact c j' hj'
  · intro i1 i2 y1 y2 j1 j2 e1 e2 e3 e4 e5
    rw [h3] at e1 e2
    rcases getElem?_set_cases e1 with ⟨rfl, rfl⟩ | ⟨hne1, f1⟩ <;>
      rcases getElem?_set_cases e2 with ⟨rfl, rfl⟩ | ⟨hne2, f2⟩
    · rfl
    · rw [hx'] at e3; cases e3
      exact d _ _ _ _ _ _ hw f2 hx e4 e5
    · rw [hx'] at e4; cases e4
      exact d _ _ _ _ _ _ f1 hw e3 hx e5
    · exact d _ _ _ _ _ _ f1 f2 e3 e4 e5
  · intro j' hj'
    rw [r1] at hj'
    by_cases hid : j'.id = j.id
    · have : j' = j := ids_inj a hj' hjn.1 hid
      subst this
      right; left
      refine ⟨i, x', ?_, hx'⟩
      rw [h3, List.getElem?_set_self (List.getElem?_eq_some_iff.mp hw).1]
    · rw [h2, r2 _ hid]
      rcases e j' hj' with hq | ⟨i', y, hy, hyj⟩ | hp
      · exact .inl hq
      · right; left
        refine ⟨i', y, ?_, hyj⟩
        rw [h3, List.getElem?_set_ne, hy]
        rintro rfl
        rw [hw] at hy
        cases hy
        rw [hx] at hyj
        cases hyj
        exact hid rfl
      · exact .inr (.inr hp)
  · intro jid hjid
    rw [h1] at hjid
    rw [r2 _ (by omega)]
    exact u jid hjid

/-- A request arrives. -/
theorem SInv.arrive {h : List Ev} {s s' : Session σ} (hi : SInv view J P Q sid h s) (j : Job)
    (hJ : J j) (hid : j.id = s.count) (h1 : s'.count = s.count + 1) (h2 : s'.queue = s.queue ++ [j])
    (h3 : s'.workers = s.workers) (h4 : s'.lock = s.lock) (h5 : s'.sock = s.sock) :
    SInv view J P Q sid (h ++ [.recv sid j]) s' := by
  have r1 : recvs sid (h ++ [.recv sid j]) = recvs sid h ++ [j] := by
    rw [recvs_append]; simp [recvs]
  have r2 : ∀ jid, mine sid jid (h ++ [.recv sid j]) = mine sid jid h := by
    intro jid; rw [mine_append]; simp [mine]
  have r3 : wireOf sid (h ++ [.recv sid j]) = wireOf sid h := by
    unfold wireOf; rw [sends_append]; simp [sends]
  obtain ⟨a, ⟨n, b1, b2, b3⟩, c, d, e, f, g, u, w⟩ := hi
  refine ⟨?_, ⟨n, ?_, ?_, ?_⟩, ?_, by rw [h3]; exact d, ?_, by rw [h3, h4]; exact f,
    by rw [h4, h5, r3]; exact g, ?_, ?_⟩
  · rw [r1, List.map_append, a, h1, List.range_succ]
    simp [hid]
  · rw [h1, h2, b1, List.length_append]; simp; omega
  · rw [h2, List.map_append, b2, List.length_append]
    simp only [List.map_cons, List.map_nil, List.length_cons, List.length_nil, Nat.zero_add]
    rw [List.range'_1_concat, hid, b1]
  · intro i x hx
    rw [h3] at hx
    have := b3 i x hx
    rw [h4, h5]
    cases x with
    | idle en => exact this
    | busy j' p =>
      obtain ⟨w1, w2, w3, w4⟩ := this
      refine ⟨w1, ?_, w3, ?_⟩
      · rw [r1]; exact List.mem_append_left _ w2
      · rw [r2]; exact w4
    | sending j' m rest k =>
      obtain ⟨w1, w2, w3, w4, w5, w6⟩ := this
      refine ⟨w1, ?_, w3, ?_, ?_, ?_⟩
      · rw [r1]; exact List.mem_append_left _ w2
      · rw [r2]; exact w4
      · rw [r2]; exact w5
      · rw [r3]; exact w6
  · intro j' hj'
    rw [h2, List.mem_append] at hj'
    rw [r1, r2]
    rcases hj' with hj' | hj'
    · exact ⟨List.mem_append_left _ (c j' hj').1, (c j' hj').2⟩
    · rw [List.mem_singleton] at hj'
      subst hj'
      exact ⟨by simp, u _ (by omega)⟩
  · intro j' hj'
    rw [r1, List.mem_append] at hj'
    rw [h2, h3, r2]
    rcases hj' with hj' | hj'
    · rcases e j' hj' with hq | hr
      · exact .inl (List.mem_append_left _ hq)
      · exact .inr hr
    · exact .inl (List.mem_append_right _ hj')
  · intro jid hjid
    rw [r2]
    exact u jid (by omega)
  · intro j' hj'
    rw [r1, List.mem_append, List.mem_singleton] at hj'
    rcases hj' with hj' | rfl
    · exact w j' hj'
    · exact hJ

/-- A thread takes a request from the queue. -/
theorem SInv.take {h : List Ev} {s s' : Session σ} (hi : SInv view J P Q sid h s) {i en : Nat}
    {j : Job} {q : List Job} {p : Prog σ} (hw : s.workers[i]? = some (.idle en))
    (hq : s.queue = j :: q) (hp : p.Good view (P j) (Q j) [])
    (h1 : s'.count = s.count) (h2 : s'.queue = q) (h3 : s'.workers = s.workers.set i (.busy j p))
    (h4 : s'.lock = s.lock) (h5 : s'.sock = s.sock) : SInv view J P Q sid h s' := by
  obtain ⟨a, ⟨n, b1, b2, b3⟩, c, d, e, f, g, u, w⟩ := hi
  rw [hq] at b1 b2
  simp only [List.map_cons, List.length_cons, List.range'_succ, List.cons.injEq] at b1 b2
  obtain ⟨hjn, b2⟩ := b2
  have hc := c j (by rw [hq]; exact List.mem_cons_self)
  have hlt : ∀ (i' : Nat) (x : Worker σ) (j' : Job), s.workers[i']? = some x → x.job = some j' →
      j'.id < n := by
    intro i' x j' hx hxj
    have := b3 i' x hx
    cases x with
    | idle en => cases hxj
    | busy j0 p => cases hxj; exact this.2.2.1
    | sending j0 m rest k => cases hxj; exact this.2.2.1
  have hlen := (List.getElem?_eq_some_iff.mp hw).1
  refine ⟨by rw [h1]; exact a, ⟨n + 1, by rw [h1, h2]; omega, by rw [h2]; exact b2, ?_⟩, ?_, ?_, ?_,
    by rw [h3, h4, List.length_set]; exact f, by rw [h4, h5]; exact g, by rw [h1]; exact u, w⟩
  · intro i' y hy
    rw [h3] at hy
    rw [h4, h5]
    rcases getElem?_set_cases hy with ⟨rfl, rfl⟩ | ⟨hne, hy⟩
    · exact ⟨b3 _ _ hw, hc.1, by omega, by rw [hc.2]; exact hp⟩
    · have := b3 i' y hy
      cases y with
      | idle en => exact this
      | busy j' p' => exact ⟨this.1, this.2.1, by have := this.2.2.1; omega, this.2.2.2⟩
      | sending j' m rest k => exact ⟨this.1, this.2.1, by have := this.2.2.1; omega, this.2.2.2⟩
  · intro j' hj'
    rw [h2] at hj'
    exact c j' (by rw [hq]; exact List.mem_cons_of_mem _ hj')
  · intro i1 i2 y1 y2 j1 j2 e1 e2 e3 e4 e5
    rw [h3] at e1 e2
    rcases getElem?_set_cases e1 with ⟨rfl, rfl⟩ | ⟨hne1, f1⟩ <;>
      rcases getElem?_set_cases e2 with ⟨rfl, rfl⟩ | ⟨hne2, f2⟩
    · rfl
    · cases e3
      have := hlt _ _ _ f2 e4
      omega
    · cases e4
      have := hlt _ _ _ f1 e3
      omega
    · exact d _ _ _ _ _ _ f1 f2 e3 e4 e5
  · intro j' hj'
    rw [h2]
    rcases e j' hj' with hq' | ⟨i', y, hy, hyj⟩ | hp'
    · rw [hq, List.mem_cons] at hq'
      rcases hq' with rfl | hq'
      · right; left
        exact ⟨i, .busy j' p, by rw [h3, List.getElem?_set_self hlen], rfl⟩
      · exact .inl hq'
    · right; left
      refine ⟨i', y, ?_, hyj⟩
      rw [h3, List.getElem?_set_ne, hy]
      rintro rfl
      rw [hw] at hy
      cases hy
      cases hyj
    · exact .inr (.inr hp')

/-- A thread is done with its request. -/
theorem SInv.finish {h : List Ev} {s s' : Session σ} (hi : SInv view J P Q sid h s) {i en : Nat}
    {j : Job} (hw : s.workers[i]? = some (.busy j (.done en)))
    (h1 : s'.count = s.count) (h2 : s'.queue = s.queue)
    (h3 : s'.workers = s.workers.set i (.idle en))
    (h4 : s'.lock = s.lock) (h5 : s'.sock = s.sock) : SInv view J P Q sid h s' := by
  obtain ⟨a, ⟨n, b1, b2, b3⟩, c, d, e, f, g, u, w⟩ := hi
  refine ⟨by rw [h1]; exact a, ⟨n, by rw [h1, h2]; exact b1, by rw [h2]; exact b2, ?_⟩,
    by rw [h2]; exact c, ?_, ?_,
    by rw [h3, h4, List.length_set]; exact f, by rw [h4, h5]; exact g, by rw [h1]; exact u, w⟩
  · intro i' y hy
    rw [h3] at hy
    rw [h4, h5]
    rcases getElem?_set_cases hy with ⟨rfl, rfl⟩ | ⟨hne, hy⟩
    · exact (b3 _ _ hw).1
    · exact b3 i' y hy
  · intro i1 i2 y1 y2 j1 j2 e1 e2 e3 e4 e5
    rw [h3] at e1 e2
    rcases getElem?_set_cases e1 with ⟨rfl, rfl⟩ | ⟨hne1, f1⟩ <;>
      rcases getElem?_set_cases e2 with ⟨rfl, rfl⟩ | ⟨hne2, f2⟩
    · rfl
    · cases e3
    · cases e4
    · exact d _ _ _ _ _ _ f1 f2 e3 e4 e5
  · intro j' hj'
    rw [h2]
    rcases e j' hj' with hq | ⟨i', y, hy, hyj⟩ | hp'
    · exact .inl hq
    · by_cases hii : i' = i
      · subst hii
        rw [hw] at hy
        cases hy
        cases hyj
        exact .inr (.inr (b3 _ _ hw).2.2.2)
      · right; left
        exact ⟨i', y, by rw [h3, List.getElem?_set_ne (Ne.symm hii), hy], hyj⟩
    · exact .inr (.inr hp')

/-! ### One step -/

/-- What a server's code has to satisfy: requests it reads satisfy `J`, the program of such a
request meets its specification, and reading a request does not change the array. -/
structure Server.Meets (v : Server σ) (view : σ → Flat) (J : Job → Prop)
    (P Q : Job → List Act → Prop) : Prop where
  wf : ∀ (n : Nat) (r : Req) (p : Payload) (st st' : σ) (stream rest : List Byte),
    v.take st stream = .val (st', .push r p rest) → J ⟨n, r, p⟩
  code : ∀ (en : Nat) (j : Job), J j → (v.code en j.req j.payload).Good view (P j) (Q j) []
  take : ∀ (st st' : σ) (stream : List Byte) (x : Fetched), v.take st stream = .val (st', x) →
    view st' = view st
  weaken : ∀ j l, P j l → Q j l

theorem tag_nil (sid jid : Nat) : tag sid jid [] = [] := rfl

/-- Only requests in `l` are worked on. -/
def Ready (l : List Job) (add : List Ev) : Prop :=
  ∀ x ∈ add, ∀ sid jid a, x = .act sid jid a → ∃ j ∈ l, j.id = jid

theorem Ready.tag {l : List Job} {j : Job} (hj : j ∈ l) (sid : Nat) (es : List Act) :
    Ready l (tag sid j.id es) := by
  intro x hx sid' jid a hxa
  simp only [Nbd.tag, List.mem_map] at hx
  obtain ⟨b, _, rfl⟩ := hx
  cases hxa
  exact ⟨j, hj, rfl⟩

/-- Each step of a session adds to the history what it does. -/
theorem Step.inv {v : Server σ} (hv : v.Meets view J P Q) {sh sh' : Shared σ} {s s' : Session σ}
    {evs : List Ext} (hs : Step v sid sh s evs sh' s') {h : List Ev}
    (hi : SInv view J P Q sid h s) :
    ∃ add, Own sid add ∧ Ready (recvs sid h) add ∧
      visible add = evs.map (fun x => (sid, x)) ∧
      Legal (view sh.st) (acts add) (view sh'.st) ∧ SInv view J P Q sid (h ++ add) s' := by
  have same : ∀ {t : Session σ}, t.count = s.count → t.queue = s.queue → t.workers = s.workers →
      t.lock = s.lock → t.sock = s.sock → ∀ st', view st' = view sh.st →
      ∃ add, Own sid add ∧ Ready (recvs sid h) add ∧ visible add = [] ∧
        Legal (view sh.st) (acts add) (view st') ∧ SInv view J P Q sid (h ++ add) t := by
    intro t h1 h2 h3 h4 h5 st' hst
    refine ⟨[], (by intro x hx; cases hx), (by intro x hx; cases hx), rfl, by rw [hst]; exact .nil _, ?_⟩
    rw [List.append_nil]
    exact hi.congr h1 h2 h3 h4 h5
  have arrive : ∀ {t : Session σ} (j : Job), J j → j.id = s.count → t.count = s.count + 1 →
      t.queue = s.queue ++ [j] → t.workers = s.workers → t.lock = s.lock → t.sock = s.sock →
      ∀ st', view st' = view sh.st →
      ∃ add, Own sid add ∧ Ready (recvs sid h) add ∧ visible add = [(sid, .recv j)] ∧
        Legal (view sh.st) (acts add) (view st') ∧ SInv view J P Q sid (h ++ add) t := by
    intro t j hJ hid h1 h2 h3 h4 h5 st' hst
    refine ⟨[.recv sid j], ?_, ?_, rfl, by rw [hst]; exact .nil _, hi.arrive j hJ hid h1 h2 h3 h4 h5⟩
    · intro x hx
      rw [List.mem_singleton] at hx
      exact .inl ⟨j, hx⟩
    · intro x hx sid' jid a hxa
      rw [List.mem_singleton] at hx
      rw [hx] at hxa
      cases hxa
  have hjob : ∀ {i : Nat} {x : Worker σ} {j : Job}, s.workers[i]? = some x → x.job = some j →
      j ∈ recvs sid h := by
    intro i x j hx hxj
    obtain ⟨n, _, _, b3⟩ := hi.started
    have := b3 i x hx
    cases x with
    | idle en => cases hxj
    | busy j0 p => cases hxj; exact this.2.1
    | sending j0 m rest k => cases hxj; exact this.2.1
  cases hs with
  | accept st r p rest hm hk hsem ht =>
    exact arrive ⟨s.count, r, p⟩ (hv.wf _ _ _ _ _ _ _ ht) rfl (by rfl) (by rfl) (by rfl) (by rfl) (by rfl) st
      (hv.take _ _ _ _ ht)
  | hold hm hk hsem => exact same (by rfl) (by rfl) (by rfl) (by rfl) (by rfl) _ rfl
  | acceptData st r bs rest hm ht =>
    exact arrive ⟨s.count, r, .data bs⟩ (hv.wf _ _ _ _ _ _ _ ht) rfl (by rfl) (by rfl) (by rfl) (by rfl) (by rfl) st
      (hv.take _ _ _ _ ht)
  | magic hm hb => exact same (by rfl) (by rfl) (by rfl) (by rfl) (by rfl) _ rfl
  | gone st hm hb ht => exact same (by rfl) (by rfl) (by rfl) (by rfl) (by rfl) st (hv.take _ _ _ _ ht)
  | disc st rest hm hk hsem ht => exact same (by rfl) (by rfl) (by rfl) (by rfl) (by rfl) st (hv.take _ _ _ _ ht)
  | takeFails ph hm ht => exact same (by rfl) (by rfl) (by rfl) (by rfl) (by rfl) _ rfl
  | close hm hq hw => exact same (by rfl) (by rfl) (by rfl) (by rfl) (by rfl) _ rfl
  | start i en j q ha hw hq =>
    refine ⟨[], (by intro x hx; cases hx), (by intro x hx; cases hx), rfl, .nil _, ?_⟩
    rw [List.append_nil]
    have hj := hi.wf j (hi.queued j (by rw [hq]; exact List.mem_cons_self)).1
    exact hi.take hw hq (hv.code en j hj) rfl rfl rfl rfl rfl
  | op i j f k st a ha hw hf =>
    obtain ⟨n, b1, b2, b3⟩ := hi.started
    obtain ⟨w1, w2, w3, w4⟩ := b3 _ _ hw
    obtain ⟨es, hq, hl, hg⟩ := w4.2 _ _ _ hf
    refine ⟨tag sid j.id es, Own.tag _ _ _, Ready.tag (hjob hw rfl) _ _, visible_tag_quiet _ _ _ hq, by rw [acts_tag]; exact hl, ?_⟩
    refine hi.work es hw rfl rfl rfl rfl rfl ?_ (fun _ _ hh => hh) (.inl ⟨rfl, rfl, hq⟩) ?_ hi.locked
    · intro n' hn'
      obtain ⟨x1, x2, x3, x4⟩ := hn'
      refine ⟨x1, ?_, x3, ?_⟩
      · rw [recvs_append]; exact List.mem_append_left _ x2
      · rw [mine_append, mine_tag, if_pos ⟨rfl, rfl⟩]; exact hg
    · intro hl
      unfold wireOf
      rw [sends_append, sends_tag_quiet _ _ _ _ hq, List.append_nil]
      exact hi.free hl
  | opFails i j f k ph ha hw hf => exact same (by rfl) (by rfl) (by rfl) (by rfl) (by rfl) _ rfl
  | lock i j m k ha hw hl =>
    refine ⟨tag sid j.id [], Own.tag _ _ _, Ready.tag (hjob hw rfl) _ _, rfl, .nil _, ?_⟩
    refine hi.work [] hw rfl rfl rfl rfl rfl ?_ ?_ (.inr (by rw [hl]; simp)) (by simp) ?_
    · intro n ⟨x1, x2, x3, x4⟩
      rw [tag_nil, List.append_nil]
      exact ⟨rfl, x2, x3, x4.1, x4.2, [], rfl, by rw [List.append_nil]; exact hi.free hl⟩
    · intro i' hne _ hh
      exact hne (Option.some.inj hh).symm
    · intro i' hh
      cases hh
      exact (List.getElem?_eq_some_iff.mp hw).1
  | write i j m xs ys k ha hw hx hy =>
    obtain ⟨n, b1, b2, b3⟩ := hi.started
    obtain ⟨w1, w2⟩ := b3 _ _ hw
    refine ⟨tag sid j.id [], Own.tag _ _ _, Ready.tag (hjob hw rfl) _ _, rfl, .nil _, ?_⟩
    refine hi.work [] hw rfl rfl rfl rfl rfl ?_ (fun _ _ hh => hh) (.inr ?_) ?_ hi.locked
    · intro n ⟨x1, x2, x3, x4, x5, part, x6, x7⟩
      rw [tag_nil, List.append_nil]
      exact ⟨x1, x2, x3, x4, x5, part ++ xs, by rw [x6, List.append_assoc],
        by dsimp only; rw [x7, List.append_assoc]⟩
    · intro i' hne hh
      rw [w1] at hh
      exact hne (Option.some.inj hh).symm
    · intro hh
      rw [w1] at hh
      cases hh
  | unlock i j m rest k ha hw =>
    obtain ⟨n, b1, b2, b3⟩ := hi.started
    obtain ⟨w1, w2, w3, w4, w5, part, w6, w7⟩ := b3 _ _ hw
    refine ⟨tag sid j.id [.msg m], Own.tag _ _ _, Ready.tag (hjob hw rfl) _ _, rfl, .msg _ _ _ _ (.nil _), ?_⟩
    refine hi.work [.msg m] hw rfl rfl rfl rfl rfl ?_ (fun _ _ _ hh => by cases hh) (.inr ?_) ?_
      (fun _ hh => by cases hh)
    · intro n ⟨x1, x2, x3, x4, x5, x6⟩
      refine ⟨by simp, ?_, x3, ?_⟩
      · rw [recvs_append]; exact List.mem_append_left _ x2
      · rw [mine_append, mine_tag, if_pos ⟨rfl, rfl⟩]; exact x5
    · intro i' hne hh
      rw [w1] at hh
      exact hne (Option.some.inj hh).symm
    · intro _
      dsimp only
      rw [w7, List.append_assoc, w6.symm]
      unfold wireOf
      rw [sends_append, List.flatMap_append]
      simp [tag, sends]
  | log i j bs k ha hw hsem =>
    refine ⟨tag sid j.id [], Own.tag _ _ _, Ready.tag (hjob hw rfl) _ _, rfl, .nil _, ?_⟩
    refine hi.work [] hw rfl rfl rfl rfl rfl ?_ (fun _ _ hh => hh)
      (.inl ⟨rfl, rfl, by intro x hx; cases hx⟩) ?_ hi.locked
    · intro n ⟨x1, x2, x3, x4⟩
      rw [tag_nil, List.append_nil]
      exact ⟨x1, x2, x3, x4.2⟩
    · intro hh
      rw [tag_nil, List.append_nil]
      exact hi.free hh
  | finish i j en ha hw =>
    refine ⟨[], (by intro x hx; cases hx), (by intro x hx; cases hx), rfl, .nil _, ?_⟩
    rw [List.append_nil]
    exact hi.finish hw rfl rfl rfl rfl rfl

end

/-! ### All steps -/

theorem Causal.append {sid : Nat} {h add : List Ev} (hc : Causal h) (ho : Own sid add)
    (hr : Ready (recvs sid h) add) : Causal (h ++ add) := by
  intro pre sid' jid x post heq
  rcases List.append_eq_append_iff.mp heq with ⟨as, h1, h2⟩ | ⟨cs, h1, h2⟩
  · -- the event is in `add`
    have hmem : Ev.act sid' jid x ∈ add := by rw [h2]; simp
    obtain ⟨j, hj, hid⟩ := hr _ hmem _ _ _ rfl
    have hs : sid' = sid := by
      rcases ho _ hmem with ⟨j', hh⟩ | ⟨jid', a, hh⟩
      · cases hh
      · cases hh; rfl
    subst hs
    refine ⟨j, ?_, hid⟩
    rw [h1, recvs_append]
    exact List.mem_append_left _ hj
  · cases cs with
    | nil =>
      simp only [List.nil_append] at h2
      have hmem : Ev.act sid' jid x ∈ add := by rw [← h2]; simp
      obtain ⟨j, hj, hid⟩ := hr _ hmem _ _ _ rfl
      have hs : sid' = sid := by
        rcases ho _ hmem with ⟨j', hh⟩ | ⟨jid', a, hh⟩
        · cases hh
        · cases hh; rfl
      subst hs
      rw [List.append_nil] at h1
      rw [h1] at hj
      exact ⟨j, hj, hid⟩
    | cons c cs =>
      rw [List.cons_append] at h2
      injection h2 with h3 h4
      subst h3
      exact hc pre sid' jid x cs h1

/-- A session that has not read anything yet. -/
def Session.Fresh {σ : Type} (s : Session σ) : Prop :=
  ∃ stream errnos pos, s = Session.fresh stream errnos pos

theorem SInv.fresh {σ : Type} {view : σ → Flat} {J : Job → Prop} {P Q : Job → List Act → Prop}
    {sid : Nat} {s : Session σ} (hf : s.Fresh) : SInv view J P Q sid [] s := by
  obtain ⟨stream, errnos, pos, rfl⟩ := hf
  refine ⟨rfl, ⟨0, rfl, rfl, ?_⟩, by simp [Session.fresh], ?_, by simp [recvs],
    by simp [Session.fresh], fun _ => rfl, fun _ _ => rfl, by simp [recvs]⟩
  · intro i x hx
    simp only [Session.fresh, List.getElem?_map, Option.map_eq_some_iff] at hx
    obtain ⟨en, _, rfl⟩ := hx
    simp [WInv, Session.fresh]
  · intro i i' x x' j j' hx hx' hj
    simp only [Session.fresh, List.getElem?_map, Option.map_eq_some_iff] at hx
    obtain ⟨en, _, rfl⟩ := hx
    cases hj

/-- Every execution has a history: what is visible of it is what the execution showed, done in its
order on an array it leads from the contents before to the contents now, and every session is in
a state that fits it. -/
theorem Exec.inv {σ : Type} {view : σ → Flat} {v : Nat → Server σ} {J : Nat → Job → Prop}
    {P Q : Nat → Job → List Act → Prop} (hv : ∀ sid, (v sid).Meets view (J sid) (P sid) (Q sid))
    {S T : System σ} {tr : List (Nat × Ext)} (hf : ∀ s ∈ S.sessions, s.Fresh)
    (hx : Exec v S tr T) :
    ∃ h, visible h = tr ∧ Causal h ∧ Legal (view S.sh.st) (acts h) (view T.sh.st) ∧
      T.sessions.length = S.sessions.length ∧
      ∀ (sid : Nat) s, T.sessions[sid]? = some s → SInv view (J sid) (P sid) (Q sid) sid h s := by
  induction hx with
  | nil =>
    refine ⟨[], rfl, ?_, .nil _, rfl, ?_⟩
    · intro pre sid jid x post hh
      simp at hh
    · intro sid s hs
      exact SInv.fresh (hf s (List.mem_of_getElem? hs))
  | step tr T sid s s' evs sh' h hs h1 ih =>
    obtain ⟨h0, e1, e2, e3, e4, e5⟩ := ih
    obtain ⟨add, a1, a2, a3, a4, a5⟩ := h1.inv (hv sid) (e5 sid s hs)
    refine ⟨h0 ++ add, ?_, Causal.append e2 a1 a2, ?_, ?_, ?_⟩
    · rw [visible_append, e1, a3]
    · rw [acts_append]; exact Legal.append e3 a4
    · simp [e4]
    · intro sid' t ht
      rcases getElem?_set_cases ht with ⟨rfl, rfl⟩ | ⟨hne, ht⟩
      · exact a5
      · exact (e5 sid' t ht).other a1 (Ne.symm hne)

end Nbd
