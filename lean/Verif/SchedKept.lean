import Verif.SchedDurable
import Verif.SchedRun
/-! # Bytes that must not be lost, with requests processed at the same time -/

set_option autoImplicit false

namespace Nbd

open Spec

/-! ### Steps, by what they do -/

section
variable {σ : Type}

/-- A thread goes on without a look at the shared state, and unseen. -/
inductive Hidden : Worker σ → Worker σ → Prop where
  | lock (j : Job) (m : Msg) (k : Prog σ) : Hidden (.busy j (.send m k)) (.sending j m m.bytes k)
  | write (j : Job) (m : Msg) (xs ys : List Byte) (k : Prog σ) : Hidden (.sending j m xs k) (.sending j m ys k)
  | log (j : Job) (bs : List Byte) (k : Prog σ) : Hidden (.busy j (.log bs k)) (.busy j k)
  | finish (j : Job) (en : Nat) : Hidden (.busy j (.done en)) (.idle en)

/-- What a step does to the queue, the threads and the shared state. -/
inductive Does' (v : Server σ) (st : σ) (s : Session σ) : List Ext → σ → Session σ → Prop where
  | main (js : List Job) (st' : σ) (s' : Session σ) (hw : s'.workers = s.workers) (hq : s'.queue = s.queue ++ js)
      (hjs : js.length ≤ 1) (hst : st' = st ∨ ∃ x, v.take st s.stream = .val (st', x)) : Does' v st s (js.map .recv) st' s'
  | start (i en : Nat) (j : Job) (s' : Session σ) (hi : s.workers[i]? = some (.idle en)) (hq : s.queue = j :: s'.queue)
      (hw : s'.workers = s.workers.set i (.busy j (v.code en j.req j.payload))) : Does' v st s [] st s'
  | op (i : Nat) (j : Job) {α : Type} (f : σ → Out (σ × α)) (k : α → Prog σ) (st' : σ) (a : α) (s' : Session σ)
      (hi : s.workers[i]? = some (.busy j (.op f k))) (hf : f st = .val (st', a)) (hq : s'.queue = s.queue)
      (hw : s'.workers = s.workers.set i (.busy j (k a))) : Does' v st s [] st' s'
  | hidden (i : Nat) (x x' : Worker σ) (s' : Session σ) (hi : s.workers[i]? = some x) (hx : Hidden x x')
      (hq : s'.queue = s.queue) (hw : s'.workers = s.workers.set i x') : Does' v st s [] st s'
  | unlock (i : Nat) (j : Job) (m : Msg) (rest : List Byte) (k : Prog σ) (s' : Session σ)
      (hi : s.workers[i]? = some (.sending j m rest k)) (hq : s'.queue = s.queue)
      (hw : s'.workers = s.workers.set i (.busy j k)) : Does' v st s [.sent j.id m] st s'

theorem Step.does {v : Server σ} {sid : Nat} {sh sh' : Shared σ} {s s' : Session σ} {evs : List Ext}
    (h : Step v sid sh s evs sh' s') : Does' v sh.st s evs sh'.st s' := by
  cases h with
  | accept st r p rest hm hk hsem h => exact .main [⟨s.count, r, p⟩] _ _ rfl rfl (by simp) (.inr ⟨_, h⟩)
  | hold hm hk hsem => exact .main [] _ _ rfl (List.append_nil _).symm (by simp) (.inl rfl)
  | acceptData st r bs rest hm h => exact .main [⟨s.count, r, .data bs⟩] _ _ rfl rfl (by simp) (.inr ⟨_, h⟩)
  | magic hm hb => exact .main [] _ _ rfl (List.append_nil _).symm (by simp) (.inl rfl)
  | gone st hm hb h => exact .main [] _ _ rfl (List.append_nil _).symm (by simp) (.inr ⟨_, h⟩)
  | disc st rest hm hk hsem h => exact .main [] _ _ rfl (List.append_nil _).symm (by simp) (.inr ⟨_, h⟩)
  | takeFails ph hm h => exact .main [] _ _ rfl (List.append_nil _).symm (by simp) (.inl rfl)
  | close hm hq hw => exact .main [] _ _ rfl (List.append_nil _).symm (by simp) (.inl rfl)
  | start i en j q ha hw hq => exact .start i en j _ hw hq rfl
  | op i j f k st a ha hw h => exact .op i j f k _ a _ hw h rfl rfl
  | opFails i j f k ph ha hw h => exact .main [] _ _ rfl (List.append_nil _).symm (by simp) (.inl rfl)
  | lock i j m k ha hw hl => exact .hidden i _ _ _ hw (.lock j m k) rfl rfl
  | write i j m xs ys k ha hw hx hy => exact .hidden i _ _ _ hw (.write j m _ ys k) rfl rfl
  | unlock i j m rest k ha hw => exact .unlock i j m rest k _ hw rfl rfl
  | log i j bs k ha hw hsem => exact .hidden i _ _ _ hw (.log j bs k) rfl rfl
  | finish i j en ha hw => exact .hidden i _ _ _ hw (.finish j en) rfl rfl

/-! ### What every reachable session is like -/

/-- Requests waiting or worked on in a session were received, once. -/
structure Orderly (J : Job → Prop) (sid : Nat) (tr : List (Nat × Ext)) (s : Session σ) : Prop where
  queued : ∀ j ∈ s.queue, (sid, .recv j) ∈ tr ∧ J j ∧ ∀ m, (sid, .sent j.id m) ∉ tr
  working : ∀ (i : Nat) x j, s.workers[i]? = some x → x.job = some j → (sid, .recv j) ∈ tr ∧ J j ∧ ∀ j' ∈ s.queue, j'.id ≠ j.id
  distinct : ∀ (i i' : Nat) x x' j j', s.workers[i]? = some x → s.workers[i']? = some x' → x.job = some j → x'.job = some j' →
    j.id = j'.id → i = i'
  once : ∀ j j', (sid, .recv j) ∈ tr → (sid, .recv j') ∈ tr → j.id = j'.id → j = j'

theorem mem_received {sid : Nat} {j : Job} {tr : List (Nat × Ext)} : j ∈ received sid tr ↔ (sid, .recv j) ∈ tr := by
  induction tr with
  | nil => simp [received]
  | cons ev tr ih =>
    obtain ⟨s, ev⟩ := ev
    cases ev with
    | recv j' =>
      unfold received
      split
      · rename_i hs
        subst hs
        simp [ih]
      · rename_i hs
        rw [ih]
        constructor
        · exact List.mem_cons_of_mem _
        · intro h
          rcases List.mem_cons.mp h with h | h
          · cases h
            exact absurd rfl hs
          · exact h
    | sent j' m => simpa [received] using ih

theorem mem_sent_mine {sid jid : Nat} {m : Msg} {h : List Ev} (hm : (sid, .sent jid m) ∈ visible h) : .msg m ∈ mine sid jid h := by
  induction h with
  | nil => cases hm
  | cons ev h ih =>
    cases ev with
    | recv s j =>
      simp only [visible, List.mem_cons] at hm
      rcases hm with hm | hm
      · cases hm
      · exact ih hm
    | act s j a =>
      have hrest : (sid, .sent jid m) ∈ visible h → .msg m ∈ mine sid jid (.act s j a :: h) := by
        intro hm
        unfold mine
        split
        · exact List.mem_cons_of_mem _ (ih hm)
        · exact ih hm
      cases a with
      | msg m' =>
        simp only [visible, List.mem_cons] at hm
        rcases hm with hm | hm
        · cases hm
          simp [mine]
        · exact hrest hm
      | get a b => exact hrest (by simpa [visible] using hm)
      | put a b => exact hrest (by simpa [visible] using hm)

theorem Exec.orderly {view : σ → Flat} {v : Nat → Server σ} {J : Nat → Job → Prop}
    {P Q : Nat → Job → List Act → Prop} (hv : ∀ sid, (v sid).Meets view (J sid) (P sid) (Q sid))
    {S T : System σ} {tr : List (Nat × Ext)} (hf : ∀ s ∈ S.sessions, s.Fresh) (hx : Exec v S tr T)
    (sid : Nat) (s : Session σ) (hs : T.sessions[sid]? = some s) : Orderly (J sid) sid tr s := by
  obtain ⟨h, rfl, -, -, -, h5⟩ := hx.inv hv hf
  have hi := h5 sid s hs
  have hrec : ∀ j, j ∈ recvs sid h ↔ (sid, .recv j) ∈ visible h := by
    intro j
    rw [← recvs_visible, mem_received]
  obtain ⟨n, n1, n2, n3⟩ := hi.started
  refine ⟨?_, ?_, hi.distinct, ?_⟩
  · intro j hj
    obtain ⟨q1, q2⟩ := hi.queued j hj
    refine ⟨(hrec j).mp q1, hi.wf j q1, ?_⟩
    intro m hm
    have := mem_sent_mine hm
    rw [q2] at this
    cases this
  · intro i x j hx hj
    have hw := n3 i x hx
    have hboth : j ∈ recvs sid h ∧ j.id < n := by
      cases x with
      | idle en => cases hj
      | busy j' p =>
        cases hj
        exact ⟨hw.2.1, hw.2.2.1⟩
      | sending j' m rest k =>
        cases hj
        exact ⟨hw.2.1, hw.2.2.1⟩
    refine ⟨(hrec j).mp hboth.1, hi.wf j hboth.1, ?_⟩
    intro j' hj' he
    have : j'.id ∈ s.queue.map Job.id := List.mem_map.mpr ⟨j', hj', rfl⟩
    rw [n2, List.mem_range'] at this
    obtain ⟨k, _, hk⟩ := this
    omega
  · intro j j' hj hj' he
    exact ids_inj hi.ids ((hrec j).mpr hj) ((hrec j').mpr hj') he

/-- Every request received is well-formed. -/
theorem Exec.recv_wf {view : σ → Flat} {v : Nat → Server σ} {J : Nat → Job → Prop}
    {P Q : Nat → Job → List Act → Prop} (hv : ∀ sid, (v sid).Meets view (J sid) (P sid) (Q sid))
    {S T : System σ} {tr : List (Nat × Ext)} (hf : ∀ s ∈ S.sessions, s.Fresh) (hx : Exec v S tr T)
    (sid : Nat) (j : Job) (hj : (sid, .recv j) ∈ tr) : J sid j := by
  induction hx with
  | nil => cases hj
  | step tr T sid' s s' evs sh' hx hs h1 ih =>
    rcases List.mem_append.mp hj with hj | hj
    · exact ih hj
    · simp only [List.mem_map, Prod.mk.injEq] at hj
      obtain ⟨ev, hev, rfl, rfl⟩ := hj
      have hx' := Exec.step tr T sid' s s' evs sh' hx hs h1
      have hlt := (List.getElem?_eq_some_iff.mp hs).1
      have ho := hx'.orderly hv hf sid' s' (by simp [hlt])
      have hd := h1.does
      generalize sh'.st = st' at hd
      cases hd with
      | main js _ _ hw' hq hjs hst' =>
        obtain ⟨j', hj', he⟩ := List.mem_map.mp hev
        cases he
        exact (ho.queued j (by rw [hq]; exact List.mem_append_right _ hj')).2.1
      | start => cases hev
      | op => cases hev
      | hidden => cases hev
      | unlock => simp at hev

end

/-! ### The two parts of the argument -/

section
variable (touch : Job → Prop) (x : FileId × Nat) (sid : Nat)

/-- What is left to do in a thread does not touch the byte. -/
def Worker.Keep (T : FileId × Nat → Prop) : Worker World → Prop
  | .idle _ => True
  | .busy _ p => p.Keep T
  | .sending _ _ _ k => k.Keep T

/-- … or the request it does it for has not been answered. -/
def Worker.Calm (tr : List (Nat × Ext)) : Worker World → Prop
  | .idle _ => True
  | .busy j p => p.Keep (fun _ => True) ∧ (¬ touch j → p.Keep (· ≠ x)) ∧
      (touch j → p.OneMsg ∧ ((∃ m, (sid, .sent j.id m) ∈ tr) → p.Silent))
  | .sending j _ _ k => k.Keep (fun _ => True) ∧ (¬ touch j → k.Keep (· ≠ x)) ∧ (touch j → k.Silent)

/-- The success of a request is still to come, and not before the byte is settled. -/
def Worker.Pend (I : World → Prop) (ok : List Byte) : Worker World → Prop
  | .idle _ => True
  | .busy _ p => p.Pend I x ok
  | .sending _ m _ k => m.bytes ≠ ok ∧ k.Pend I x ok

end

theorem Prog.Silent.oneMsg {σ : Type} {p : Prog σ} (h : p.Silent) : p.OneMsg := by
  induction p with
  | done en => trivial
  | op f k ih => exact absurd h id
  | send m k ih => exact absurd h id
  | log bs k ih => exact ih h

section
variable {touch : Job → Prop} {x : FileId × Nat} {sid : Nat}

theorem Worker.Calm.more {tr : List (Nat × Ext)} {ev : Nat × Ext} {w : Worker World} (h : w.Calm touch x sid tr)
    (hev : ∀ j m, w.job = some j → ev ≠ (sid, .sent j.id m)) : w.Calm touch x sid (tr ++ [ev]) := by
  cases w with
  | idle en => trivial
  | busy j p =>
    refine ⟨h.1, h.2.1, fun ht => ⟨(h.2.2 ht).1, ?_⟩⟩
    rintro ⟨m, hm⟩
    rcases List.mem_append.mp hm with hm | hm
    · exact (h.2.2 ht).2 ⟨m, hm⟩
    · exact absurd (List.mem_singleton.mp hm).symm (hev j m rfl)
  | sending j m rest k => exact h

theorem Worker.Calm.keep {tr : List (Nat × Ext)} {w : Worker World} (h : w.Calm touch x sid tr)
    (ha : ∀ j, w.job = some j → touch j → ∃ m, (sid, .sent j.id m) ∈ tr) : w.Keep (· ≠ x) := by
  cases w with
  | idle en => trivial
  | busy j p =>
    by_cases ht : touch j
    · exact ((h.2.2 ht).2 (ha j rfl ht)).keep
    · exact h.2.1 ht
  | sending j m rest k =>
    by_cases ht : touch j
    · exact (h.2.2 ht).keep
    · exact h.2.1 ht

theorem Hidden.calm {tr : List (Nat × Ext)} {w w' : Worker World} (h : Hidden w w') (hc : w.Calm touch x sid tr) :
    w'.Calm touch x sid tr := by
  cases h with
  | lock j m k => exact ⟨hc.1, hc.2.1, fun ht => (hc.2.2 ht).1⟩
  | write j m xs ys k => exact hc
  | log j bs k => exact ⟨hc.1, hc.2.1, fun ht => ⟨(hc.2.2 ht).1, (hc.2.2 ht).2⟩⟩
  | finish j en => trivial

theorem Hidden.keep {T : FileId × Nat → Prop} {w w' : Worker World} (h : Hidden w w') (hc : w.Keep T) : w'.Keep T := by
  cases h with
  | lock j m k => exact hc
  | write j m xs ys k => exact hc
  | log j bs k => exact hc
  | finish j en => trivial

theorem Hidden.pend {I : World → Prop} {ok : List Byte} {w w' : Worker World} (h : Hidden w w') (hc : w.Pend x I ok) :
    w'.Pend x I ok := by
  cases h with
  | lock j m k => exact hc
  | write j m xs ys k => exact hc
  | log j bs k => exact hc
  | finish j en => trivial

theorem Hidden.job {σ : Type} {w w' : Worker σ} (h : Hidden w w') : w'.job = none ∨ w'.job = w.job := by
  cases h with
  | lock j m k => exact .inr rfl
  | write j m xs ys k => exact .inr rfl
  | log j bs k => exact .inr rfl
  | finish j en => exact .inl rfl

end

/-- What the code of the servers has to satisfy. -/
structure Careful (v : Nat → Server World) (J : Nat → Job → Prop) (touch : Job → Prop) (x : FileId × Nat) (I : World → Prop) : Prop where
  any : ∀ sid en j, J sid j → ((v sid).code en j.req j.payload).Keep (fun _ => True)
  keep : ∀ sid en j, J sid j → ¬ touch j → ((v sid).code en j.req j.payload).Keep (· ≠ x)
  one : ∀ sid en j, J sid j → touch j → ((v sid).code en j.req j.payload).OneMsg
  take : ∀ sid st st' stream f, (v sid).take st stream = .val (st', f) → Keeps (· ≠ x) st st'
  inv : ∀ T w w', Keeps T w w' → I w → I w'

/-- Until the durable request arrives. -/
def Before (touch : Job → Prop) (x : FileId × Nat) (I : World → Prop) (tr : List (Nat × Ext)) (T : System World) : Prop :=
  I T.sh.st ∧ ∀ (sid : Nat) s, T.sessions[sid]? = some s → ∀ (i : Nat) w, s.workers[i]? = some w → w.Calm touch x sid tr

/-- From then on: the request `D` of session `s1` is waiting, or worked on without success so far, … -/
def Outstanding (touch : Job → Prop) (x : FileId × Nat) (I : World → Prop) (s1 : Nat) (D : Job) (ok : List Byte) (b : List (Nat × Ext))
    (T : System World) : Prop :=
  (∀ m, (s1, .sent D.id m) ∈ b → m.bytes ≠ ok) ∧
  ∀ (sid : Nat) s, T.sessions[sid]? = some s →
    (∀ j ∈ s.queue, (sid = s1 ∧ j = D) ∨ ¬ touch j) ∧
    ∀ (i : Nat) w, s.workers[i]? = some w →
      (sid = s1 ∧ w.job = some D ∧ w.Pend x I ok) ∨ (¬ (sid = s1 ∧ w.job = some D) ∧ w.Keep (· ≠ x))

/-- … or the byte is settled. -/
def Safe' (touch : Job → Prop) (x : FileId × Nat) (T : System World) : Prop :=
  Settled T.sh.st x ∧ ∀ (sid : Nat) s, T.sessions[sid]? = some s →
    (∀ j ∈ s.queue, ¬ touch j) ∧ ∀ (i : Nat) w, s.workers[i]? = some w → w.Keep (· ≠ x)

section
variable {v : Nat → Server World} {J : Nat → Job → Prop} {touch : Job → Prop} {x : FileId × Nat} {I : World → Prop}

theorem Before.step (hc : Careful v J touch x I) {tr : List (Nat × Ext)} {T : System World} {sid : Nat} {s s' : Session World}
    {evs : List Ext} {sh' : Shared World} (hb : Before touch x I tr T) (hs : T.sessions[sid]? = some s)
    (ho : Orderly (J sid) sid tr s) (h1 : Step (v sid) sid T.sh s evs sh' s') :
    Before touch x I (tr ++ evs.map (fun e => (sid, e))) ⟨sh', T.sessions.set sid s'⟩ := by
  obtain ⟨hi, hw⟩ := hb
  have hd := h1.does
  generalize hst : sh'.st = st' at hd
  have hothers : ∀ ev, ∀ (sid' : Nat) t, sid' ≠ sid → T.sessions[sid']? = some t → ∀ (i : Nat) w, t.workers[i]? = some w →
      w.Calm touch x sid' (tr ++ [(sid, ev)]) := by
    intro ev sid' t hne ht i w hwi
    refine (hw sid' t ht i w hwi).more ?_
    intro j m _ hh
    exact hne (Prod.mk.inj hh).1.symm
  have hmerge : (∀ (i : Nat) w, s'.workers[i]? = some w → w.Calm touch x sid (tr ++ evs.map (fun e => (sid, e)))) →
      (∀ (sid' : Nat) t, sid' ≠ sid → T.sessions[sid']? = some t → ∀ (i : Nat) w, t.workers[i]? = some w →
        w.Calm touch x sid' (tr ++ evs.map (fun e => (sid, e)))) → I st' →
      Before touch x I (tr ++ evs.map (fun e => (sid, e))) ⟨sh', T.sessions.set sid s'⟩ := by
    intro h2 h3 h4
    refine ⟨by rw [← hst] at h4; exact h4, ?_⟩
    intro sid' t ht
    rcases getElem?_set_cases ht with ⟨rfl, rfl⟩ | ⟨hne, ht⟩
    · exact h2
    · exact h3 sid' t hne ht
  have hsame : ∀ (sid' : Nat) t, sid' ≠ sid → T.sessions[sid']? = some t → ∀ (i : Nat) w, t.workers[i]? = some w →
      w.Calm touch x sid' (tr ++ List.map (fun e => (sid, e)) []) := by
    intro sid' t _ ht i w hwi
    rw [List.map_nil, List.append_nil]
    exact hw sid' t ht i w hwi
  cases hd with
  | main js _ _ hw' hq hjs hst' =>
    have hI : I st' := by
      rcases hst' with rfl | ⟨f, hf⟩
      · exact hi
      · exact hc.inv _ _ _ (hc.take _ _ _ _ _ hf) hi
    match js, hjs with
    | [], _ =>
      refine hmerge ?_ hsame hI
      intro i w hwi
      rw [List.map_nil, List.map_nil, List.append_nil]
      rw [hw'] at hwi
      exact hw sid s hs i w hwi
    | [j], _ =>
      refine hmerge ?_ (hothers _) hI
      intro i w hwi
      rw [hw'] at hwi
      refine (hw sid s hs i w hwi).more ?_
      intro j' m _ hh
      cases hh
  | start i en j _ hidle hq hw' =>
    refine hmerge ?_ hsame hi
    intro i' w hwi
    rw [List.map_nil, List.append_nil]
    rw [hw'] at hwi
    rcases getElem?_set_cases hwi with ⟨rfl, rfl⟩ | ⟨_, hwi⟩
    · obtain ⟨-, q2, q3⟩ := ho.queued j (by rw [hq]; exact List.mem_cons_self)
      exact ⟨hc.any sid en j q2, hc.keep sid en j q2, fun ht => ⟨hc.one sid en j q2 ht, fun ⟨m, hm⟩ => absurd hm (q3 m)⟩⟩
    · exact hw sid s hs i' w hwi
  | op i j f k _ a _ hbusy hf hq hw' =>
    have hcalm := hw sid s hs i _ hbusy
    obtain ⟨c1, c2, c3⟩ := hcalm
    refine hmerge ?_ hsame (hc.inv _ _ _ (c1 _ _ _ hf).1 hi)
    intro i' w hwi
    rw [List.map_nil, List.append_nil]
    rw [hw'] at hwi
    rcases getElem?_set_cases hwi with ⟨rfl, rfl⟩ | ⟨_, hwi⟩
    · exact ⟨(c1 _ _ _ hf).2, fun ht => (c2 ht _ _ _ hf).2, fun ht => ⟨(c3 ht).1 a, fun hm => absurd ((c3 ht).2 hm) id⟩⟩
    · exact hw sid s hs i' w hwi
  | hidden i y y' _ hy hh hq hw' =>
    refine hmerge ?_ hsame hi
    intro i' w hwi
    rw [List.map_nil, List.append_nil]
    rw [hw'] at hwi
    rcases getElem?_set_cases hwi with ⟨rfl, rfl⟩ | ⟨_, hwi⟩
    · exact hh.calm (hw sid s hs i' _ hy)
    · exact hw sid s hs i' w hwi
  | unlock i j m rest k _ hsend hq hw' =>
    refine hmerge ?_ (hothers _) hi
    intro i' w hwi
    rw [hw'] at hwi
    rcases getElem?_set_cases hwi with ⟨rfl, rfl⟩ | ⟨hne, hwi⟩
    · obtain ⟨c1, c2, c3⟩ := hw sid s hs i' _ hsend
      exact ⟨c1, c2, fun ht => ⟨(c3 ht).oneMsg, fun _ => c3 ht⟩⟩
    · refine (hw sid s hs i' w hwi).more ?_
      intro j' m' hj' hh
      obtain ⟨-, hh⟩ := Prod.mk.inj hh
      simp only [Ext.sent.injEq] at hh
      exact hne (ho.distinct i' i w _ j' j hwi hsend hj' rfl hh.1.symm)

theorem Safe'.step (hc : Careful v J touch x I) {tr : List (Nat × Ext)} {T : System World} {sid : Nat} {s s' : Session World}
    {evs : List Ext} {sh' : Shared World} (hb : Safe' touch x T) (hs : T.sessions[sid]? = some s)
    (ho : Orderly (J sid) sid tr s) (h1 : Step (v sid) sid T.sh s evs sh' s') (hnew : ∀ j, .recv j ∈ evs → ¬ touch j) :
    Safe' touch x ⟨sh', T.sessions.set sid s'⟩ := by
  obtain ⟨hi, hw⟩ := hb
  have hd := h1.does
  generalize hst : sh'.st = st' at hd
  have hmerge : (∀ j ∈ s'.queue, ¬ touch j) → (∀ (i : Nat) w, s'.workers[i]? = some w → w.Keep (· ≠ x)) → Settled st' x →
      Safe' touch x ⟨sh', T.sessions.set sid s'⟩ := by
    intro h2 h3 h4
    refine ⟨by rw [← hst] at h4; exact h4, ?_⟩
    intro sid' t ht
    rcases getElem?_set_cases ht with ⟨rfl, rfl⟩ | ⟨hne, ht⟩
    · exact ⟨h2, h3⟩
    · exact hw sid' t ht
  obtain ⟨hq0, hw0⟩ := hw sid s hs
  cases hd with
  | main js _ _ hw' hq hjs hst' =>
    refine hmerge ?_ (by rw [hw']; exact hw0) ?_
    · intro j hj
      rw [hq] at hj
      rcases List.mem_append.mp hj with hj | hj
      · exact hq0 j hj
      · exact hnew j (List.mem_map.mpr ⟨j, hj, rfl⟩)
    · rcases hst' with rfl | ⟨f, hf⟩
      · exact hi
      · exact (hi.keeps (hc.take _ _ _ _ _ hf) (fun h => h rfl)).1
  | start i en j _ hidle hq hw' =>
    have hjm : j ∈ s.queue := by rw [hq]; exact List.mem_cons_self
    refine hmerge ?_ ?_ hi
    · intro j' hj'
      exact hq0 j' (by rw [hq]; exact List.mem_cons_of_mem _ hj')
    · intro i' w hwi
      rw [hw'] at hwi
      rcases getElem?_set_cases hwi with ⟨rfl, rfl⟩ | ⟨_, hwi⟩
      · exact hc.keep sid en j (ho.queued j hjm).2.1 (hq0 j hjm)
      · exact hw0 i' w hwi
  | op i j f k _ a _ hbusy hf hq hw' =>
    have hk := hw0 i _ hbusy _ _ _ hf
    refine hmerge (by rw [hq]; exact hq0) ?_ (hi.keeps hk.1 (fun h => h rfl)).1
    intro i' w hwi
    rw [hw'] at hwi
    rcases getElem?_set_cases hwi with ⟨rfl, rfl⟩ | ⟨_, hwi⟩
    · exact hk.2
    · exact hw0 i' w hwi
  | hidden i y y' _ hy hh hq hw' =>
    refine hmerge (by rw [hq]; exact hq0) ?_ hi
    intro i' w hwi
    rw [hw'] at hwi
    rcases getElem?_set_cases hwi with ⟨rfl, rfl⟩ | ⟨_, hwi⟩
    · exact hh.keep (hw0 i' _ hy)
    · exact hw0 i' w hwi
  | unlock i j m rest k _ hsend hq hw' =>
    refine hmerge (by rw [hq]; exact hq0) ?_ hi
    intro i' w hwi
    rw [hw'] at hwi
    rcases getElem?_set_cases hwi with ⟨rfl, rfl⟩ | ⟨_, hwi⟩
    · exact (hw0 i' (.sending j m rest k) hsend : k.Keep (· ≠ x))
    · exact hw0 i' w hwi

theorem Outstanding.step (hc : Careful v J touch x I) {s1 : Nat} {D : Job} {ok : List Byte} {tr b : List (Nat × Ext)} {T : System World}
    (hD : ∀ en, ((v s1).code en D.req D.payload).Pend I x ok) {sid : Nat} {s s' : Session World}
    {evs : List Ext} {sh' : Shared World} (hI : I T.sh.st) (hb : Outstanding touch x I s1 D ok b T) (hs : T.sessions[sid]? = some s)
    (ho : Orderly (J sid) sid tr s) (h1 : Step (v sid) sid T.sh s evs sh' s') (hnew : ∀ j, .recv j ∈ evs → ¬ touch j)
    (hDr : (s1, .recv D) ∈ tr) :
    Outstanding touch x I s1 D ok (b ++ evs.map (fun e => (sid, e))) ⟨sh', T.sessions.set sid s'⟩ ∨
    Safe' touch x ⟨sh', T.sessions.set sid s'⟩ := by
  obtain ⟨hno, hw⟩ := hb
  have hd := h1.does
  generalize hst : sh'.st = st' at hd
  obtain ⟨hq0, hw0⟩ := hw sid s hs
  have hmerge : (∀ m, (s1, .sent D.id m) ∈ evs.map (fun e => (sid, e)) → m.bytes ≠ ok) →
      (∀ j ∈ s'.queue, (sid = s1 ∧ j = D) ∨ ¬ touch j) →
      (∀ (i : Nat) w, s'.workers[i]? = some w →
        (sid = s1 ∧ w.job = some D ∧ w.Pend x I ok) ∨ (¬ (sid = s1 ∧ w.job = some D) ∧ w.Keep (· ≠ x))) →
      Outstanding touch x I s1 D ok (b ++ evs.map (fun e => (sid, e))) ⟨sh', T.sessions.set sid s'⟩ := by
    intro h0 h2 h3
    refine ⟨?_, ?_⟩
    · intro m hm
      rcases List.mem_append.mp hm with hm | hm
      · exact hno m hm
      · exact h0 m hm
    · intro sid' t ht
      rcases getElem?_set_cases ht with ⟨rfl, rfl⟩ | ⟨hne, ht⟩
      · exact ⟨h2, h3⟩
      · exact hw sid' t ht
  cases hd with
  | main js _ _ hw' hq hjs hst' =>
    refine .inl (hmerge ?_ ?_ (by rw [hw']; exact hw0))
    · intro m hm
      simp only [List.map_map, List.mem_map, Function.comp] at hm
      obtain ⟨j, _, hh⟩ := hm
      cases hh
    · intro j hj
      rw [hq] at hj
      rcases List.mem_append.mp hj with hj | hj
      · exact hq0 j hj
      · exact .inr (hnew j (List.mem_map.mpr ⟨j, hj, rfl⟩))
  | start i en j _ hidle hq hw' =>
    have hjm : j ∈ s.queue := by rw [hq]; exact List.mem_cons_self
    refine .inl (hmerge (by intro m hm; cases hm) ?_ ?_)
    · intro j' hj'
      exact hq0 j' (by rw [hq]; exact List.mem_cons_of_mem _ hj')
    · intro i' w hwi
      rw [hw'] at hwi
      rcases getElem?_set_cases hwi with ⟨rfl, rfl⟩ | ⟨_, hwi⟩
      · by_cases hjd : sid = s1 ∧ j = D
        · obtain ⟨rfl, rfl⟩ := hjd
          exact .inl ⟨rfl, rfl, hD en⟩
        · refine .inr ⟨?_, ?_⟩
          · rintro ⟨h, hj⟩
            exact hjd ⟨h, Option.some.inj hj⟩
          · rcases hq0 j hjm with h | h
            · exact absurd h hjd
            · exact hc.keep sid en j (ho.queued j hjm).2.1 h
      · exact hw0 i' w hwi
  | op i j f k _ a _ hbusy hf hq hw' =>
    rcases hw0 i _ hbusy with ⟨rfl, hj, hp⟩ | ⟨hj, hk⟩
    · obtain rfl := Option.some.inj hj
      rcases hp _ _ _ hI hf with ⟨hset, hkeep⟩ | hp'
      · right
        refine ⟨by rw [← hst] at hset; exact hset, ?_⟩
        intro sid' t ht
        rcases getElem?_set_cases ht with ⟨rfl, rfl⟩ | ⟨hne, ht⟩
        · refine ⟨?_, ?_⟩
          · intro j' hj'
            rw [hq] at hj'
            rcases hq0 j' hj' with ⟨_, rfl⟩ | h
            · exact absurd rfl ((ho.working i _ _ hbusy rfl).2.2 j' hj')
            · exact h
          · intro i' w hwi
            rw [hw'] at hwi
            rcases getElem?_set_cases hwi with ⟨rfl, rfl⟩ | ⟨hne, hwi⟩
            · exact hkeep
            · rcases hw0 i' w hwi with ⟨_, hj', _⟩ | ⟨_, hk⟩
              · exact absurd (ho.distinct i' i w _ _ _ hwi hbusy hj' rfl rfl) hne
              · exact hk
        · obtain ⟨g1, g2⟩ := hw sid' t ht
          refine ⟨?_, ?_⟩
          · intro j' hj'
            rcases g1 j' hj' with ⟨h, _⟩ | h
            · exact absurd h hne
            · exact h
          · intro i' w hwi
            rcases g2 i' w hwi with ⟨h, _⟩ | ⟨_, h⟩
            · exact absurd h hne
            · exact h
      · refine .inl (hmerge (by intro m hm; cases hm) (by rw [hq]; exact hq0) ?_)
        intro i' w hwi
        rw [hw'] at hwi
        rcases getElem?_set_cases hwi with ⟨rfl, rfl⟩ | ⟨_, hwi⟩
        · exact .inl ⟨rfl, rfl, hp'⟩
        · exact hw0 i' w hwi
    · refine .inl (hmerge (by intro m hm; cases hm) (by rw [hq]; exact hq0) ?_)
      intro i' w hwi
      rw [hw'] at hwi
      rcases getElem?_set_cases hwi with ⟨rfl, rfl⟩ | ⟨_, hwi⟩
      · exact .inr ⟨hj, (hk _ _ _ hf).2⟩
      · exact hw0 i' w hwi
  | hidden i y y' _ hy hh hq hw' =>
    refine .inl (hmerge (by intro m hm; cases hm) (by rw [hq]; exact hq0) ?_)
    intro i' w hwi
    rw [hw'] at hwi
    rcases getElem?_set_cases hwi with ⟨rfl, rfl⟩ | ⟨_, hwi⟩
    · rcases hw0 i' _ hy with ⟨g1, g2, g3⟩ | ⟨g1, g2⟩
      · rcases hh.job with hn | hn
        · refine .inr ⟨(by rw [hn]; rintro ⟨_, h⟩; cases h), ?_⟩
          cases hh with
          | finish j en => trivial
          | lock j m k => cases hn
          | write j m xs ys k => cases hn
          | log j bs k => cases hn
        · exact .inl ⟨g1, by rw [hn]; exact g2, hh.pend g3⟩
      · refine .inr ⟨?_, hh.keep g2⟩
        rcases hh.job with hn | hn
        · rw [hn]; rintro ⟨_, h⟩; cases h
        · rw [hn]; exact g1
    · exact hw0 i' w hwi
  | unlock i j m rest k _ hsend hq hw' =>
    have hjt := (ho.working i _ j hsend rfl).1
    refine .inl (hmerge ?_ (by rw [hq]; exact hq0) ?_)
    · intro m' hm'
      simp only [List.map_cons, List.map_nil, List.mem_singleton, Prod.mk.injEq, Ext.sent.injEq] at hm'
      obtain ⟨rfl, hid, rfl⟩ := hm'
      have hjD : j = D := ho.once j D hjt hDr hid.symm
      subst hjD
      rcases hw0 i _ hsend with ⟨_, _, g⟩ | ⟨g, _⟩
      · exact g.1
      · exact absurd ⟨rfl, rfl⟩ g
    · intro i' w hwi
      rw [hw'] at hwi
      rcases getElem?_set_cases hwi with ⟨rfl, rfl⟩ | ⟨_, hwi⟩
      · rcases hw0 i' _ hsend with ⟨g1, g2, g3⟩ | ⟨g1, g2⟩
        · exact .inl ⟨g1, g2, g3.2⟩
        · exact .inr ⟨g1, g2⟩
      · exact hw0 i' w hwi

theorem Exec.settled {view : World → Flat} {P Q : Nat → Job → List Act → Prop} (hv : ∀ sid, (v sid).Meets view (J sid) (P sid) (Q sid))
    (hc : Careful v J touch x I) {S T : System World} {tr : List (Nat × Ext)} (hf : ∀ s ∈ S.sessions, s.Fresh) (hI : I S.sh.st)
    {s1 : Nat} {D : Job} {ok : List Byte} {pre : List (Nat × Ext)} (hD : ∀ en, ((v s1).code en D.req D.payload).Pend I x ok)
    (hpre : ∀ sid j, (sid, .recv j) ∈ pre → touch j → ∃ m, (sid, .sent j.id m) ∈ pre)
    (hx : Exec v S tr T) : Before touch x I tr T ∧ ∀ b, tr = pre ++ (s1, .recv D) :: b →
      (∀ sid j, (sid, .recv j) ∈ b → ¬ touch j) → Outstanding touch x I s1 D ok b T ∨ Safe' touch x T := by
  induction hx with
  | nil =>
    refine ⟨⟨hI, ?_⟩, ?_⟩
    · intro sid s hs i w hw
      obtain ⟨stream, errnos, pos, rfl⟩ := hf s (List.mem_of_getElem? hs)
      simp only [Session.fresh, List.getElem?_map, Option.map_eq_some_iff] at hw
      obtain ⟨en, _, rfl⟩ := hw
      trivial
    · intro b hb
      simp at hb
  | step tr T sid s s' evs sh' hx hs h1 ih =>
    obtain ⟨ih1, ih2⟩ := ih
    have ho := hx.orderly hv hf sid s hs
    have hx' := Exec.step tr T sid s s' evs sh' hx hs h1
    refine ⟨ih1.step hc hs ho h1, ?_⟩
    intro b hb hnt
    have hlen : evs = [] ∨ ∃ ev, evs = [ev] := by
      have hd := h1.does
      generalize sh'.st = st' at hd
      cases hd with
      | main js _ _ hw' hq hjs hst' =>
        match js, hjs with
        | [], _ => exact .inl rfl
        | [j], _ => exact .inr ⟨_, rfl⟩
      | start => exact .inl rfl
      | op => exact .inl rfl
      | hidden => exact .inl rfl
      | unlock => exact .inr ⟨_, rfl⟩
    -- the durable request was received before, or just now
    have hcase : (∃ b0, tr = pre ++ (s1, .recv D) :: b0 ∧ b = b0 ++ evs.map (fun e => (sid, e))) ∨
        (tr = pre ∧ sid = s1 ∧ evs = [.recv D] ∧ b = []) := by
      rcases hlen with rfl | ⟨ev, rfl⟩
      · left
        rw [List.map_nil, List.append_nil] at hb
        exact ⟨b, hb, by simp⟩
      · rcases List.eq_nil_or_concat b with rfl | ⟨b0, e, rfl⟩
        · right
          have := List.append_inj' hb rfl
          simp only [List.map_cons, List.map_nil, List.cons.injEq, Prod.mk.injEq, and_true] at this
          obtain ⟨rfl, rfl, rfl⟩ := this
          exact ⟨rfl, rfl, rfl, rfl⟩
        · left
          have hb' : tr ++ [(sid, ev)] = (pre ++ (s1, .recv D) :: b0) ++ [e] := by
            rw [List.map_cons, List.map_nil] at hb
            rw [hb]
            simp [List.concat_eq_append]
          obtain ⟨h2, h3⟩ := List.append_inj' hb' rfl
          refine ⟨b0, h2, ?_⟩
          rw [List.concat_eq_append, List.map_cons, List.map_nil, h3]
    rcases hcase with ⟨b0, rfl, rfl⟩ | ⟨rfl, rfl, rfl, rfl⟩
    · have hnew : ∀ j, .recv j ∈ evs → ¬ touch j := by
        intro j hj
        exact hnt sid j (List.mem_append_right _ (List.mem_map.mpr ⟨_, hj, rfl⟩))
      rcases ih2 b0 rfl (fun sid j hj => hnt sid j (List.mem_append_left _ hj)) with hw | hsafe
      · exact hw.step hc hD ih1.1 hs ho h1 hnew (by simp)
      · exact .inr (hsafe.step hc hs ho h1 hnew)
    · left
      refine ⟨(by intro m hm; cases hm), ?_⟩
      have hall := fun sid' t ht => hx'.orderly hv hf sid' t ht
      have hd := h1.does
      generalize hevs : [Ext.recv D] = evs at hd
      generalize hst : sh'.st = st' at hd
      cases hd with
      | start => cases hevs
      | op => cases hevs
      | hidden => cases hevs
      | unlock => cases hevs
      | main js _ _ hw' hq hjs hst' =>
        have hjs' : js = [D] := by
          match js, hevs with
          | [j], hevs =>
            simp only [List.map_cons, List.map_nil, List.cons.injEq, Ext.recv.injEq, and_true] at hevs
            rw [hevs]
        subst hjs'
        have hold : ∀ (sid' : Nat) t, T.sessions[sid']? = some t →
            (∀ j ∈ t.queue, ¬ touch j) ∧ ∀ (i : Nat) w, t.workers[i]? = some w → w.Keep (· ≠ x) := by
          intro sid' t ht
          have ho' := hx.orderly hv hf sid' t ht
          refine ⟨?_, ?_⟩
          · intro j hj htj
            obtain ⟨q1, _, q3⟩ := ho'.queued j hj
            obtain ⟨m, hm⟩ := hpre sid' j q1 htj
            exact q3 m hm
          · intro i w hwi
            refine (ih1.2 sid' t ht i w hwi).keep ?_
            intro j hj htj
            exact hpre sid' j (ho'.working i w j hwi hj).1 htj
        intro sid' t ht
        rcases getElem?_set_cases ht with ⟨rfl, rfl⟩ | ⟨hne, ht⟩
        · refine ⟨?_, ?_⟩
          · intro j hj
            rw [hq] at hj
            rcases List.mem_append.mp hj with hj | hj
            · exact .inr ((hold _ s hs).1 j hj)
            · exact .inl ⟨rfl, List.mem_singleton.mp hj⟩
          · intro i w hwi
            refine .inr ⟨?_, (hold _ s hs).2 i w (by rw [← hw']; exact hwi)⟩
            rintro ⟨_, hj⟩
            have := hall _ _ ht
            exact (this.working i w D hwi hj).2.2 D (by rw [hq]; simp) rfl
        · refine ⟨fun j hj => .inr ((hold sid' t ht).1 j hj), ?_⟩
          intro i w hwi
          exact .inr ⟨fun h => hne h.1, (hold sid' t ht).2 i w hwi⟩

end

end Nbd
