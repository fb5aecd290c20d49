import Verif.SchedLemmas

/-! Executions in which the shared state keeps a property: the programs need to be good only in states that have it. -/

set_option autoImplicit false

namespace Nbd
open Spec

variable {σ : Type}

/-- `Prog.Good` in states with `I`, which every step keeps. -/
def Prog.GoodI (I : σ → Prop) (view : σ → Flat) (P Q : List Act → Prop) : Prog σ → List Act → Prop
  | .done _, l => P l
  | .op f k, l => Q l ∧ ∀ s s' a, I s → f s = .val (s', a) →
      I s' ∧ ∃ es, Quiet es ∧ Legal (view s) es (view s') ∧ (k a).GoodI I view P Q (l ++ es)
  | .send m k, l => Q l ∧ k.GoodI I view P Q (l ++ [.msg m])
  | .log _ k, l => Q l ∧ k.GoodI I view P Q l

/-- Every step of the program keeps `I`. -/
def Prog.Keeps (I : σ → Prop) : Prog σ → Prop
  | .done _ => True
  | .op f k => ∀ s s' a, I s → f s = .val (s', a) → I s' ∧ (k a).Keeps I
  | .send _ k => k.Keeps I
  | .log _ k => k.Keeps I

theorem Prog.GoodI.keeps {I : σ → Prop} {view : σ → Flat} {P Q : List Act → Prop} {p : Prog σ} {l : List Act}
    (h : p.GoodI I view P Q l) : p.Keeps I := by
  induction p generalizing l with
  | done en => trivial
  | op f k ih =>
    intro s s' a hs hf
    obtain ⟨h1, es, -, -, h4⟩ := h.2 s s' a hs hf
    exact ⟨h1, ih a h4⟩
  | send m k ih => exact ih h.2
  | log bs k ih => exact ih h.2

/-- A program that ends the process in states without `I`. (Only in proofs.) -/
noncomputable def Prog.guard (I : σ → Prop) : Prog σ → Prog σ
  | .done en => .done en
  | .op f k => .op (fun s => open Classical in if I s then f s else .exit) (fun a => (k a).guard I)
  | .send m k => .send m (k.guard I)
  | .log bs k => .log bs (k.guard I)

theorem Prog.GoodI.guard {I : σ → Prop} {view : σ → Flat} {P Q : List Act → Prop} {p : Prog σ} {l : List Act}
    (h : p.GoodI I view P Q l) : (p.guard I).Good view P Q l := by
  induction p generalizing l with
  | done en => exact h
  | op f k ih =>
    refine ⟨h.1, ?_⟩
    intro s s' a hf
    dsimp only at hf
    by_cases hs : I s
    · rw [if_pos hs] at hf
      obtain ⟨-, es, h2, h3, h4⟩ := h.2 s s' a hs hf
      exact ⟨es, h2, h3, ih a h4⟩
    · rw [if_neg hs] at hf; cases hf
  | send m k ih => exact ⟨h.1, ih h.2⟩
  | log bs k ih => exact ⟨h.1, ih h.2⟩

noncomputable def Worker.guard (I : σ → Prop) : Worker σ → Worker σ
  | .idle en => .idle en
  | .busy j p => .busy j (p.guard I)
  | .sending j m rest k => .sending j m rest (k.guard I)

def Worker.Keeps (I : σ → Prop) : Worker σ → Prop
  | .idle _ => True
  | .busy _ p => p.Keeps I
  | .sending _ _ _ k => k.Keeps I

noncomputable def Session.guard (I : σ → Prop) (s : Session σ) : Session σ := { s with workers := s.workers.map (Worker.guard I) }

noncomputable def Server.guard (I : σ → Prop) (v : Server σ) : Server σ := { v with code := fun en r p => (v.code en r p).guard I }

/-- What a server's code has to satisfy in states with `I`. -/
structure Server.MeetsI (v : Server σ) (I : σ → Prop) (view : σ → Flat) (J : Job → Prop)
    (P Q : Job → List Act → Prop) : Prop where
  wf : ∀ (n : Nat) (r : Req) (p : Payload) (st st' : σ) (stream rest : List Byte),
    v.take st stream = .val (st', .push r p rest) → J ⟨n, r, p⟩
  code : ∀ (en : Nat) (j : Job), J j → (v.code en j.req j.payload).GoodI I view (P j) (Q j) []
  take : ∀ (st st' : σ) (stream : List Byte) (x : Fetched), v.take st stream = .val (st', x) →
    view st' = view st ∧ (I st → I st')
  weaken : ∀ j l, P j l → Q j l

theorem Server.MeetsI.guard {v : Server σ} {I : σ → Prop} {view : σ → Flat} {J : Job → Prop} {P Q : Job → List Act → Prop}
    (h : v.MeetsI I view J P Q) : (v.guard I).Meets view J P Q :=
  ⟨h.wf, fun en j hj => (h.code en j hj).guard, fun st st' stream x hx => (h.take st st' stream x hx).1, h.weaken⟩

/-- What every session keeps to. -/
structure Session.KeepsI (I : σ → Prop) (v : Server σ) (s : Session σ) : Prop where
  queue : ∀ j ∈ s.queue, ∀ en, (v.code en j.req j.payload).Keeps I
  workers : ∀ x ∈ s.workers, x.Keeps I

theorem Session.guard_set (I : σ → Prop) (ws : List (Worker σ)) (i : Nat) (x : Worker σ) :
    (ws.set i x).map (Worker.guard I) = (ws.map (Worker.guard I)).set i (x.guard I) := List.map_set

theorem keepsI_set {I : σ → Prop} {ws : List (Worker σ)} {i : Nat} {x : Worker σ} (h : ∀ y ∈ ws, y.Keeps I) (hx : x.Keeps I) :
    ∀ y ∈ ws.set i x, y.Keeps I := by
  intro y hy
  rcases List.mem_or_eq_of_mem_set hy with hy | rfl
  · exact h y hy
  · exact hx

theorem guard_at {I : σ → Prop} {ws : List (Worker σ)} {i : Nat} {x : Worker σ} (h : ws[i]? = some x) :
    (ws.map (Worker.guard I))[i]? = some (x.guard I) := by rw [List.getElem?_map, h]; rfl

theorem Step.guard {I : σ → Prop} {view : σ → Flat} {J : Job → Prop} {P Q : Job → List Act → Prop} {v : Server σ}
    (hv : v.MeetsI I view J P Q) {sid : Nat} {sh sh' : Shared σ} {s s' : Session σ} {evs : List Ext}
    (h : Step v sid sh s evs sh' s') (hI : I sh.st) (hs : s.KeepsI I v) :
    Step (v.guard I) sid sh (s.guard I) evs sh' (s'.guard I) ∧ I sh'.st ∧ s'.KeepsI I v := by
  have hpush : ∀ {st st' : σ} {stream rest : List Byte} {r : Req} {p : Payload} (n : Nat), v.take st stream = .val (st', .push r p rest) →
      ∀ j ∈ s.queue ++ [⟨n, r, p⟩], ∀ en, (v.code en j.req j.payload).Keeps I := by
    intro st st' stream rest r p n h j hj en
    rcases List.mem_append.mp hj with hj | hj
    · exact hs.queue j hj en
    · rw [List.mem_singleton] at hj
      subst hj
      exact (hv.code en _ (hv.wf _ _ _ _ _ _ _ h)).keeps
  cases h with
  | accept st r p rest hm hk hsem h =>
    exact ⟨.accept (v := v.guard I) sh (s.guard I) st r p rest hm hk hsem h, (hv.take _ _ _ _ h).2 hI, ⟨hpush _ h, hs.workers⟩⟩
  | hold hm hk hsem => exact ⟨.hold (v := v.guard I) sh (s.guard I) hm hk hsem, hI, ⟨hs.queue, hs.workers⟩⟩
  | acceptData st r bs rest hm h =>
    exact ⟨.acceptData (v := v.guard I) sh (s.guard I) st r bs rest hm h, (hv.take _ _ _ _ h).2 hI, ⟨hpush _ h, hs.workers⟩⟩
  | magic hm hb => exact ⟨.magic (v := v.guard I) sh (s.guard I) hm hb, hI, ⟨hs.queue, hs.workers⟩⟩
  | gone st hm hb h =>
    exact ⟨.gone (v := v.guard I) sh (s.guard I) st hm hb h, (hv.take _ _ _ _ h).2 hI, ⟨hs.queue, hs.workers⟩⟩
  | disc st rest hm hk hsem h =>
    exact ⟨.disc (v := v.guard I) sh (s.guard I) st rest hm hk hsem h, (hv.take _ _ _ _ h).2 hI, ⟨hs.queue, hs.workers⟩⟩
  | takeFails ph hm h => exact ⟨.takeFails (v := v.guard I) sh (s.guard I) ph hm h, hI, ⟨hs.queue, hs.workers⟩⟩
  | close hm hq hw =>
    refine ⟨.close (v := v.guard I) sh (s.guard I) hm hq ?_, hI, ⟨hs.queue, hs.workers⟩⟩
    intro x hx
    obtain ⟨y, hy, rfl⟩ := List.mem_map.mp hx
    obtain ⟨en, rfl⟩ := hw y hy
    exact ⟨en, rfl⟩
  | start i en j q ha hw hq =>
    refine ⟨?_, hI, ⟨fun j' hj' => hs.queue j' (by rw [hq]; exact List.mem_cons_of_mem _ hj'),
      keepsI_set hs.workers (hs.queue j (by rw [hq]; exact List.mem_cons_self) en)⟩⟩
    have := Step.start (v := v.guard I) (sid := sid) sh (s.guard I) i en j q ha (guard_at hw) hq
    unfold Session.guard
    rw [Session.guard_set]
    exact this
  | op i j f k st a ha hw h =>
    have hk : (Prog.op f k).Keeps I := hs.workers _ (List.mem_of_getElem? hw)
    obtain ⟨k1, k2⟩ := hk _ _ _ hI h
    refine ⟨?_, k1, ⟨hs.queue, keepsI_set hs.workers k2⟩⟩
    have := Step.op (v := v.guard I) (sid := sid) sh (s.guard I) i j _ _ st a ha (guard_at hw) (by rw [if_pos hI]; exact h)
    unfold Session.guard
    rw [Session.guard_set]
    exact this
  | opFails i j f k ph ha hw h =>
    exact ⟨.opFails (v := v.guard I) sh (s.guard I) i j _ _ ph ha (guard_at hw) (by rw [if_pos hI]; exact h), hI, ⟨hs.queue, hs.workers⟩⟩
  | lock i j m k ha hw hl =>
    have hk : (Prog.send m k).Keeps I := hs.workers _ (List.mem_of_getElem? hw)
    refine ⟨?_, hI, ⟨hs.queue, keepsI_set hs.workers (by exact hk)⟩⟩
    have := Step.lock (v := v.guard I) (sid := sid) sh (s.guard I) i j m _ ha (guard_at hw) hl
    unfold Session.guard
    rw [Session.guard_set]
    exact this
  | write i j m xs ys k ha hw hx hy =>
    have hk : (Worker.sending j m (xs ++ ys) k).Keeps I := hs.workers _ (List.mem_of_getElem? hw)
    refine ⟨?_, hI, ⟨hs.queue, keepsI_set hs.workers (by exact hk)⟩⟩
    have := Step.write (v := v.guard I) (sid := sid) sh (s.guard I) i j m xs ys _ ha (guard_at hw) hx hy
    unfold Session.guard
    rw [Session.guard_set]
    exact this
  | unlock i j m rest k ha hw =>
    have hk : (Worker.sending j m rest k).Keeps I := hs.workers _ (List.mem_of_getElem? hw)
    refine ⟨?_, hI, ⟨hs.queue, keepsI_set hs.workers (by exact hk)⟩⟩
    have := Step.unlock (v := v.guard I) (sid := sid) sh (s.guard I) i j m rest _ ha (guard_at hw)
    unfold Session.guard
    rw [Session.guard_set]
    exact this
  | log i j bs k ha hw hsem =>
    have hk : (Prog.log bs k).Keeps I := hs.workers _ (List.mem_of_getElem? hw)
    refine ⟨?_, hI, ⟨hs.queue, keepsI_set hs.workers (by exact hk)⟩⟩
    have := Step.log (v := v.guard I) (sid := sid) sh (s.guard I) i j bs _ ha (guard_at hw) hsem
    unfold Session.guard
    rw [Session.guard_set]
    exact this
  | finish i j en ha hw =>
    refine ⟨?_, hI, ⟨hs.queue, keepsI_set hs.workers trivial⟩⟩
    have := Step.finish (v := v.guard I) (sid := sid) sh (s.guard I) i j en ha (guard_at hw)
    unfold Session.guard
    rw [Session.guard_set]
    exact this

theorem guard_fresh {I : σ → Prop} {s : Session σ} (h : s.Fresh) : s.guard I = s := by
  obtain ⟨stream, errnos, pos, rfl⟩ := h
  simp only [Session.guard, Session.fresh, List.map_map]
  rfl

theorem Exec.guard {I : σ → Prop} {view : σ → Flat} {J : Job → Prop} {P Q : Nat → Job → List Act → Prop} {v : Nat → Server σ}
    (hv : ∀ sid, (v sid).MeetsI I view J (P sid) (Q sid)) {S T : System σ} {tr : List (Nat × Ext)}
    (hf : ∀ s ∈ S.sessions, s.Fresh) (hI : I S.sh.st) (hx : Exec v S tr T) :
    Exec (fun sid => (v sid).guard I) S tr ⟨T.sh, T.sessions.map (Session.guard I)⟩ ∧ I T.sh.st ∧
      ∀ (sid : Nat) s, T.sessions[sid]? = some s → s.KeepsI I (v sid) := by
  induction hx with
  | nil =>
    refine ⟨?_, hI, ?_⟩
    · have : S.sessions.map (Session.guard I) = S.sessions := by
        conv => rhs; rw [← List.map_id S.sessions]
        exact List.map_congr_left fun s hs => guard_fresh (hf s hs)
      rw [this]
      exact .nil
    · intro sid s hs
      obtain ⟨stream, errnos, pos, rfl⟩ := hf s (List.mem_of_getElem? hs)
      refine ⟨(by intro j hj; cases hj), ?_⟩
      intro x hx
      simp only [Session.fresh, List.mem_map] at hx
      obtain ⟨en, -, rfl⟩ := hx
      trivial
  | step tr T sid s s' evs sh' h hs h1 ih =>
    obtain ⟨i1, i2, i3⟩ := ih
    obtain ⟨k1, k2, k3⟩ := h1.guard (hv sid) i2 (i3 sid s hs)
    refine ⟨?_, k2, ?_⟩
    · rw [List.map_set]
      exact .step tr _ sid (s.guard I) _ evs sh' i1 (by show (T.sessions.map _)[sid]? = _; rw [List.getElem?_map, hs]; rfl) k1
    · intro sid' x hx
      by_cases hne : sid = sid'
      · subst hne
        rw [List.getElem?_set_self (List.getElem?_eq_some_iff.mp hs).1] at hx
        cases hx
        exact k3
      · rw [List.getElem?_set_ne hne] at hx
        exact i3 _ _ hx

theorem Prog.Good.inI {I : σ → Prop} {view : σ → Flat} {P Q : List Act → Prop} {p : Prog σ} {l : List Act}
    (h : p.Good view P Q l) (hk : p.Keeps I) : p.GoodI I view P Q l := by
  induction p generalizing l with
  | done en => exact h
  | op f k ih =>
    refine ⟨h.1, ?_⟩
    intro s s' a hs hf
    obtain ⟨k1, k2⟩ := hk s s' a hs hf
    obtain ⟨es, h2, h3, h4⟩ := h.2 s s' a hf
    exact ⟨k1, es, h2, h3, ih a h4 k2⟩
  | send m k ih => exact ⟨h.1, ih h.2 hk⟩
  | log bs k ih => exact ⟨h.1, ih h.2 hk⟩

end Nbd
