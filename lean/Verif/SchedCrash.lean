import Verif.SchedNeat
/-! # What the threads of a session on a plain export are about to send and to log -/

set_option autoImplicit false

namespace Nbd

open Spec

/-- What a thread has still to do is as in `Prog.Neat`. (Models no code of its own.) -/
def Worker.Neat {σ : Type} (Q : Msg → Prop) : Worker σ → Prop
  | .idle _ => True
  | .busy _ p => ∃ o, p.Neat Q o
  | .sending _ m _ k => ∃ o, (Prog.send m k).Neat Q o

/-- What holds of a session on a plain export between any two steps. (Models no code of its own.) -/
structure Underway (e : Endian) (cl : Client) (s : Session World) : Prop where
  queue : ∀ j ∈ s.queue, j.req.cookie.length = 8
  jobs : ∀ x ∈ s.workers, ∀ j, x.job = some j → j.req.cookie.length = 8 ∧ x.Neat (HdrOk e j.req.cookie)
  keeps : s.main = .payload → (plainServer e cl true).keeps s.stream = true

theorem Underway.worker {e : Endian} {cl : Client} {s s' : Session World} (hi : Underway e cl s) {i : Nat} {y : Worker World}
    (hq : ∀ j ∈ s'.queue, j ∈ s.queue) (hw : s'.workers = s.workers.set i y)
    (hy : ∀ j, y.job = some j → j.req.cookie.length = 8 ∧ y.Neat (HdrOk e j.req.cookie))
    (hm : s'.main = s.main) (hst : s'.stream = s.stream) : Underway e cl s' := by
  refine ⟨fun j hj => hi.queue j (hq j hj), ?_, ?_⟩
  · intro x hx j hj
    rw [hw] at hx
    rcases List.mem_or_eq_of_mem_set hx with h | rfl
    · exact hi.jobs x h j hj
    · exact hy j hj
  · rw [hm, hst]
    exact hi.keeps

theorem Underway.step {e : Endian} {cl : Client} {sid : Nat} {sh sh' : Shared World} {s s' : Session World} {evs : List Ext}
    (hi : Underway e cl s) (h : Step (plainServer e cl true) sid sh s evs sh' s') : Underway e cl s' := by
  cases h with
  | accept st r p rest hm hk hsem ht =>
    refine ⟨?_, hi.jobs, fun h => by rw [hm] at h; cases h⟩
    intro j hj
    rcases List.mem_append.mp hj with hj | hj
    · exact hi.queue j hj
    · rw [List.mem_singleton] at hj
      subst hj
      exact fetch_cookie _ _ _ _ _ _ _ _ ht
  | hold hm hk hsem => exact ⟨hi.queue, hi.jobs, fun _ => hk⟩
  | acceptData st r bs rest hm ht =>
    refine ⟨?_, hi.jobs, fun h => by cases h⟩
    intro j hj
    rcases List.mem_append.mp hj with hj | hj
    · exact hi.queue j hj
    · rw [List.mem_singleton] at hj
      subst hj
      exact fetch_cookie _ _ _ _ _ _ _ _ ht
  | magic hm hb => exact ⟨hi.queue, hi.jobs, fun h => by cases h⟩
  | gone st hm hb ht => exact ⟨hi.queue, hi.jobs, fun h => by cases h⟩
  | disc st rest hm hk hsem ht => exact ⟨hi.queue, hi.jobs, fun h => by cases h⟩
  | takeFails ph hm ht =>
    refine ⟨hi.queue, hi.jobs, fun h => ?_⟩
    rcases ht with ⟨_, rfl⟩ | ⟨_, rfl⟩ <;> cases h
  | close hm hq hw => exact ⟨hi.queue, hi.jobs, fun h => by cases h⟩
  | start i en j q ha hw hq =>
    refine hi.worker (i := i) (fun x hx => by rw [hq]; exact List.mem_cons_of_mem _ hx) rfl ?_ rfl rfl
    intro j' hj'
    cases hj'
    have hc := hi.queue j (by rw [hq]; exact List.mem_cons_self)
    exact ⟨hc, _, requestP_neat e cl en j.req hc j.payload⟩
  | op i j f k st a ha hw hf =>
    refine hi.worker (i := i) (fun _ h => h) rfl ?_ rfl rfl
    intro j' hj'
    cases hj'
    obtain ⟨h1, o, h2⟩ := hi.jobs _ (List.mem_of_getElem? hw) j rfl
    exact ⟨h1, _, h2.2 a⟩
  | opFails i j f k ph ha hw hf =>
    refine ⟨hi.queue, hi.jobs, fun h => ?_⟩
    rcases hf with ⟨_, rfl⟩ | ⟨_, rfl⟩ <;> cases h
  | lock i j m k ha hw hl =>
    refine hi.worker (i := i) (fun _ h => h) rfl ?_ rfl rfl
    intro j' hj'
    cases hj'
    exact hi.jobs _ (List.mem_of_getElem? hw) j rfl
  | write i j m xs ys k ha hw hx hy =>
    refine hi.worker (i := i) (fun _ h => h) rfl ?_ rfl rfl
    intro j' hj'
    cases hj'
    exact hi.jobs _ (List.mem_of_getElem? hw) j rfl
  | unlock i j m rest k ha hw =>
    refine hi.worker (i := i) (fun _ h => h) rfl ?_ rfl rfl
    intro j' hj'
    cases hj'
    obtain ⟨h1, o, h2, h3⟩ := hi.jobs _ (List.mem_of_getElem? hw) j rfl
    rcases h3 with ⟨_, _, h3⟩ | ⟨_, h3⟩
    · exact ⟨h1, _, h3⟩
    · exact ⟨h1, _, h3⟩
  | log i j bs k ha hw hsem =>
    refine hi.worker (i := i) (fun _ h => h) rfl ?_ rfl rfl
    intro j' hj'
    cases hj'
    obtain ⟨h1, o, h2⟩ := hi.jobs _ (List.mem_of_getElem? hw) j rfl
    rcases h2 with ⟨_, _, h3⟩ | ⟨_, h3⟩
    · exact ⟨h1, _, h3⟩
    · exact ⟨h1, _, h3⟩
  | finish i j en ha hw =>
    refine hi.worker (i := i) (fun _ h => h) rfl ?_ rfl rfl
    intro j' hj'
    cases hj'

theorem Exec.underway {e : Endian} {cl : Client} {S T : System World} {tr : List (Nat × Ext)}
    (hfresh : ∀ s ∈ S.sessions, s.Fresh) (hx : Exec (fun _ => plainServer e cl true) S tr T) :
    ∀ s ∈ T.sessions, Underway e cl s := by
  induction hx with
  | nil =>
    intro s hs
    obtain ⟨stream, errnos, pos, rfl⟩ := hfresh s hs
    refine ⟨by simp [Session.fresh], ?_, fun h => by cases h⟩
    intro x hx j hj
    simp only [Session.fresh, List.mem_map] at hx
    obtain ⟨en, _, rfl⟩ := hx
    cases hj
  | step tr S' sid s s' evs sh' h0 hs hst ih =>
    intro t ht
    rcases List.mem_or_eq_of_mem_set ht with h | rfl
    · exact ih t h
    · exact (ih s (List.mem_of_getElem? hs)).step hst

/-- The header that has been logged and is still to be sent is that of a simple reply. -/
theorem Underway.owed {e : Endian} {cl : Client} {s : Session World} (hi : Underway e cl s) {x : Worker World} {j : Job} {h : List Byte}
    (hx : x ∈ s.workers) (hj : x.job = some j) (hl : x.Logs (.send h)) (h20 : h.length ≠ 20) :
    ∃ err, err < 2 ^ 32 ∧ j.req.cookie.length = 8 ∧ h = (Record.reply err j.req.cookie).encode := by
  obtain ⟨hc, hn⟩ := hi.jobs x hx j hj
  have key : ∀ m k, (∃ o, (Prog.send (σ := World) m k).Neat (HdrOk e j.req.cookie) o) → (Prog.send m k).Logs (.send h) →
      ∃ err, err < 2 ^ 32 ∧ j.req.cookie.length = 8 ∧ h = (Record.reply err j.req.cookie).encode := by
    intro m k ⟨o, hq, _⟩ hl
    rcases hl with ⟨h1, _⟩ | ⟨h1, _⟩
    · cases h1
    · cases h1
      rcases hq with ⟨v, hv⟩ | ⟨f, t, l, b, rfl⟩
      · refine ⟨(ntohl e v).toNat, (ntohl e v).toNat_lt, hc, ?_⟩
        rw [hv]
        have := simpleHdr_eq e (ntohl e v) j.req.cookie
        rw [ntohl_ntohl] at this
        rw [this]
        rfl
      · exact absurd (by simp [chunkMsg, hc]) h20
  cases x with
  | idle en => cases hj
  | sending j' m rest k => exact key m k hn hl
  | busy j' p =>
    cases p with
    | done en => cases hl
    | op f k => cases hl.1
    | log bs k => rcases hl with ⟨h1, _⟩ | ⟨h1, _⟩ <;> cases h1
    | send m k => exact key m k hn hl

end Nbd
