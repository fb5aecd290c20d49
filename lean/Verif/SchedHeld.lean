import Verif.SchedRun
import Verif.SchedOne
import Verif.SchedLive
/-! # The queue of a session: order, and what has been sent for its requests -/

set_option autoImplicit false

namespace Nbd

open Spec

/-- Requests leave the queue in the order of their arrival, and no message is sent for one that is
in the queue. -/
structure QInv {σ : Type} (got : List Job) (snt : List (Nat × Msg)) (s : Session σ) : Prop where
  ids : got.map Job.id = List.range s.count
  split : ∃ dn, got = dn ++ s.queue ∧ (∀ x ∈ snt, x.1 < dn.length) ∧
    ∀ x ∈ s.workers, ∀ j, x.job = some j → j ∈ dn

theorem QInv.id_lt {σ : Type} {got dn q : List Job} {s : Session σ} (hids : got.map Job.id = List.range s.count)
    (hg : got = dn ++ q) : ∀ j ∈ dn, j.id < dn.length := by
  intro j hj
  obtain ⟨i, hi, rfl⟩ := List.getElem_of_mem hj
  have h1 : (got.map Job.id)[i]? = some dn[i].id := by
    rw [hg, List.map_append, List.getElem?_append_left (by simpa using hi)]
    simp [hi]
  rw [hids, List.getElem?_range] at h1
  · have : i = dn[i].id := by simpa using h1
    omega
  · have h3 := congrArg List.length hids
    simp only [List.length_map, List.length_range, hg, List.length_append] at h3
    omega

theorem QInv.id_ge {σ : Type} {got dn q : List Job} {s : Session σ} (hids : got.map Job.id = List.range s.count)
    (hg : got = dn ++ q) : ∀ j ∈ q, dn.length ≤ j.id := by
  intro j hj
  obtain ⟨i, hi, rfl⟩ := List.getElem_of_mem hj
  have h1 : (got.map Job.id)[dn.length + i]? = some q[i].id := by
    rw [hg, List.map_append, List.getElem?_append_right (by simp)]
    simp [hi]
  rw [hids, List.getElem?_range] at h1
  · have : dn.length + i = q[i].id := by simpa using h1
    omega
  · have h3 := congrArg List.length hids
    simp only [List.length_map, List.length_range, hg, List.length_append] at h3
    omega

section
variable {σ : Type} {v : Server σ} {sid : Nat} {sh sh' : Shared σ} {s s' : Session σ} {evs : List Ext}

theorem job_set {σ : Type} {l : List (Worker σ)} {i : Nat} {y : Worker σ} {dn : List Job}
    (h : ∀ x ∈ l, ∀ j, x.job = some j → j ∈ dn) (hy : ∀ j, y.job = some j → j ∈ dn) :
    ∀ x ∈ l.set i y, ∀ j, x.job = some j → j ∈ dn := by
  intro x hx
  rcases List.mem_or_eq_of_mem_set hx with hx | rfl
  · exact h x hx
  · exact hy

theorem QInv.step {got : List Job} {snt : List (Nat × Msg)} (hs : Step v sid sh s evs sh' s') (hi : QInv got snt s) :
    QInv (got ++ received sid (evs.map fun x => (sid, x))) (snt ++ sent sid (evs.map fun x => (sid, x))) s' := by
  obtain ⟨hids, dn, hg, hsn, hw⟩ := hi
  have hold : ∀ {i : Nat} {x : Worker σ} {j : Job}, s.workers[i]? = some x → x.job = some j → j ∈ dn :=
    fun h hj => hw _ (List.mem_of_getElem? h) _ hj
  cases hs with
  | accept st r p rest hm hk hsem ht =>
    refine ⟨?_, dn, ?_, ?_, hw⟩
    · simp [received, hids, List.range_succ]
    · simp [received, hg]
    · simpa [sent] using hsn
  | acceptData st r bs rest hm ht =>
    refine ⟨?_, dn, ?_, ?_, hw⟩
    · simp [received, hids, List.range_succ]
    · simp [received, hg]
    · simpa [sent] using hsn
  | start i en j q ha hwi hq =>
    refine ⟨by simpa [received] using hids, dn ++ [j], by simp [received, hg, hq], ?_, ?_⟩
    · intro x hx
      have := hsn x (by simpa [sent] using hx)
      simp only [List.length_append, List.length_singleton]
      omega
    · refine job_set (fun x hx j' hj' => List.mem_append_left _ (hw x hx j' hj')) ?_
      intro j' hj'
      cases hj'
      simp
  | unlock i j m rest k ha hwi =>
    have hj : j ∈ dn := hold hwi rfl
    refine ⟨by simpa [received] using hids, dn, by simp [received, hg], ?_, job_set hw ?_⟩
    · intro x hx
      simp only [List.map_cons, List.map_nil, sent, if_true, List.mem_append, List.mem_singleton] at hx
      rcases hx with hx | rfl
      · exact hsn x hx
      · exact QInv.id_lt hids hg j hj
    · intro j' hj'; cases hj'; exact hj
  | op i j f k st a ha hwi hf =>
    exact ⟨by simpa [received] using hids, dn, by simp [received, hg], by simpa [sent] using hsn,
      job_set hw (fun j' hj' => by cases hj'; exact hold hwi rfl)⟩
  | lock i j m k ha hwi hl =>
    exact ⟨by simpa [received] using hids, dn, by simp [received, hg], by simpa [sent] using hsn,
      job_set hw (fun j' hj' => by cases hj'; exact hold hwi rfl)⟩
  | write i j m xs ys k ha hwi hx hy =>
    exact ⟨by simpa [received] using hids, dn, by simp [received, hg], by simpa [sent] using hsn,
      job_set hw (fun j' hj' => by cases hj'; exact hold hwi rfl)⟩
  | log i j bs k ha hwi hsem =>
    exact ⟨by simpa [received] using hids, dn, by simp [received, hg], by simpa [sent] using hsn,
      job_set hw (fun j' hj' => by cases hj'; exact hold hwi rfl)⟩
  | finish i j en ha hwi =>
    exact ⟨by simpa [received] using hids, dn, by simp [received, hg], by simpa [sent] using hsn,
      job_set hw (fun j' hj' => by cases hj')⟩
  | takeFails ph hm h => exact ⟨by simpa [received] using hids, dn, by simp [received, hg], by simpa [sent] using hsn, hw⟩
  | opFails i j f k ph ha hwi h => exact ⟨by simpa [received] using hids, dn, by simp [received, hg], by simpa [sent] using hsn, hw⟩
  | hold hm hk hsem => exact ⟨by simpa [received] using hids, dn, by simp [received, hg], by simpa [sent] using hsn, hw⟩
  | magic hm hb => exact ⟨by simpa [received] using hids, dn, by simp [received, hg], by simpa [sent] using hsn, hw⟩
  | gone st hm hb ht => exact ⟨by simpa [received] using hids, dn, by simp [received, hg], by simpa [sent] using hsn, hw⟩
  | disc st rest hm hk hsem ht => exact ⟨by simpa [received] using hids, dn, by simp [received, hg], by simpa [sent] using hsn, hw⟩
  | close hm hq hwi => exact ⟨by simpa [received] using hids, dn, by simp [received, hg], by simpa [sent] using hsn, hw⟩

end

theorem held_sent_other {sid sid' : Nat} (h : sid' ≠ sid) (evs : List Ext) :
    sent sid (evs.map (fun x => (sid', x))) = [] := by
  induction evs with
  | nil => rfl
  | cons x evs ih => cases x <;> simp_all [sent]

theorem Exec.qinv {σ : Type} {v : Nat → Server σ} {S T : System σ} {tr : List (Nat × Ext)}
    (hf : ∀ s ∈ S.sessions, s.Fresh) (hx : Exec v S tr T) :
    ∀ (sid : Nat) s, T.sessions[sid]? = some s → QInv (received sid tr) (sent sid tr) s := by
  induction hx with
  | nil =>
    intro sid s hs
    obtain ⟨a, b, c, rfl⟩ := hf s (List.mem_of_getElem? hs)
    refine ⟨rfl, [], rfl, by simp [sent], ?_⟩
    intro x hx j hj
    simp only [Session.fresh, List.mem_map] at hx
    obtain ⟨en, _, rfl⟩ := hx
    cases hj
  | step tr T sid s s' evs sh' h hs h1 ih =>
    intro sid' t ht
    rw [received_append, sent_append]
    rcases getElem?_set_cases ht with ⟨rfl, rfl⟩ | ⟨hne, ht⟩
    · exact QInv.step h1 (ih _ _ hs)
    · rw [received_other (Ne.symm hne), held_sent_other (Ne.symm hne), List.append_nil, List.append_nil]
      exact ih _ _ ht

theorem Exec.same_threads {σ : Type} {v : Nat → Server σ} {S T : System σ} {tr : List (Nat × Ext)}
    (hx : Exec v S tr T) : ∀ (sid : Nat) t, T.sessions[sid]? = some t →
      ∃ s, S.sessions[sid]? = some s ∧ t.workers.length = s.workers.length := by
  induction hx with
  | nil => exact fun _ t ht => ⟨t, ht, rfl⟩
  | step tr T sid s s' evs sh' h hs h1 ih =>
    intro sid' t ht
    rcases getElem?_set_cases ht with ⟨rfl, rfl⟩ | ⟨hne, ht⟩
    · obtain ⟨u, hu, hl⟩ := ih _ _ hs
      exact ⟨u, hu, by rw [h1.threads, hl]⟩
    · exact ih _ _ ht

theorem sum_le_mul (l : List Nat) (m : Nat) (h : ∀ x ∈ l, x ≤ m) : l.sum ≤ l.length * m := by
  induction l with
  | nil => simp
  | cons a l ih =>
    have h1 := h a (List.mem_cons_self ..)
    have h2 := ih (fun x hx => h x (List.mem_cons_of_mem _ hx))
    simp only [List.sum_cons, List.length_cons, Nat.succ_mul]
    omega

end Nbd
