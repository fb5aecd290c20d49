import Verif.SchedLemmas
import Verif.SafeLemmas
/-! # Sessions: what they read, when they end, that they end -/

set_option autoImplicit false

namespace Nbd

namespace Spec

/-- The requests a session has read, in the order of reading. -/
def received (sid : Nat) : List (Nat × Ext) → List Job
  | [] => []
  | (s, .recv j) :: tr => if s = sid then j :: received sid tr else received sid tr
  | (_, .sent _ _) :: tr => received sid tr

/-- The messages a session has sent, in the order of sending, with the number of their request. -/
def sent (sid : Nat) : List (Nat × Ext) → List (Nat × Msg)
  | [] => []
  | (s, .sent j m) :: tr => if s = sid then (j, m) :: sent sid tr else sent sid tr
  | (_, .recv _) :: tr => sent sid tr

/-- Those for one request. -/
def sentFor (sid jid : Nat) (tr : List (Nat × Ext)) : List Msg :=
  ((sent sid tr).filter (fun x => x.1 == jid)).map Prod.snd

/-- The messages among some actions. -/
def Act.msgs : List Act → List Msg
  | [] => []
  | .msg m :: l => m :: msgs l
  | .get _ _ :: l => msgs l
  | .put _ _ :: l => msgs l

end Spec

open Spec

theorem recvs_visible (sid : Nat) (h : List Ev) : received sid (visible h) = recvs sid h := by
  fun_induction visible h <;> simp_all [received, recvs]

theorem sends_visible (sid : Nat) (h : List Ev) : sent sid (visible h) = sends sid h := by
  fun_induction visible h <;> simp_all [sent, sends]

theorem msgs_append (l m : List Act) : Act.msgs (l ++ m) = Act.msgs l ++ Act.msgs m := by
  fun_induction Act.msgs l <;> simp_all [Act.msgs]

theorem msgs_quiet {l : List Act} (h : Quiet l) : Act.msgs l = [] := by
  fun_induction Act.msgs l with
  | case1 => rfl
  | case2 m l ih => exact absurd rfl (h _ List.mem_cons_self m)
  | case3 i b l ih => exact ih (fun y hy => h y (List.mem_cons_of_mem _ hy))
  | case4 i b l ih => exact ih (fun y hy => h y (List.mem_cons_of_mem _ hy))

theorem msgs_mine (sid jid : Nat) (h : List Ev) :
    Act.msgs (mine sid jid h) = sentFor sid jid (visible h) := by
  unfold sentFor
  rw [sends_visible]
  fun_induction sends sid h with
  | case1 => rfl
  | case2 s j h ih => simpa [mine] using ih
  | case3 j m h ih =>
    simp only [mine, true_and]
    split
    · subst_vars
      simp [Act.msgs, ih]
    · rename_i hne
      simp [hne, ih]
  | case4 h s j m hne ih =>
    simp only [mine, hne, false_and, if_false]
    exact ih
  | case5 s j i b h ih =>
    simp only [mine]
    split <;> simp [Act.msgs, ih]
  | case6 s j i b h ih =>
    simp only [mine]
    split <;> simp [Act.msgs, ih]

section
variable {σ : Type}

/-! ### A session that is over has dealt with everything -/

/-- Once a session is over its queue is empty and its threads are idle. -/
def Session.Tidy (s : Session σ) : Prop :=
  s.main = .over → s.queue = [] ∧ ∀ x ∈ s.workers, ∃ en, x = .idle en

theorem Step.tidy {v : Server σ} {sid : Nat} {sh sh' : Shared σ} {s s' : Session σ}
    {evs : List Ext} (hs : Step v sid sh s evs sh' s') (hi : s.Tidy) : s'.Tidy := by
  cases hs with
  | close hm hq hw => exact fun _ => ⟨hq, hw⟩
  | takeFails ph hm h =>
    intro hh
    simp only at hh
    rcases h with ⟨_, rfl⟩ | ⟨_, rfl⟩ <;> cases hh
  | opFails i j f k ph ha hw h =>
    intro hh
    simp only at hh
    rcases h with ⟨_, rfl⟩ | ⟨_, rfl⟩ <;> cases hh
  | accept st r p rest hm hk hsem ht => intro hh; rw [show s.main = .over from hh] at hm; cases hm
  | hold hm hk hsem => intro hh; cases hh
  | acceptData st r bs rest hm ht => intro hh; cases hh
  | magic hm hb => intro hh; cases hh
  | gone st hm hb ht => intro hh; cases hh
  | disc st rest hm hk hsem ht => intro hh; cases hh
  | start i en j q ha hw hq => intro hh; rw [show s.main = .over from hh] at ha; cases ha
  | op i j f k st a ha hw hf => intro hh; rw [show s.main = .over from hh] at ha; cases ha
  | lock i j m k ha hw hl => intro hh; rw [show s.main = .over from hh] at ha; cases ha
  | write i j m xs ys k ha hw hx hy => intro hh; rw [show s.main = .over from hh] at ha; cases ha
  | unlock i j m rest k ha hw => intro hh; rw [show s.main = .over from hh] at ha; cases ha
  | log i j bs k ha hw hsem => intro hh; rw [show s.main = .over from hh] at ha; cases ha
  | finish i j en ha hw => intro hh; rw [show s.main = .over from hh] at ha; cases ha

/-- A property of single sessions that every step keeps holds in every execution. -/
theorem Exec.always {v : Nat → Server σ} {S T : System σ} {tr : List (Nat × Ext)}
    {I : Nat → Session σ → Prop}
    (hstep : ∀ sid sh sh' s s' evs, Step (v sid) sid sh s evs sh' s' → I sid s → I sid s')
    (h0 : ∀ (sid : Nat) s, S.sessions[sid]? = some s → I sid s) (hx : Exec v S tr T) :
    ∀ (sid : Nat) s, T.sessions[sid]? = some s → I sid s := by
  induction hx with
  | nil => exact h0
  | step tr T sid s s' evs sh' h hs h1 ih =>
    intro sid' t ht
    rcases getElem?_set_cases ht with ⟨rfl, rfl⟩ | ⟨hne, ht⟩
    · exact hstep _ _ _ _ _ _ h1 (ih _ _ hs)
    · exact ih _ _ ht

theorem Session.Fresh.tidy {s : Session σ} (h : s.Fresh) : s.Tidy := by
  obtain ⟨a, b, c, rfl⟩ := h
  intro hh
  cases hh

theorem Exec.tidy {v : Nat → Server σ} {S T : System σ} {tr : List (Nat × Ext)}
    (hf : ∀ s ∈ S.sessions, s.Fresh) (hx : Exec v S tr T) :
    ∀ (sid : Nat) s, T.sessions[sid]? = some s → s.Tidy :=
  hx.always (I := fun _ s => s.Tidy) (fun _ _ _ _ _ _ h hi => h.tidy hi)
    (fun _ _ hs => (hf _ (List.mem_of_getElem? hs)).tidy)

/-- At every moment what has been done for a request is permitted. -/
theorem SInv.permitted {view : σ → Flat} {v : Server σ} {J : Job → Prop}
    {P Q : Job → List Act → Prop} (hv : v.Meets view J P Q) {sid : Nat} {h : List Ev}
    {s : Session σ} (hi : SInv view J P Q sid h s) :
    ∀ j ∈ recvs sid h, Q j (mine sid j.id h) := by
  intro j hj
  obtain ⟨n, b1, b2, b3⟩ := hi.started
  rcases hi.finished j hj with hq | ⟨i, x, hx', hxj⟩ | hp
  · rw [(hi.queued j hq).2]
    exact (hv.code 0 j (hi.wf j hj)).permitted (hv.weaken j)
  · have := b3 i x hx'
    cases x with
    | idle en => cases hxj
    | busy j0 p => cases hxj; exact this.2.2.2.permitted (hv.weaken j)
    | sending j0 m rest k => cases hxj; exact this.2.2.2.1
  · exact hv.weaken j _ hp

/-! ### What a session reads -/

/-- The server takes well-formed requests off the stream one by one, and stops at `tail`. -/
structure Server.Reads (v : Server σ) (tail : List Byte) : Prop where
  request : ∀ (st : σ) (s : Sent) (rest : List Byte), s.Ok →
    v.take st (s.encode ++ rest) = .ub ∨ ∃ st' p, p.bytes = s.data ∧
      v.take st (s.encode ++ rest) = .val (st', .push (reqOf v.e s) p rest)
  stop : ∀ (st st' : σ) (x : Fetched), v.take st tail = .val (st', x) →
    x = .gone ∨ ∃ rest, x = .disc rest

/-- A request as the server sees it: header and data. -/
def Job.what (j : Job) : Req × List Byte := (j.req, j.payload.bytes)

/-- While it reads, a session has read a first part of the requests sent and has the others
before it; when it stops reading without an error it has read them all. -/
structure Follows (v : Server σ) (ss : List Sent) (tail : List Byte) (got : List Job)
    (s : Session σ) : Prop where
  read : got.map Job.what = (ss.take got.length).map (fun x => (reqOf v.e x, x.data))
  le : got.length ≤ ss.length
  left : s.main = .reading ∨ s.main = .payload →
    s.stream = (ss.drop got.length).flatMap Sent.encode ++ tail
  all : s.main = .closing ∨ s.main = .over → got.length = ss.length

theorem Follows.push {v : Server σ} {ss : List Sent} {tail : List Byte} {got : List Job}
    {s s' : Session σ} (hr : v.Reads tail) (hok : ∀ x ∈ ss, x.Ok)
    (hf : Follows v ss tail got s) (hm : s.main = .reading ∨ s.main = .payload)
    {st st' : σ} {r : Req} {p : Payload} {rest : List Byte}
    (ht : v.take st s.stream = .val (st', .push r p rest)) (j : Job) (hj : j.what = (r, p.bytes))
    (h1 : s'.stream = rest) (h2 : s'.main = .reading) : Follows v ss tail (got ++ [j]) s' := by
  have hs := hf.left hm
  rw [hs] at ht
  by_cases hlt : got.length < ss.length
  · rw [List.drop_eq_getElem_cons hlt] at ht
    simp only [List.flatMap_cons, List.append_assoc] at ht
    rcases hr.request st _ ((ss.drop (got.length + 1)).flatMap Sent.encode ++ tail)
        (hok _ (List.getElem_mem hlt)) with hub | ⟨st2, p2, hp2, hq⟩
    · rw [hub] at ht; cases ht
    · rw [hq] at ht
      cases ht
      refine ⟨?_, by simp; omega, ?_, ?_⟩
      · rw [List.map_append, hf.read, List.length_append, List.length_singleton, List.take_succ,
          List.map_append, List.getElem?_eq_getElem hlt]
        simp [hj, hp2]
      · intro _
        rw [h1, List.length_append, List.length_singleton]
      · intro hh
        rw [h2] at hh
        simp at hh
  · rw [List.drop_eq_nil_of_le (by omega)] at ht
    rcases hr.stop _ _ _ ht with hh | ⟨_, hh⟩ <;> cases hh

theorem Follows.stop {v : Server σ} {ss : List Sent} {tail : List Byte} {got : List Job}
    {s s' : Session σ} (hr : v.Reads tail) (hok : ∀ x ∈ ss, x.Ok)
    (hf : Follows v ss tail got s) (hm : s.main = .reading ∨ s.main = .payload)
    {st st' : σ} {x : Fetched} (ht : v.take st s.stream = .val (st', x))
    (hx : ∀ r p rest, x ≠ .push r p rest) (h2 : s'.main = .closing) : Follows v ss tail got s' := by
  have hs := hf.left hm
  rw [hs] at ht
  by_cases hlt : got.length < ss.length
  · rw [List.drop_eq_getElem_cons hlt] at ht
    simp only [List.flatMap_cons, List.append_assoc] at ht
    rcases hr.request st _ ((ss.drop (got.length + 1)).flatMap Sent.encode ++ tail)
        (hok _ (List.getElem_mem hlt)) with hub | ⟨st2, p2, hp2, hq⟩
    · rw [hub] at ht; cases ht
    · rw [hq] at ht
      cases ht
      exact absurd rfl (hx _ _ _)
  · have := hf.le
    refine ⟨hf.read, hf.le, ?_, fun _ => by omega⟩
    intro hh
    rw [h2] at hh
    simp at hh

/-- Same requests read, and the main thread where it was, or no longer reading for a bad
reason. -/
theorem Follows.same {v : Server σ} {ss : List Sent} {tail : List Byte} {got : List Job}
    {s s' : Session σ} (hf : Follows v ss tail got s)
    (h : (s'.main = s.main ∧ s'.stream = s.stream) ∨ s'.main = .dead ∨ s'.main = .broken) :
    Follows v ss tail got s' := by
  rcases h with ⟨h1, h2⟩ | h
  · exact ⟨hf.read, hf.le, by rw [h1, h2]; exact hf.left, by rw [h1]; exact hf.all⟩
  · refine ⟨hf.read, hf.le, ?_, ?_⟩ <;> intro hh <;> rcases h with h | h <;> rw [h] at hh <;> simp at hh

theorem Step.follows {v : Server σ} {sid : Nat} {sh sh' : Shared σ} {s s' : Session σ}
    {evs : List Ext} {ss : List Sent} {tail : List Byte} {got : List Job} (hr : v.Reads tail)
    (hok : ∀ x ∈ ss, x.Ok) (hs : Step v sid sh s evs sh' s') (hf : Follows v ss tail got s) :
    Follows v ss tail (got ++ received sid (evs.map (fun x => (sid, x)))) s' := by
  cases hs with
  | accept st r p rest hm hk hsem ht =>
    simp only [List.map_cons, List.map_nil, received, if_true]
    exact hf.push hr hok (.inl hm) ht ⟨s.count, r, p⟩ rfl rfl hm
  | acceptData st r bs rest hm ht =>
    simp only [List.map_cons, List.map_nil, received, if_true]
    exact hf.push hr hok (.inr hm) ht ⟨s.count, r, .data bs⟩ rfl rfl rfl
  | hold hm hk hsem =>
    simp only [List.map_nil, received, List.append_nil]
    refine ⟨hf.read, hf.le, fun _ => hf.left (.inl hm), ?_⟩
    intro hh
    simp at hh
  | magic hm hb =>
    simp only [List.map_nil, received, List.append_nil]
    exact hf.same (.inr (.inl rfl))
  | gone st hm hb ht =>
    simp only [List.map_nil, received, List.append_nil]
    refine hf.stop hr hok ?_ ht (by simp) rfl
    rcases hm with hm | hm
    · exact .inl hm.1
    · exact .inr hm
  | disc st rest hm hk hsem ht =>
    simp only [List.map_nil, received, List.append_nil]
    exact hf.stop hr hok (.inl hm) ht (by simp) rfl
  | takeFails ph hm h =>
    simp only [List.map_nil, received, List.append_nil]
    refine hf.same (.inr ?_)
    rcases h with ⟨_, rfl⟩ | ⟨_, rfl⟩
    · exact .inr rfl
    · exact .inl rfl
  | close hm hq hw =>
    simp only [List.map_nil, received, List.append_nil]
    refine ⟨hf.read, hf.le, ?_, fun _ => hf.all (.inl hm)⟩
    intro hh
    simp at hh
  | opFails i j f k ph ha hw h =>
    simp only [List.map_nil, received, List.append_nil]
    refine hf.same (.inr ?_)
    rcases h with ⟨_, rfl⟩ | ⟨_, rfl⟩
    · exact .inr rfl
    · exact .inl rfl
  | start i en j q ha hw hq =>
    simp only [List.map_nil, received, List.append_nil]; exact hf.same (.inl ⟨rfl, rfl⟩)
  | op i j f k st a ha hw hf' =>
    simp only [List.map_nil, received, List.append_nil]; exact hf.same (.inl ⟨rfl, rfl⟩)
  | lock i j m k ha hw hl =>
    simp only [List.map_nil, received, List.append_nil]; exact hf.same (.inl ⟨rfl, rfl⟩)
  | write i j m xs ys k ha hw hx hy =>
    simp only [List.map_nil, received, List.append_nil]; exact hf.same (.inl ⟨rfl, rfl⟩)
  | unlock i j m rest k ha hw =>
    simp only [List.map_cons, List.map_nil, received, List.append_nil]
    exact hf.same (.inl ⟨rfl, rfl⟩)
  | log i j bs k ha hw hsem =>
    simp only [List.map_nil, received, List.append_nil]; exact hf.same (.inl ⟨rfl, rfl⟩)
  | finish i j en ha hw =>
    simp only [List.map_nil, received, List.append_nil]; exact hf.same (.inl ⟨rfl, rfl⟩)

theorem received_append (sid : Nat) (a b : List (Nat × Ext)) :
    received sid (a ++ b) = received sid a ++ received sid b := by
  fun_induction received sid a <;> simp_all [received]

theorem received_other {sid sid' : Nat} (h : sid' ≠ sid) (evs : List Ext) :
    received sid (evs.map (fun x => (sid', x))) = [] := by
  induction evs with
  | nil => rfl
  | cons x evs ih => cases x <;> simp_all [received]

/-- Every session reads the requests its client sends, in order. -/
theorem Exec.follows {v : Nat → Server σ} {S T : System σ} {tr : List (Nat × Ext)}
    {ss : List Sent} {tail : List Byte} {sid : Nat} (hr : (v sid).Reads tail)
    (hok : ∀ x ∈ ss, x.Ok)
    (hf : ∃ errnos pos, S.sessions[sid]? =
      some (Session.fresh (ss.flatMap Sent.encode ++ tail) errnos pos))
    (hx : Exec v S tr T) :
    ∃ s, T.sessions[sid]? = some s ∧ Follows (v sid) ss tail (received sid tr) s := by
  induction hx with
  | nil =>
    obtain ⟨errnos, pos, h⟩ := hf
    refine ⟨_, h, rfl, by simp [received], fun _ => rfl, ?_⟩
    intro hh
    simp [Session.fresh] at hh
  | step tr T sid' s s' evs sh' h hs h1 ih =>
    obtain ⟨t, ht, hfo⟩ := ih
    rw [received_append]
    by_cases he : sid' = sid
    · subst he
      rw [hs] at ht
      cases ht
      exact ⟨s', by rw [List.getElem?_set_self (List.getElem?_eq_some_iff.mp hs).1],
        h1.follows hr hok hfo⟩
    · refine ⟨t, by rw [List.getElem?_set_ne he]; exact ht, ?_⟩
      rw [received_other he, List.append_nil]
      exact hfo

end

end Nbd
