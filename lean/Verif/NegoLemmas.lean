import Verif.Nego
import Verif.NegoSpec
import Verif.WireLemmas
/-!
# Lemmas about the negotiation model
-/

set_option autoImplicit false

namespace Nbd

/-- The final state of a step. -/
def NRes.state {α : Type} : NRes α → NState
  | .ok _ s => s
  | .stop _ s => s

namespace NM

theorem bind_eq {α β : Type} (m : NM α) (f : α → NM β) (s : NState) :
    (m >>= f) s = match m s with | .ok a s => f a s | .stop e s => .stop e s := rfl
theorem pure_eq {α : Type} (a : α) (s : NState) : (pure a : NM α) s = .ok a s := rfl
theorem get_eq (s : NState) : get s = .ok s s := rfl
theorem modify_eq (f : NState → NState) (s : NState) : modify f s = .ok () (f s) := rfl
theorem stop_eq {α : Type} (r : NEnd) (s : NState) : (stop r : NM α) s = .stop r s := rfl

/-- Sequencing, when the first part went on. -/
theorem bind_ok {α β : Type} {m : NM α} {f : α → NM β} {s s' : NState} {a : α}
    (h : m s = .ok a s') : (m >>= f) s = f a s' := by rw [bind_eq, h]
theorem bind_stop {α β : Type} {m : NM α} {f : α → NM β} {s s' : NState} {r : NEnd}
    (h : m s = .stop r s') : (m >>= f) s = .stop r s' := by rw [bind_eq, h]

/-- `m` takes every state to an `R`-related one, whether it goes on or stops. -/
def Pres (R : NState → NState → Prop) {α : Type} (m : NM α) : Prop := ∀ s, R s (m s).state

section Pres

variable {R : NState → NState → Prop} (hr : ∀ s, R s s) (ht : ∀ {a b c}, R a b → R b c → R a c)

include ht in
theorem Pres.bind {α β : Type} {m : NM α} {f : α → NM β} (hm : Pres R m) (hf : ∀ a, Pres R (f a)) :
    Pres R (m >>= f) := by
  intro s
  have h := hm s
  rw [bind_eq]
  cases hq : m s with
  | ok a s' => rw [hq] at h; exact ht h (hf a s')
  | stop r s' => rw [hq] at h; exact h

include hr in
theorem Pres.pure {α : Type} (a : α) : Pres R (Pure.pure a : NM α) := fun s => hr s

include hr in
theorem Pres.stop {α : Type} (r : NEnd) : Pres R (NM.stop r : NM α) := fun s => hr s

include hr in
theorem Pres.get : Pres R NM.get := fun s => hr s

theorem Pres.ite {α : Type} {c : Prop} [Decidable c] {a b : NM α} (h1 : c → Pres R a) (h2 : ¬ c → Pres R b) :
    Pres R (if c then a else b) := by
  split
  · exact h1 (by assumption)
  · exact h2 (by assumption)

end Pres

/-- Two pieces of code run from `P`-related states: both go on with `Q`-related values or both end in
the same way, with `P'`-related states. -/
structure Rel (P P' : NState → NState → Prop) {α β : Type} (Q : α → β → Prop) (m : NM α) (m' : NM β) :
    Prop where
  h : ∀ s t, P s t →
    (∃ a b s' t', m s = .ok a s' ∧ m' t = .ok b t' ∧ Q a b ∧ P' s' t') ∨
    (∃ r s' t', m s = .stop r s' ∧ m' t = .stop r t' ∧ P' s' t')

section Rel

variable {P P' : NState → NState → Prop}

theorem Rel.bind {α β γ δ : Type} {Q : α → β → Prop} {Q' : γ → δ → Prop}
    {m : NM α} {m' : NM β} {f : α → NM γ} {f' : β → NM δ} (hm : Rel P P Q m m')
    (hP : ∀ s t, P s t → P' s t)
    (hf : ∀ a b, Q a b → Rel P P' Q' (f a) (f' b)) : Rel P P' Q' (m >>= f) (m' >>= f') := by
  refine ⟨fun s t h => ?_⟩
  rcases hm.h s t h with ⟨a, b, s', t', h1, h2, h3, h4⟩ | ⟨r, s', t', h1, h2, h4⟩
  · rw [bind_ok h1, bind_ok h2]; exact (hf a b h3).h s' t' h4
  · rw [bind_stop h1, bind_stop h2]; exact .inr ⟨r, s', t', rfl, rfl, hP _ _ h4⟩

theorem Rel.pure {α β : Type} {Q : α → β → Prop} {a : α} {b : β} (hP : ∀ s t, P s t → P' s t) (h : Q a b) :
    Rel P P' Q (Pure.pure a) (Pure.pure b) := ⟨fun s t hp => .inl ⟨a, b, s, t, rfl, rfl, h, hP _ _ hp⟩⟩

theorem Rel.stop {α β : Type} {Q : α → β → Prop} (hP : ∀ s t, P s t → P' s t) (r : NEnd) :
    Rel P P' Q (NM.stop r) (NM.stop r) := ⟨fun s t hp => .inr ⟨r, s, t, rfl, rfl, hP _ _ hp⟩⟩

theorem Rel.get : Rel P P P NM.get NM.get :=
  ⟨fun s t hp => .inl ⟨s, t, s, t, rfl, rfl, hp, hp⟩⟩

theorem Rel.modify {f f' : NState → NState} (h : ∀ s t, P s t → P' (f s) (f' t)) :
    Rel P P' Eq (NM.modify f) (NM.modify f') :=
  ⟨fun s t hp => .inl ⟨(), (), f s, f' t, rfl, rfl, rfl, h s t hp⟩⟩

theorem Rel.weaken {α β : Type} {Q : α → β → Prop} {m : NM α} {m' : NM β} (h : Rel P P Q m m')
    (hP : ∀ s t, P s t → P' s t) : Rel P P' Q m m' := by
  refine ⟨fun s t hp => ?_⟩
  rcases h.h s t hp with ⟨a, b, s', t', h1, h2, h3, h4⟩ | ⟨r, s', t', h1, h2, h4⟩
  · exact .inl ⟨a, b, s', t', h1, h2, h3, hP _ _ h4⟩
  · exact .inr ⟨r, s', t', h1, h2, hP _ _ h4⟩

theorem Rel.ite {α β : Type} {Q : α → β → Prop} {c : Prop} [Decidable c]
    {a b : NM α} {a' b' : NM β} (h1 : Rel P P' Q a a') (h2 : Rel P P' Q b b') :
    Rel P P' Q (if c then a else b) (if c then a' else b') := by
  split
  · exact h1
  · exact h2

end Rel

end NM

/-! ### Sending and receiving -/

/-- The state after sending. -/
def NState.said (s : NState) (bs : List Byte) : NState :=
  if s.tls then { s with tlsOut := s.tlsOut ++ bs } else { s with plainOut := s.plainOut ++ bs }

theorem send_eq (bs : List Byte) (s : NState) : send bs s = .ok () (s.said bs) := rfl

theorem NState.said_said (s : NState) (a b : List Byte) : (s.said a).said b = s.said (a ++ b) := by
  unfold NState.said
  cases h : s.tls <;> simp [List.append_assoc]

theorem NState.said_nil (s : NState) : s.said [] = s := by
  cases s
  unfold NState.said
  split <;> simp

/-- The state after reading up to `rest`. -/
def NState.heard (s : NState) (rest : List Byte) : NState := { s with inp := rest }

@[simp] theorem NState.said_inp (s : NState) (b : List Byte) : (s.said b).inp = s.inp := by
  unfold NState.said; split <;> rfl
@[simp] theorem NState.said_tls (s : NState) (b : List Byte) : (s.said b).tls = s.tls := by
  unfold NState.said; split <;> rfl
@[simp] theorem NState.said_servers (s : NState) (b : List Byte) : (s.said b).servers = s.servers := by
  unfold NState.said; split <;> rfl
@[simp] theorem NState.said_structured (s : NState) (b : List Byte) : (s.said b).structured = s.structured := by
  unfold NState.said; split <;> rfl
@[simp] theorem NState.said_noZeroes (s : NState) (b : List Byte) : (s.said b).noZeroes = s.noZeroes := by
  unfold NState.said; split <;> rfl
@[simp] theorem NState.said_exportsize (s : NState) (b : List Byte) : (s.said b).exportsize = s.exportsize := by
  unfold NState.said; split <;> rfl
@[simp] theorem NState.said_commits (s : NState) (b : List Byte) : (s.said b).commits = s.commits := by
  unfold NState.said; split <;> rfl
@[simp] theorem NState.said_tlsIn (s : NState) (b : List Byte) : (s.said b).tlsIn = s.tlsIn := by
  unfold NState.said; split <;> rfl
@[simp] theorem NState.said_server (s : NState) (b : List Byte) : (s.said b).server = s.server := by
  unfold NState.said; split <;> rfl
@[simp] theorem NState.said_ex (s : NState) (b : List Byte) : (s.said b).ex = s.ex := by
  unfold NState.said; split <;> rfl
theorem NState.said_plainOut (s : NState) (b : List Byte) (h : s.tls = true) :
    (s.said b).plainOut = s.plainOut := by unfold NState.said; rw [if_pos h]
theorem NState.heard_said (s : NState) (a b : List Byte) : (s.heard a).said b = (s.said b).heard a := by
  unfold NState.said NState.heard; cases h : s.tls <;> rfl
theorem NState.heard_heard (s : NState) (a b : List Byte) : (s.heard a).heard b = s.heard b := rfl
@[simp] theorem NState.heard_inp (s : NState) (a : List Byte) : (s.heard a).inp = a := rfl
@[simp] theorem NState.heard_tls (s : NState) (a : List Byte) : (s.heard a).tls = s.tls := rfl
@[simp] theorem NState.heard_servers (s : NState) (a : List Byte) : (s.heard a).servers = s.servers := rfl
@[simp] theorem NState.heard_structured (s : NState) (a : List Byte) : (s.heard a).structured = s.structured := rfl
@[simp] theorem NState.heard_noZeroes (s : NState) (a : List Byte) : (s.heard a).noZeroes = s.noZeroes := rfl
@[simp] theorem NState.heard_exportsize (s : NState) (a : List Byte) : (s.heard a).exportsize = s.exportsize := rfl
@[simp] theorem NState.heard_commits (s : NState) (a : List Byte) : (s.heard a).commits = s.commits := rfl
@[simp] theorem NState.heard_tlsIn (s : NState) (a : List Byte) : (s.heard a).tlsIn = s.tlsIn := rfl

theorem recv_ok {s : NState} {a rest : List Byte} (n : Nat) (h : s.inp = a ++ rest) (hn : a.length = n) :
    recv n s = .ok a (s.heard rest) := by
  unfold recv
  rw [if_neg (by rw [h, List.length_append]; omega), h, List.take_left' hn, List.drop_left' hn]
  rfl

theorem skip_ok {s : NState} {a rest : List Byte} (n : Nat) (h : s.inp = a ++ rest) (hn : a.length = n) :
    skip n s = .ok () (s.heard rest) := by
  unfold skip
  rw [if_neg (by rw [h, List.length_append]; omega), h, List.drop_left' hn]
  rfl

theorem ntohl_toBE (e : Endian) (v : Nat) (hv : v < 2 ^ 32) :
    (ntohl e (load32 e (toBE 4 v))).toNat = v := by
  rw [ntohl_load32 e _ (toBE_length 4 v), beVal_toBE]
  exact Nat.mod_eq_of_lt hv

theorem ntohs_toBE (e : Endian) (v : Nat) (hv : v < 2 ^ 16) :
    (ntohs e (load16 e (toBE 2 v))).toNat = v := by
  rw [ntohs_load16 e _ (toBE_length 2 v), beVal_toBE]
  exact Nat.mod_eq_of_lt hv

theorem recv32_ok {s : NState} {rest : List Byte} (e : Endian) (v : Nat) (hv : v < 2 ^ 32)
    (h : s.inp = toBE 4 v ++ rest) : recv32 e s = .ok v (s.heard rest) := by
  unfold recv32
  rw [NM.bind_ok (recv_ok 4 h (toBE_length 4 v)), NM.pure_eq, ntohl_toBE e v hv]

theorem recv16_ok {s : NState} {rest : List Byte} (e : Endian) (v : Nat) (hv : v < 2 ^ 16)
    (h : s.inp = toBE 2 v ++ rest) : recv16 e s = .ok v (s.heard rest) := by
  unfold recv16
  rw [NM.bind_ok (recv_ok 2 h (toBE_length 2 v)), NM.pure_eq, ntohs_toBE e v hv]

theorem consumeLen_ok {s : NState} {data rest : List Byte} (e : Endian) (hv : data.length < 2 ^ 32)
    (h : s.inp = toBE 4 data.length ++ data ++ rest) : consumeLen e s = .ok () (s.heard rest) := by
  unfold consumeLen
  rw [List.append_assoc] at h
  rw [NM.bind_ok (recv32_ok e _ hv h)]
  exact skip_ok _ rfl rfl

/-- Option replies look on the wire as specified. -/
theorem sendReply_eq (e : Endian) (opt : Nat) (type : UInt32) (data : List Byte) (s : NState)
    (ho : opt < 2 ^ 32) (hd : data.length < 2 ^ 32) :
    sendReply e opt type data s = .ok () (s.said (Spec.optReply opt type.toNat data)) := by
  unfold sendReply sendReplyN
  rw [send_eq]
  congr 2
  unfold Spec.optReply
  rw [store64_htonll, store32_htonl, store32_htonl, store32_htonl, UInt32.toNat_ofNat', UInt32.toNat_ofNat',
    Nat.mod_eq_of_lt ho, Nat.mod_eq_of_lt hd]
  rfl

/-- The same with the data sent separately. -/
theorem sendReplyN_eq (e : Endian) (opt : Nat) (type : UInt32) (n : Nat) (s : NState)
    (ho : opt < 2 ^ 32) (hd : n < 2 ^ 32) :
    sendReplyN e opt type n [] s = .ok () (s.said
      (toBE 8 0x3e889045565a9 ++ toBE 4 opt ++ toBE 4 type.toNat ++ toBE 4 n)) := by
  unfold sendReplyN
  rw [send_eq]
  congr 2
  rw [store64_htonll, store32_htonl, store32_htonl, store32_htonl, UInt32.toNat_ofNat', UInt32.toNat_ofNat',
    Nat.mod_eq_of_lt ho, Nat.mod_eq_of_lt hd, List.append_nil]
  rfl

end Nbd
