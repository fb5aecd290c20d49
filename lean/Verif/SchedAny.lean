import Verif.SchedCowKept
import Verif.SchedOne
import Verif.TrLogLemmas
/-!
# One thread of a session with any export, alone
-/

set_option autoImplicit false

namespace Nbd

/-- Without copy-on-write a request leaves the session's own record alone. -/
theorem handleRequest_record (e : Endian) (cl cl' : Client) (hp : cl.paged = false) (w w' : World) (r : Req) (p : Payload)
    (msgs : List Msg) (h : handleRequest e cl w r p = .val (cl', w', msgs)) : cl' = cl := by
  have hw : ∀ w a buf fua cl' w' ok, expwrite cl w a buf fua = .val (cl', w', ok) → cl' = cl := by
    intro w a buf fua cl' w' ok h
    unfold expwrite at h
    rw [hp] at h
    simp only [Bool.false_eq_true, if_false] at h
    split at h
    · cases h
    · cases h
    · cases h; rfl
  have hz : ∀ (cl0 : Client) w a len fua cl' w' ok, cl0 = cl → expwriteZeroes cl0 w a len fua = .val (cl', w', ok) → cl' = cl := by
    intro cl0 w a len fua cl' w' ok h0 h9
    fun_induction expwriteZeroes cl0 w a len fua with
    | case1 => cases h9; exact h0
    | case2 => cases h9
    | case3 => cases h9
    | case4 cl1 w len hl l cl2 w1 hq => cases h9; exact hw _ _ _ _ _ _ _ (by rw [← h0]; exact hq)
    | case5 cl1 w len hl l cl2 w1 hq ih => exact ih (hw _ _ _ _ _ _ _ (by rw [← h0]; exact hq)) h9
  cases handleRequest_handled _ _ _ _ _ _ _ _ h with
  | refused n hn why => rfl
  | read hf ht hr _ _ hq => rfl
  | write hf ht hw' hr _ _ _ hq =>
    obtain ⟨ok, _, ⟨bs, _, hx⟩ | ⟨bs, _, rfl, _⟩⟩ := handleWrite_cases _ _ _ _ _ _ _ _ hq
    · exact hw _ _ _ _ _ _ _ hx
    · rfl
  | flush hf ht => rfl
  | trim hf ht hw hr _ _ hq => rfl
  | zeroes hf ht hw' hr _ _ _ hq =>
    unfold handleWriteZeroes at hq
    split at hq
    · cases hq
    · cases hq
    · rename_i hx; cases hq; exact hz _ _ _ _ _ _ _ _ rfl hx

theorem sendWhole_run (lg : Bool) (ms : List Msg) : ∀ (en : Nat) (acc : List Msg) (s : Client × World),
    (wholeP.sendWhole lg ms en).run acc s = .val (s, acc ++ ms, en) := by
  induction ms with
  | nil => intro en acc s; rw [wholeP.sendWhole, Prog.run, List.append_nil]
  | cons m ms ih =>
    intro en acc s
    rw [wholeP.sendWhole]
    split
    · unfold sendChunkP
      rw [Prog.run]
      split
      · rw [Prog.run, ih, List.append_assoc]; rfl
      · rw [ih, List.append_assoc]; rfl
    · unfold sendReplyP
      split
      · rw [Prog.run, Prog.run, ih, List.append_assoc]; rfl
      · rw [Prog.run, ih, List.append_assoc]; rfl

/-- A thread that nothing comes in between does what `handleRequest` does. -/
theorem wholeP_run (e : Endian) (lg : Bool) (en : Nat) (r : Req) (p : Payload) (s : Client × World) :
    (wholeP e lg en r p).run [] s =
      match handleRequest e s.1 { s.2 with errno := en } r p with
      | .ub => .ub
      | .exit => .exit
      | .val (cl', w', msgs) => .val ((cl', w'), msgs, w'.errno) := by
  rw [wholeP, Prog.run]
  cases handleRequest e s.1 { s.2 with errno := en } r p with
  | ub => rfl
  | exit => rfl
  | val x => exact sendWhole_run lg x.2.2 x.2.1.errno [] (x.1, x.2.1)

theorem sendWhole_only (lg : Bool) (I : Client × World → Prop) (R : Client × World → Client × World → Prop) (ms : List Msg) (en : Nat) :
    (wholeP.sendWhole lg ms en).Only I R := by
  induction ms with
  | nil => exact trivial
  | cons m ms ih =>
    rw [wholeP.sendWhole]
    split
    · unfold sendChunkP
      split <;> exact ih
    · unfold sendReplyP
      split <;> exact ih

/-- A session never changes the settings it runs with. -/
theorem Exec.anySeat (e : Endian) (settings : Client) (lg : Bool) (cl : Client) (hsp : has cl.ex.flags F_SPLICE = false) (w : World)
    (stream : List Byte) (pos : Nat) (sem : Option Nat) (file : List Byte) (tr : List (Nat × Ext)) (T : System (Client × World))
    (ens : List Nat)
    (hx : Exec (fun _ => anyServer e settings lg) ⟨⟨(cl, w), sem, file⟩, [Session.fresh stream ens pos]⟩ tr T) :
    SameSeat cl T.sh.st.1 ∧ ∀ s ∈ T.sessions, s.Only (fun _ => True) (fun a b => SameSeat a.1 b.1) := by
  generalize hS : (⟨⟨(cl, w), sem, file⟩, [Session.fresh stream ens pos]⟩ : System (Client × World)) = S at hx
  induction hx with
  | nil =>
    subst hS
    refine ⟨.refl _, ?_⟩
    intro s hs x hx
    rw [List.mem_singleton] at hs
    subst hs
    simp only [Session.fresh, List.mem_map] at hx
    obtain ⟨en, _, rfl⟩ := hx
    trivial
  | step tr T sid s s' evs sh' h hs h1 ih =>
    have hstep := Step.only (I := fun _ => True) (R := fun (a b : Client × World) => SameSeat a.1 b.1) (fun _ => .refl _)
      (by
        intro en r p
        refine ⟨?_, fun a => sendWhole_only _ _ _ _ _⟩
        intro st st' a _ h
        simp only [] at h
        split at h
        · cases h
        · cases h
        · rename_i hq; cases h; exact handleRequest_seat _ _ _ _ _ _ _ _ hq)
      (by
        intro stream st' f h
        have h : (match fetch e T.sh.st.1 T.sh.st.2 stream with
          | .ub => Out.ub
          | .exit => .exit
          | .val (w, f) => .val ((T.sh.st.1, w), f)) = .val (st', f) := h
        rw [fetch_plain e _ (by rw [ih.1.ex]; exact hsp)] at h
        cases hf : fetchPlain e stream with
        | ub => rw [hf] at h; cases h
        | exit => rw [hf] at h; cases h
        | val x => rw [hf] at h; cases h; rfl)
      h1 trivial (ih.2 s (List.mem_of_getElem? hs))
    refine ⟨ih.1.trans hstep.1, ?_⟩
    intro s1 hs1
    rcases List.mem_or_eq_of_mem_set hs1 with h | h
    · exact ih.2 _ h
    · rw [h]; exact hstep.2

end Nbd
