import Verif.AnswerLemmas
/-! # Arbitrary byte streams on plain exports -/

namespace Nbd

/-- On a plain export a request never changes the session's own state. -/
theorem handleRequest_client (e : Endian) (cl cl' : Client) (hp : Plain cl) (w w' : World) (r : Req)
    (p : Payload) (msgs : List Msg) (hlen : r.len < 2 ^ 32) (hpl : p.fits r)
    (h : handleRequest e cl w r p = .val (cl', w', msgs)) : cl' = cl := by
  cases handleRequest_handled _ _ _ _ _ _ _ _ h with
  | refused n hn why => rfl
  | read hf ht hr _ _ hq => rfl
  | write hf ht hw hr _ _ _ hq =>
    have hrange := inRange hp.good hlen hr
    obtain ⟨h1, _⟩ := handleWrite_plain e cl cl' hp w w' r p hpl msgs hrange hw hq
    exact h1
  | flush hf ht => rfl
  | trim hf ht hw hr _ _ hq => rfl
  | zeroes hf ht hw hr _ _ _ hq =>
    have hrange := inRange hp.good hlen hr
    unfold handleWriteZeroes at hq
    have hsp := expwriteZeroes_plain cl hp w r.start r.len (has r.type CMD_FLAG_FUA) hrange
      (notReadonly hw)
    split at hq
    · cases hq
    · cases hq
    · rename_i cl1 w1 ok hq1
      cases hq
      exact (hsp.2 _ _ _ hq1).1

theorem fetch_safe (e : Endian) (cl : Client) (w : World) (stream : List Byte) :
    fetch e cl w stream ≠ .exit ∧
    (fetch e cl w stream = .ub → cl.tls = true ∧ has cl.ex.flags F_SPLICE = true) ∧
    ∀ w' r p rest, fetch e cl w stream = .val (w', .push r p rest) →
      r.len < 2 ^ 32 ∧ p.fits r := by
  have hln : ∀ bs, (loadReq e bs).len < 2 ^ 32 := by
    intro bs; unfold loadReq; exact (ntohl e _).toNat_lt
  unfold fetch
  split
  · exact ⟨by simp, by simp, by simp⟩
  · simp only []
    split
    · exact ⟨by simp, by simp, by simp⟩
    · split
      · have hsp : ∀ mp : World × Bool, mp = (if has cl.ex.flags F_SPLICE = true then
            mkpipe w (loadReq e (stream.take 28)).len else (w, false)) →
            mp.2 = true → has cl.ex.flags F_SPLICE = true := by
          intro mp hmp h2
          split at hmp
          · assumption
          · rw [hmp] at h2; cases h2
        generalize hg : (if has cl.ex.flags F_SPLICE = true then
            mkpipe w (loadReq e (stream.take 28)).len else (w, false) : World × Bool) = mp
        have hsp := hsp mp hg.symm
        split
        · rename_i hc
          simp only [Bool.and_eq_true] at hc
          exact ⟨by simp, fun _ => ⟨hc.1.2, hsp hc.1.1⟩, by simp⟩
        · split
          · exact ⟨by simp, by simp, by simp⟩
          · rename_i hl
            refine ⟨by simp, by simp, ?_⟩
            intro w' r p rest h
            cases h
            refine ⟨hln _, ?_⟩
            split
            · show List.length _ = _; rw [List.length_take]; omega
            · show List.length _ = _; rw [List.length_take]; omega
      · rename_i hw
        split
        · exact ⟨by simp, by simp, by simp⟩
        · refine ⟨by simp, by simp, ?_⟩
          intro w' r p rest h
          cases h
          exact ⟨hln _, hw⟩

/-- No byte stream crashes a session on a plain export, and none makes it exit early unless the
export is a tree. -/
theorem mainloop_safe (e : Endian) (cl : Client) (w : World) (stream : List Byte) (hp : Plain cl)
    (hs : cl.tls = false ∨ has cl.ex.flags F_SPLICE = false) :
    (mainloop e cl w stream).ending ≠ .ub ∧ (mainloop e cl w stream).cl = cl ∧
    (has cl.ex.flags F_TREEFILES = false → (mainloop e cl w stream).ending ≠ .exit) := by
  fun_induction mainloop e cl w stream with
  | case1 cl w stream hf =>
    obtain ⟨h1, h2⟩ := (fetch_safe e cl w stream).2.1 hf
    rw [h1, h2] at hs
    simp at hs
  | case2 cl w stream hf => exact absurd hf (fetch_safe e cl w stream).1
  | case3 => simp
  | case4 => simp
  | case5 cl w stream w1 r p rest hf hq =>
    obtain ⟨h1, h2⟩ := (fetch_safe e cl w stream).2.2 _ _ _ _ hf
    exact absurd hq (handleRequest_noUb e cl hp w1 r p h1 h2)
  | case6 cl w stream w1 r p rest hf hq =>
    obtain ⟨h1, h2⟩ := (fetch_safe e cl w stream).2.2 _ _ _ _ hf
    exact ⟨by simp, by simp, fun ht => absurd hq (handleRequest_noExit e hp ht w1 r p h1 h2)⟩
  | case7 cl w stream w1 r p rest hf cl' w' msgs hq ih =>
    obtain ⟨h1, h2⟩ := (fetch_safe e cl w stream).2.2 _ _ _ _ hf
    have := handleRequest_client e cl cl' hp w1 w' r p msgs h1 h2 hq
    subst this
    exact ih hp hs

/-- What the server did with a request, in the client's terms. -/
def Done.sent (d : Done) : Nat × List Byte × Nat × Nat × List Byte :=
  (d.req.type, d.req.cookie, d.req.start, d.req.len, d.payload.bytes)

/-- The same of what a client sent. -/
def Spec.Sent.fields (s : Spec.Sent) : Nat × List Byte × Nat × Nat × List Byte :=
  (s.req.type, s.req.cookie, s.req.start, s.req.len, s.data)

/-- Well-formed streams: which requests are answered, in which order. `tail` is anything that is
not a further complete request. -/
theorem mainloop_session (e : Endian) (ss : List Spec.Sent) (hok : ∀ s ∈ ss, s.Ok) (tail : List Byte)
    (ends : Ending) (htail : ∀ cl w, (mainloop e cl w tail).handled = [] ∧
      (mainloop e cl w tail).ending = ends) :
    ∀ cl w, ∃ k rs, k ≤ ss.length ∧
      (mainloop e cl w (ss.flatMap Spec.Sent.encode ++ tail)).sent = Spec.wire rs ∧
      Spec.Answers ((ss.take k).map (fun s => s.req.cookie)) rs ∧
      (mainloop e cl w (ss.flatMap Spec.Sent.encode ++ tail)).handled.map Done.sent
        = (ss.take k).map Spec.Sent.fields ∧
      (k < ss.length →
        (mainloop e cl w (ss.flatMap Spec.Sent.encode ++ tail)).ending ∈ [Ending.ub, .exit]) ∧
      (k = ss.length → (mainloop e cl w (ss.flatMap Spec.Sent.encode ++ tail)).ending = ends) := by
  induction ss with
  | nil =>
    intro cl w
    obtain ⟨h1, h2⟩ := htail cl w
    simp only [List.flatMap_nil, List.nil_append]
    refine ⟨0, [], by simp, ?_, .nil, by simp [h1], by simp, fun _ => h2⟩
    unfold Run.sent; rw [h1]; rfl
  | cons s ss ih =>
    intro cl w
    simp only [List.flatMap_cons, List.append_assoc]
    rcases fetch_sent e cl w s (hok s (by simp)) (ss.flatMap Spec.Sent.encode ++ tail) with
      ⟨hub, _⟩ | ⟨w1, p, hf, _, _, _, hb, _⟩
    · refine ⟨0, [], by simp, ?_, .nil, ?_, fun _ => ?_, by simp⟩
      · rw [mainloop_ub _ _ _ _ hub]; rfl
      · rw [mainloop_ub _ _ _ _ hub]; rfl
      · rw [mainloop_ub _ _ _ _ hub]; simp
    · rw [mainloop_push _ _ _ _ _ _ _ _ hf]
      split
      · exact ⟨0, [], by simp, rfl, .nil, rfl, by simp, by simp⟩
      · exact ⟨0, [], by simp, rfl, .nil, rfl, by simp, by simp⟩
      · rename_i cl' w' msgs hq
        obtain ⟨k, rs', h1, h2, h3, h3', h4, h5⟩ := ih (fun x hx => hok x (by simp [hx])) cl' w'
        obtain ⟨rs, henc, hans⟩ := handleRequest_answer _ _ _ _ _ _ _ _ hq
        refine ⟨k + 1, rs ++ rs', by simp; omega, Run.cons_sent _ _ _ _ henc.wire h2, ?_, ?_, ?_, ?_⟩
        · simp only [List.take_succ_cons, List.map_cons]
          exact .cons _ _ _ _ hans h3
        · simp only [List.take_succ_cons, List.map_cons, Run.cons, h3', List.cons.injEq, and_true]
          simp [Done.sent, Spec.Sent.fields, reqOf, hb]
        · intro h; exact h4 (by simp at h; omega)
        · intro h; exact h5 (by simp at h; omega)

/-- The end of the connection, in the middle of a request or between requests. -/
theorem mainloop_short (e : Endian) (cl : Client) (w : World) (tail : List Byte)
    (h : tail.length < 28) :
    (mainloop e cl w tail).handled = [] ∧ (mainloop e cl w tail).ending = .gone := by
  have hf : fetch e cl w tail = .val (w, .gone) := by unfold fetch; rw [if_pos h]
  rw [mainloop.eq_def]
  split <;> rename_i h' <;> rw [hf] at h' <;> simp at h' <;> simp

/-- A disconnect request, whatever follows it. -/
theorem mainloop_disc (e : Endian) (cl : Client) (w : World) (r : Spec.Request) (hr : r.Fits)
    (hm : r.magic = 0x25609513) (ht : r.type = 2) (junk : List Byte) :
    (mainloop e cl w (r.encode ++ junk)).handled = [] ∧
    (mainloop e cl w (r.encode ++ junk)).ending = .disconnected := by
  have hl : r.encode.length = 28 := by simp [Spec.Request.encode, hr.cookie]
  have hd := Request.decode_encode r hr
  have hf : fetch e cl w (r.encode ++ junk) = .val (w, .disc junk) := by
    unfold fetch
    have h1 : (loadReq e r.encode).type = 2 := by
      have := ntohl_load32 e ((r.encode.drop 4).take 4) (by simp [hl])
      have h2 : (loadReq e r.encode).type = (Spec.Request.decode r.encode).type := this
      rw [h2, hd, ht]
    have h2 : (loadReq e r.encode).magicOk e = true := by
      rw [magicOk_iff]
      apply UInt32.toNat_inj.mp
      have := ntohl_load32 e (r.encode.take 4) (by simp [hl])
      have h3 : (ntohl e (loadReq e r.encode).magic).toNat = (Spec.Request.decode r.encode).magic := this
      rw [h3, hd, hm]; rfl
    rw [if_neg (by simp [hl])]
    simp only [List.take_left' hl, List.drop_left' hl]
    rw [h2]
    simp only [Bool.not_true, Bool.false_eq_true, if_false]
    rw [if_neg (by rw [h1]; decide), if_pos (by rw [h1]; rfl)]
  rw [mainloop.eq_def]
  split <;> rename_i h' <;> rw [hf] at h' <;> simp at h' <;> simp

end Nbd
