import Verif.PlainLemmas
/-! # Whole sessions on a connection -/

namespace Nbd

open Spec (Sent)

/-- The framings of read replies an export may use: the negotiated one; exports with splice
enabled answer spliced reads with simple replies, unless the session is encrypted. -/
def framing (cl : Client) : List Bool :=
  if has cl.ex.flags F_SPLICE && !cl.tls then [cl.structured, false] else [cl.structured]

/-- The meaning of a request the server received. -/
def cmdOf (r : Req) (p : Payload) : Spec.Cmd where
  code := if r.type < 262144 then r.type % 65536 else 65535
  cookie := r.cookie
  start := r.start
  len := r.len
  data := p.bytes

theorem badRange_size {cl : Client} {r : Req} (hg : GoodExport cl.ex) (hr : r.len < 2 ^ 32)
    (h : badRange cl r = true) : cl.ex.exportsize < r.start + r.len := by
  have := hg.size
  unfold badRange at h
  simp only [gt_iff_lt, Bool.or_eq_true, decide_eq_true_eq] at h
  omega

theorem Stored.view_take {ex : Export} (hg : GoodExport ex) {w w' : World} {a n : Nat}
    {bs : List Byte} (hr : a + bs.length ≤ ex.exportsize) (hs : Stored ex w w' a (bs.take n)) :
    Nbd.view ex w' = (Nbd.view ex w).write a (bs.take n) :=
  hs.view hg (by rw [List.length_take]; omega)

/-- One request on a plain export is a step of the flat array. -/
theorem handleRequest_plain (e : Endian) (cl cl' : Client) (hp : Plain cl) (w w' : World) (r : Req)
    (p : Payload) (msgs : List Msg) (hlen : r.len < 2 ^ 32) (hpl : p.fits r)
    (hz : r.type < 262144 → r.type % 65536 = 6 → r.len ≤ ZEROCHUNK)
    (h : handleRequest e cl w r p = .val (cl', w', msgs)) :
    cl' = cl ∧ ∃ rs, Encodes msgs rs ∧
      Spec.FlatStep cl.ex.exportsize (badWrite cl) (framing cl) (view cl.ex w) (cmdOf r p) rs
        (view cl.ex w') := by
  have hsz := hp.good.size
  have hst : cl.structured ∈ framing cl := by unfold framing; split <;> simp
  cases handleRequest_handled _ _ _ _ _ _ _ _ h with
  | refused n hn why =>
    refine ⟨rfl, [.simple (errnoWire n).toNat r.cookie []], ?_, ?_⟩
    · rw [nbdErrno_eq]; exact simpleMsg_encodes e r (some _)
    · refine .refused (c := cmdOf r p) _ (errnoWire_toNat_mem n) ?_
      simp only [cmdOf]
      rcases why with h1 | h1 | h1 | h1
      · left; rw [if_neg (by omega)]; decide
      · by_cases hlt : r.type < 262144
        · left; rw [if_pos hlt]; exact h1
        · left; rw [if_neg hlt]; decide
      · by_cases hlt : r.type < 262144
        · right; left; rw [if_pos hlt]; exact h1
        · left; rw [if_neg hlt]; decide
      · by_cases hlt : r.type < 262144
        · right; right; rw [if_pos hlt]; exact ⟨h1.1, badRange_size hp.good hlen h1.2⟩
        · left; rw [if_neg hlt]; decide
  | read hf ht hr _ _ hq =>
    have hrange := inRange hp.good hlen hr
    have hdf : has r.type CMD_FLAG_DF = false := has_df_of_flags (by omega)
    have hc : (cmdOf r p).code = 0 := by simp only [cmdOf]; rw [if_pos hf, ht]
    obtain ⟨hs, rs, henc, hx⟩ := handleRead_plain e cl hp w w' r msgs hdf hrange hq
    refine ⟨rfl, rs, henc, ?_⟩
    rw [hs.view cl.ex]
    rcases hx with (hx | hx) | ⟨h1, h0, h2, hx⟩
    · exact .read (c := cmdOf r p) rs hc hrange _ hst hx
    · exact .readFails (c := cmdOf r p) rs hc hrange _ hst hx
    · exact .read (c := cmdOf r p) rs hc hrange false (by simp [framing, h1, h0]) hx
  | write hf ht hw hr _ _ _ hq =>
    have hrange := inRange hp.good hlen hr
    have hc : (cmdOf r p).code = 1 := by simp only [cmdOf]; rw [if_pos hf, ht]
    obtain ⟨rfl, n, hn, hsto, hx⟩ := handleWrite_plain e cl cl' hp w w' r p hpl msgs hrange hw hq
    have hbl : p.bytes.length ≤ r.len := by
      cases p <;> simp only [Payload.fits, Payload.bytes, List.length_nil] at hpl ⊢ <;> omega
    refine ⟨rfl, ?_⟩
    rw [hsto.view_take hp.good (by omega)]
    rcases hx with ⟨rfl, henc⟩ | ⟨err, he, henc⟩
    · refine ⟨_, henc, ?_⟩
      rw [List.take_of_length_le hbl]
      exact .write (c := cmdOf r p) hc hw hrange
    · exact ⟨_, henc, .writeFails (c := cmdOf r p) hc hw hrange err n he⟩
  | flush hf ht =>
    have hc : (cmdOf r p).code = 3 := by simp only [cmdOf]; rw [if_pos hf, ht]
    refine ⟨rfl, ?_⟩
    have hs : SameContent w (handleFlush e cl w r).1 := expflush_same cl w
    rw [hs.view cl.ex]
    unfold handleFlush
    simp only []
    rw [resultOf_eq]
    refine ⟨_, simpleMsg_encodes e r _, .flush (c := cmdOf r p) hc _ ?_⟩
    cases (expflush cl w).2 with
    | true => left; rfl
    | false => right; exact errnoWire_toNat_mem _
  | trim hf ht hw hr _ _ hq =>
    have hrange := inRange hp.good hlen hr
    have hc : (cmdOf r p).code = 4 := by simp only [cmdOf]; rw [if_pos hf, ht]
    unfold handleTrim at hq
    have hsp := exptrim_trimmed cl hp.good w r.start r.len hrange
    split at hq
    · cases hq
    · cases hq
    · rename_i w1 hq1
      cases hq
      obtain ⟨h1, h2⟩ := (hsp.2 _ hq1).view
      exact ⟨rfl, _, simpleMsg_encodes e r none, .trim (c := cmdOf r p) hc hw hrange _ h1 h2⟩
  | zeroes hf ht hw hr _ _ _ hq =>
    have hrange := inRange hp.good hlen hr
    have hc : (cmdOf r p).code = 6 := by simp only [cmdOf]; rw [if_pos hf, ht]
    have hzl := hz hf ht
    unfold handleWriteZeroes at hq
    have hsp := expwriteZeroes_plain cl hp w r.start r.len (has r.type CMD_FLAG_FUA) hrange
      (notReadonly hw)
    split at hq
    · cases hq
    · cases hq
    · rename_i cl1 w1 ok hq1
      cases hq
      obtain ⟨rfl, n, hn, hsto, hok⟩ := hsp.2 _ _ _ hq1
      refine ⟨rfl, ?_⟩
      rw [hsto.view hp.good (by rw [Flat.zeros_length]; omega), resultOf_eq]
      cases ok with
      | true =>
        refine ⟨_, simpleMsg_encodes e r none, ?_⟩
        rw [hok rfl, Nat.min_eq_left hzl]
        exact .zeroes (c := cmdOf r p) hc hw hrange
      | false =>
        exact ⟨_, simpleMsg_encodes e r (some _),
          .zeroesFails (c := cmdOf r p) hc hw hrange _ n (errnoWire_toNat_mem _)
            (by simp only [cmdOf]; omega)⟩

/-! ### Reading the request stream -/

theorem Sent.encode_length (s : Sent) (h : s.Ok) : s.req.encode.length = 28 := by
  simp [Spec.Request.encode, h.fits.cookie]

/-- The request the server holds in memory when the client sent `s`. -/
def reqOf (e : Endian) (s : Sent) : Req where
  magic := ntohl e REQUEST_MAGIC
  type := s.req.type
  cookie := s.req.cookie
  start := s.req.start
  len := s.req.len

theorem Request.decode_encode (r : Spec.Request) (hr : r.Fits) :
    Spec.Request.decode r.encode = r := by
  obtain ⟨hm, ht, hc, hs, hn⟩ := hr
  cases r with
  | mk magic type cookie start len =>
    simp only at hm ht hc hs hn
    have e1 : (Spec.Request.mk magic type cookie start len).encode
        = toBE 4 magic ++ (toBE 4 type ++ (cookie ++ (toBE 8 start ++ toBE 4 len))) := by
      simp [Spec.Request.encode]
    generalize hbs : (Spec.Request.mk magic type cookie start len).encode = bs at e1
    have d1 : bs.drop 4 = toBE 4 type ++ (cookie ++ (toBE 8 start ++ toBE 4 len)) := by
      rw [e1]; exact List.drop_left' (by simp)
    have d2 : bs.drop 8 = cookie ++ (toBE 8 start ++ toBE 4 len) := by
      rw [show (8:Nat) = 4 + 4 from rfl, ← List.drop_drop, d1]; exact List.drop_left' (by simp)
    have d3 : bs.drop 16 = toBE 8 start ++ toBE 4 len := by
      rw [show (16:Nat) = 8 + 8 from rfl, ← List.drop_drop, d2]; exact List.drop_left' hc
    have d4 : bs.drop 24 = toBE 4 len := by
      rw [show (24:Nat) = 16 + 8 from rfl, ← List.drop_drop, d3]; exact List.drop_left' (by simp)
    have t1 : bs.take 4 = toBE 4 magic := by rw [e1]; exact List.take_left' (by simp)
    unfold Spec.Request.decode
    rw [d1, d2, d3, d4, t1, List.take_left' (by simp), List.take_left' hc,
      List.take_left' (by simp), List.take_of_length_le (by simp),
      beVal_toBE_of_lt hm, beVal_toBE_of_lt ht, beVal_toBE_of_lt hs, beVal_toBE_of_lt hn]

theorem loadReq_encode (e : Endian) (s : Sent) (h : s.Ok) :
    loadReq e s.req.encode = reqOf e s := by
  have hl := Sent.encode_length s h
  have hd := Request.decode_encode s.req h.fits
  have h1 : (loadReq e s.req.encode).type = s.req.type := by
    rw [show s.req.type = (Spec.Request.decode s.req.encode).type by rw [hd]]
    exact ntohl_load32 e _ (by simp [hl])
  have h2 : (loadReq e s.req.encode).cookie = s.req.cookie := by
    rw [show s.req.cookie = (Spec.Request.decode s.req.encode).cookie by rw [hd]]
    rfl
  have h3 : (loadReq e s.req.encode).start = s.req.start := by
    rw [show s.req.start = (Spec.Request.decode s.req.encode).start by rw [hd]]
    exact ntohll_load64 e _ (by simp [hl])
  have h4 : (loadReq e s.req.encode).len = s.req.len := by
    rw [show s.req.len = (Spec.Request.decode s.req.encode).len by rw [hd]]
    exact ntohl_load32 e _ (by simp [hl])
  have h5 : (loadReq e s.req.encode).magic = ntohl e REQUEST_MAGIC := by
    have : ntohl e (loadReq e s.req.encode).magic = REQUEST_MAGIC := by
      apply UInt32.toNat_inj.mp
      have := ntohl_load32 e (s.req.encode.take 4) (by simp [hl])
      rw [loadReq, this]
      have hm : beVal (s.req.encode.take 4) = (Spec.Request.decode s.req.encode).magic := rfl
      rw [hm, hd, h.magic]
      rfl
    rw [← this, ntohl_ntohl]
  unfold reqOf
  rw [← h1, ← h2, ← h3, ← h4, ← h5]

/-- The main loop reads a well-formed request (and its payload, whether or not it will be
refused) exactly, or crashes (splice on an encrypted connection). -/
theorem fetch_sent (e : Endian) (cl : Client) (w : World) (s : Sent) (h : s.Ok) (rest : List Byte) :
    (fetch e cl w (s.encode ++ rest) = .ub ∧ cl.tls = true ∧ has cl.ex.flags F_SPLICE = true) ∨
    ∃ w' p, fetch e cl w (s.encode ++ rest) = .val (w', .push (reqOf e s) p rest) ∧
      SameContent w w' ∧ w'.files = w.files ∧ p.fits (reqOf e s) ∧ p.bytes = s.data ∧
      (s.req.type % 65536 = 1 ↔ p ≠ .nothing) ∧
      (∀ bs, p = .pipe bs → has cl.ex.flags F_SPLICE = true ∧ cl.tls = false ∨ s.req.len = 0) := by
  have hl := Sent.encode_length s h
  have hlen : (s.encode ++ rest).length = 28 + s.data.length + rest.length := by
    simp [Spec.Sent.encode, hl]; omega
  have ht : (s.encode ++ rest).take 28 = s.req.encode := by
    rw [Spec.Sent.encode, List.append_assoc]; exact List.take_left' hl
  have hd : (s.encode ++ rest).drop 28 = s.data ++ rest := by
    rw [Spec.Sent.encode, List.append_assoc]; exact List.drop_left' hl
  unfold fetch
  rw [if_neg (by omega), ht, hd, loadReq_encode e s h]
  simp only []
  have hmag : (reqOf e s).magicOk e = true := by simp [Req.magicOk, reqOf]
  rw [hmag]
  simp only [Bool.not_true, Bool.false_eq_true, if_false]
  have hdat := h.data
  split
  · rename_i hw
    have hw : s.req.type % 65536 = 1 := hw
    rw [if_pos hw] at hdat
    have hrl : (reqOf e s).len = s.data.length := by rw [hdat]; rfl
    have hmk : ∀ mp : World × Bool, mp = (if has cl.ex.flags F_SPLICE = true then
        mkpipe w (reqOf e s).len else (w, false)) →
        w.files = mp.1.files ∧ (mp.2 = true → has cl.ex.flags F_SPLICE = true) := by
      intro mp hmp
      by_cases hsp : has cl.ex.flags F_SPLICE = true
      · rw [if_pos hsp] at hmp
        subst hmp
        refine ⟨?_, fun _ => hsp⟩
        unfold mkpipe
        split
        · rfl
        · split <;> rfl
      · rw [if_neg hsp] at hmp
        subst hmp
        exact ⟨rfl, by simp⟩
    generalize hg : (if has cl.ex.flags F_SPLICE = true then mkpipe w (reqOf e s).len
      else (w, false) : World × Bool) = mp
    obtain ⟨hfiles, hpipe⟩ := hmk mp hg.symm
    by_cases hub : (mp.2 && cl.tls && decide (0 < (reqOf e s).len)) = true
    · left
      rw [if_pos hub]
      simp only [Bool.and_eq_true, decide_eq_true_eq] at hub
      exact ⟨rfl, hub.1.2, hpipe hub.1.1⟩
    · right
      rw [if_neg hub, if_neg (by rw [List.length_append]; omega)]
      rw [List.take_left' hrl.symm, List.drop_left' hrl.symm]
      refine ⟨mp.1, _, rfl, ?_, hfiles.symm, ?_, ?_, ?_, ?_⟩
      · intro x; simp [content, hfiles]
      · split <;> exact hrl.symm
      · split <;> rfl
      · simp only [hw, true_iff]; split <;> simp
      · intro bs hbs
        split at hbs
        · rename_i hm
          rw [hm] at hub
          simp only [Bool.true_and, Bool.and_eq_true, decide_eq_true_eq, not_and] at hub
          by_cases htls : cl.tls = true
          · right
            have := hub htls
            have : (reqOf e s).len = s.req.len := rfl
            omega
          · left; exact ⟨hpipe hm, by simpa using htls⟩
        · cases hbs
  · rename_i hw
    have hw : s.req.type % 65536 ≠ 1 := hw
    rw [if_neg hw] at hdat
    have hnil : s.data = [] := List.eq_nil_of_length_eq_zero hdat
    have hnd : ¬ (reqOf e s).type = CMD_DISC := h.notDisc
    rw [if_neg hnd, hnil]
    right
    refine ⟨w, .nothing, rfl, .refl _, rfl, hw, rfl, ?_, ?_⟩
    · simp [hw]
    · intro bs hbs; cases hbs

theorem mainloop_push (e : Endian) (cl : Client) (w w1 : World) (stream rest : List Byte) (r : Req)
    (p : Payload) (h : fetch e cl w stream = .val (w1, .push r p rest)) :
    mainloop e cl w stream =
      match handleRequest e cl w1 r p with
      | .ub => ⟨[], cl, w1, .ub⟩
      | .exit => ⟨[], cl, w1, .exit⟩
      | .val (cl', w', msgs) =>
        (mainloop e cl' w' rest).cons ⟨r, p, msgs⟩ := by
  rw [mainloop.eq_def]
  split <;> rename_i h' <;> rw [h] at h' <;> simp only [Out.val.injEq, Prod.mk.injEq, Fetched.push.injEq, reduceCtorEq, and_false] at h'
  · obtain ⟨rfl, rfl, rfl, rfl⟩ := h'
    rfl

theorem mainloop_ub (e : Endian) (cl : Client) (w : World) (stream : List Byte)
    (h : fetch e cl w stream = .ub) : mainloop e cl w stream = ⟨[], cl, w, .ub⟩ := by
  rw [mainloop.eq_def]
  split <;> rename_i h' <;> rw [h] at h' <;> simp at h'

theorem mainloop_nil (e : Endian) (cl : Client) (w : World) :
    mainloop e cl w [] = ⟨[], cl, w, .gone⟩ := by
  rw [mainloop.eq_def]
  have h : fetch e cl w [] = .val (w, .gone) := by simp [fetch]
  split <;> rename_i h' <;> rw [h] at h' <;> simp at h'
  · subst h'; rfl

/-- How the server's records of handled requests correspond to what the client sent. -/
structure Matches (e : Endian) (d : Done) (s : Sent) : Prop where
  req : d.req = reqOf e s
  data : d.payload.bytes = s.data

/-- Every well-formed stream is handled request by request. -/
theorem mainloop_sync (e : Endian) (ss : List Sent) (hok : ∀ s ∈ ss, s.Ok) (tail : List Byte) :
    ∀ cl w, ∃ done, (mainloop e cl w (ss.flatMap Sent.encode ++ tail)).handled
        = done ++ (mainloop e cl w (ss.flatMap Sent.encode ++ tail)).handled.drop done.length ∧
      done.length ≤ ss.length ∧
      (∀ (i : Nat) (d : Done) (s : Sent), done[i]? = some d → ss[i]? = some s → Matches e d s) ∧
      (done.length < ss.length →
        (mainloop e cl w (ss.flatMap Sent.encode ++ tail)).ending ∈ [Ending.ub, Ending.exit] ∧
        (mainloop e cl w (ss.flatMap Sent.encode ++ tail)).handled = done) := by
  induction ss with
  | nil => intro cl w; exact ⟨[], by simp, by simp, by simp, by simp⟩
  | cons s ss ih =>
    intro cl w
    have hs := hok s (by simp)
    have hrest := ih (fun x hx => hok x (by simp [hx]))
    have hst : (s :: ss).flatMap Sent.encode ++ tail
        = s.encode ++ (ss.flatMap Sent.encode ++ tail) := by simp
    rw [hst]
    rcases fetch_sent e cl w s hs (ss.flatMap Sent.encode ++ tail) with ⟨hub, _⟩ | ⟨w1, p, hf, _, _, hfit, hb, _⟩
    · rw [mainloop_ub _ _ _ _ hub]
      exact ⟨[], by simp, by simp, by simp, by simp⟩
    · rw [mainloop_push _ _ _ _ _ _ _ _ hf]
      split
      · exact ⟨[], by simp, by simp, by simp, by simp⟩
      · exact ⟨[], by simp, by simp, by simp, by simp⟩
      · rename_i cl' w' msgs hq
        obtain ⟨done, h1, h2, h3, h4⟩ := hrest cl' w'
        refine ⟨⟨reqOf e s, p, msgs⟩ :: done, ?_, ?_, ?_, ?_⟩
        · simp only [Run.cons, List.length_cons, List.drop_succ_cons, List.cons_append]
          rw [← h1]
        · simp only [List.length_cons]; omega
        · intro i d s' hi hs'
          cases i with
          | zero =>
            simp only [List.getElem?_cons_zero, Option.some.injEq] at hi hs'
            subst hi; subst hs'
            exact ⟨rfl, hb⟩
          | succ i =>
            simp only [List.getElem?_cons_succ] at hi hs'
            exact h3 i d s' hi hs'
        · intro hlt
          simp only [List.length_cons] at hlt
          obtain ⟨h5, h6⟩ := h4 (by omega)
          exact ⟨h5, by simp only [Run.cons]; rw [h6]⟩

theorem Run.cons_sent (d : Done) (run : Run) (rs rs' : List Spec.Reply)
    (h1 : (d.msgs.map Msg.bytes).flatten = Spec.wire rs) (h2 : run.sent = Spec.wire rs') :
    (run.cons d).sent = Spec.wire (rs ++ rs') := by
  unfold Run.sent Run.cons at *
  unfold Spec.wire at *
  rw [List.map_append, List.flatten_append, ← h1, ← h2]
  simp [List.flatMap_def]

/-- Histories on a plain export. -/
theorem mainloop_plain (e : Endian) (ss : List Sent) (hok : ∀ s ∈ ss, s.Ok) :
    ∀ cl w, Plain cl →
      (∀ s ∈ ss, s.cmd.code = 6 → s.req.len ≤ ZEROCHUNK) →
      (mainloop e cl w (ss.flatMap Sent.encode)).ending = .gone →
      (mainloop e cl w (ss.flatMap Sent.encode)).cl = cl ∧
      ∃ rs, (mainloop e cl w (ss.flatMap Sent.encode)).sent = Spec.wire rs ∧
        Spec.FlatRun cl.ex.exportsize (badWrite cl) (framing cl) (view cl.ex w) (ss.map Sent.cmd) rs
          (view cl.ex (mainloop e cl w (ss.flatMap Sent.encode)).w) := by
  induction ss with
  | nil =>
    intro cl w hp hz hend
    rw [List.flatMap_nil, mainloop_nil]
    exact ⟨rfl, [], rfl, .nil _⟩
  | cons s ss ih =>
    intro cl w hp hz hend
    have hs := hok s (by simp)
    have hst : (s :: ss).flatMap Sent.encode = s.encode ++ ss.flatMap Sent.encode := by simp
    rw [hst] at hend ⊢
    rcases fetch_sent e cl w s hs (ss.flatMap Sent.encode) with ⟨hub, _⟩ | ⟨w1, p, hf, hsame, _, hfit, hb, _⟩
    · rw [mainloop_ub _ _ _ _ hub] at hend
      cases hend
    · rw [mainloop_push _ _ _ _ _ _ _ _ hf] at hend ⊢
      split at hend
      · cases hend
      · cases hend
      · rename_i cl' w' msgs hq
        have hend : (mainloop e cl' w' (ss.flatMap Sent.encode)).ending = .gone := hend
        have hcmd : cmdOf (reqOf e s) p = s.cmd := by
          unfold cmdOf Sent.cmd; rw [hb]; rfl
        obtain ⟨rfl, rs, henc, hstep⟩ := handleRequest_plain e cl cl' hp w1 w' (reqOf e s) p msgs
          hs.fits.len hfit (by
            intro h1 h2
            have h1 : s.req.type < 262144 := h1
            have h2 : s.req.type % 65536 = 6 := h2
            exact hz s (by simp) (by simp only [Sent.cmd]; rw [if_pos h1, h2])) hq
        rw [hcmd, hsame.view] at hstep
        obtain ⟨hcl, rs', hw', hrun⟩ := ih (fun x hx => hok x (by simp [hx])) cl' w' hp
          (fun x hx => hz x (by simp [hx])) hend
        refine ⟨hcl, rs ++ rs', ?_, ?_⟩
        · have e1 := henc.wire
          exact Run.cons_sent _ _ _ _ e1 hw'
        · exact .cons _ _ _ _ _ _ _ hstep hrun

/-- Every request of every session is answered exactly once. -/
theorem mainloop_answers (e : Endian) (stream : List Byte) :
    ∀ cl w, ∃ rs, (mainloop e cl w stream).sent = Spec.wire rs ∧
      Spec.Answers ((mainloop e cl w stream).handled.map (fun d => d.req.cookie)) rs := by
  intro cl w
  fun_induction mainloop e cl w stream with
  | case1 => exact ⟨[], rfl, .nil⟩
  | case2 => exact ⟨[], rfl, .nil⟩
  | case3 => exact ⟨[], rfl, .nil⟩
  | case4 => exact ⟨[], rfl, .nil⟩
  | case5 => exact ⟨[], rfl, .nil⟩
  | case6 => exact ⟨[], rfl, .nil⟩
  | case7 cl w stream w1 r p rest hf cl' w' msgs hq ih =>
    obtain ⟨rs, henc, hans⟩ := handleRequest_answer _ _ _ _ _ _ _ _ hq
    obtain ⟨rs', h1, h2⟩ := ih
    refine ⟨rs ++ rs', ?_, ?_⟩
    · have e1 := henc.wire
      exact Run.cons_sent _ _ _ _ e1 h1
    · simp only [Run.cons, List.map_cons]
      exact .cons _ _ _ _ hans h2

end Nbd
