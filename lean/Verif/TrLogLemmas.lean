import Verif.TrLog
import Verif.SessionLemmas
import Verif.CowLemmas
/-!
# Facts about the transaction log
-/

set_option autoImplicit false

namespace Nbd

/-! ### Specification: the records of a log -/

namespace Spec

/-- One record of a transaction log. -/
inductive Record where
  /-- "from here on, the data of write requests is in the log" -/
  | dataOn
  /-- a request, followed by its payload if that is logged -/
  | request (r : Request) (data : List Byte)
  /-- the header of a simple reply -/
  | reply (error : Nat) (cookie : List Byte)
  /-- the header of a structured reply chunk -/
  | chunk (flags type : Nat) (cookie : List Byte) (len : Nat)
deriving DecidableEq, Repr

/-- The bytes of a record. -/
def Record.encode : Record → List Byte
  | .dataOn => Request.encode ⟨0x25609514, 1, List.replicate 8 0, 0x4A93BA39A54F31B6, 1⟩
  | .request r data => r.encode ++ data
  | .reply err cookie => toBE 4 0x67446698 ++ toBE 4 err ++ cookie
  | .chunk flags type cookie len =>
    toBE 4 0x668e33ef ++ toBE 2 flags ++ toBE 2 type ++ cookie ++ toBE 4 len

/-- What is logged about a reply. -/
def Reply.record : Reply → Record
  | .simple err cookie _ => .reply err cookie
  | .chunk flags type cookie payload => .chunk flags type cookie payload.length

/-- The records of a session: every request, followed by the replies to it. `keep` says whether
the data of writes is logged. -/
def records (keep : Bool) (ss : List Sent) (answers : List (List Reply)) : List Record :=
  (ss.zip answers).flatMap fun x =>
    .request x.1.req (if keep then x.1.data else []) :: x.2.map Reply.record

/-- How a client closes: without a word, or with a disconnect request. -/
def closing : Option Request → List Byte
  | none => []
  | some r => r.encode

/-- A disconnect request. -/
structure Request.IsDisc (r : Request) : Prop where
  fits : r.Fits
  magic : r.magic = 0x25609513
  disc : r.type = 2

/-- The record of the disconnect request. -/
def closingRecords : Option Request → List Record
  | none => []
  | some r => [.request r []]

/-- A record about a request or reply fits its layout; `keep` says whether write requests carry
their data. -/
def Record.Ok (keep : Bool) : Record → Prop
  | .dataOn => False
  | .request r data => r.Fits ∧ r.magic = 0x25609513 ∧
      data.length = if keep = true ∧ r.type % 65536 = 1 then r.len else 0
  | .reply err cookie => err < 2 ^ 32 ∧ cookie.length = 8
  | .chunk flags type cookie len => flags < 2 ^ 16 ∧ type < 2 ^ 16 ∧ cookie.length = 8 ∧ len < 2 ^ 32

/-- An independent reader of logs. `keep` says whether write requests are followed by their
data. -/
def readLog (keep : Bool) (log : List Byte) : Option (List Record) :=
  if log = [] then some []
  else if _h : log.length < 16 then none
  else
    let magic := beVal (log.take 4)
    if magic = 0x67446698 then
      (readLog keep (log.drop 16)).map
        (.reply (beVal ((log.drop 4).take 4)) ((log.drop 8).take 8) :: ·)
    else if log.length < 20 then none
    else if magic = 0x668e33ef then
      (readLog keep (log.drop 20)).map
        (.chunk (beVal ((log.drop 4).take 2)) (beVal ((log.drop 6).take 2)) ((log.drop 8).take 8)
          (beVal ((log.drop 16).take 4)) :: ·)
    else if log.length < 28 then none
    else if log.take 28 = Record.dataOn.encode then
      (readLog true (log.drop 28)).map (.dataOn :: ·)
    else
      let r := Request.decode (log.take 28)
      let n := if keep = true ∧ r.type % 65536 = 1 then r.len else 0
      if (log.drop 28).length < n then none
      else (readLog keep ((log.drop 28).drop n)).map (.request r ((log.drop 28).take n) :: ·)
termination_by log.length
decreasing_by all_goals (simp only [List.length_drop]; omega)

end Spec

/-! ### Writing -/

theorem Log.write_write (l : Log) (a b : List Byte) (h : l.pos ≤ l.file.length) :
    (l.write a).write b = l.write (a ++ b) := by
  unfold Log.write
  simp only [Log.mk.injEq, List.length_append]
  refine ⟨?_, by omega⟩
  have h0 : l.pos - l.file.length = 0 := by omega
  have h1 : (l.file.take l.pos).length = l.pos := by simp; omega
  rw [h0]
  simp only [List.replicate_zero, List.append_nil]
  have e1 : ((l.file.take l.pos) ++ a ++ l.file.drop (l.pos + a.length)).take (l.pos + a.length)
      = l.file.take l.pos ++ a := by
    rw [List.take_append_of_le_length (by simp; omega), List.take_of_length_le (by simp; omega)]
  have e2 : ((l.file.take l.pos) ++ a ++ l.file.drop (l.pos + a.length)).drop (l.pos + a.length + b.length)
      = l.file.drop (l.pos + (a.length + b.length)) := by
    rw [List.drop_append, List.drop_of_length_le (by simp; omega), List.drop_drop]
    simp only [List.length_append, h1, List.nil_append]
    congr 1; omega
  have e3 : l.pos + a.length - ((l.file.take l.pos) ++ a ++ l.file.drop (l.pos + a.length)).length = 0 := by
    simp only [List.length_append, h1]; omega
  have e4 : ∀ n, l.pos + a.length - ((List.take l.pos l.file).length + ([] : List Byte).length + a.length + n) = 0 := by
    intro n; rw [h1]; simp only [List.length_nil]; omega
  rw [e1, e2, e4]; simp

theorem Log.write_pos (l : Log) (a : List Byte) (h : l.pos ≤ l.file.length) :
    (l.write a).pos ≤ (l.write a).file.length := by
  unfold Log.write
  simp only [List.length_append, List.length_take, List.length_replicate, List.length_drop]
  omega

theorem Log.write_nil (l : Log) (h : l.pos ≤ l.file.length) : l.write [] = l := by
  unfold Log.write
  have h0 : l.pos - l.file.length = 0 := by omega
  cases l
  simp_all

theorem logReplies_eq (l : Log) (msgs : List Msg) (h : l.pos ≤ l.file.length) :
    logReplies l msgs = l.write (msgs.flatMap Msg.hdr) := by
  unfold logReplies
  induction msgs generalizing l with
  | nil => simp [Log.write_nil l h]
  | cons m msgs ih =>
    rw [List.foldl_cons, ih _ (Log.write_pos _ _ h), Log.write_write _ _ _ h, List.flatMap_cons]

/-- Keeping a log does not change what the server does. -/
theorem mainloopLog_run (e : Endian) (cl : Client) (w : World) (stream : List Byte) (l : Log) :
    (mainloopLog e cl w stream l).1 = mainloop e cl w stream := by
  fun_induction mainloopLog e cl w stream l with
  | case1 cl w stream l _ hf =>
    rw [mainloop.eq_def]; split <;> rename_i h' <;> rw [hf] at h' <;> cases h' <;> rfl
  | case2 cl w stream l _ hf =>
    rw [mainloop.eq_def]; split <;> rename_i h' <;> rw [hf] at h' <;> cases h' <;> rfl
  | case3 cl w stream l _ w1 hf =>
    rw [mainloop.eq_def]; split <;> rename_i h' <;> rw [hf] at h' <;> cases h' <;> rfl
  | case4 cl w stream l _ w1 _ hf =>
    rw [mainloop.eq_def]; split <;> rename_i h' <;> rw [hf] at h' <;> cases h' <;> rfl
  | case5 cl w stream l _ w1 r p rest hf hq =>
    rw [mainloop_push _ _ _ _ _ _ _ _ hf, hq]
  | case6 cl w stream l _ w1 r p rest hf hq =>
    rw [mainloop_push _ _ _ _ _ _ _ _ hf, hq]
  | case7 cl w stream l _ w1 r p rest hf cl' w' msgs hq x ih =>
    rw [mainloop_push _ _ _ _ _ _ _ _ hf, hq]
    simp only []
    rw [← ih]

/-! ### The headers of replies -/

/-- What `m.hdr` looks like. -/
def HdrOk (e : Endian) (c : List Byte) (m : Msg) : Prop :=
  (∃ v, m.hdr = simpleHdr e v c) ∨
  (∃ f t l b, m = chunkMsg e c f t l b)

theorem handleNormalRead_hdr (e : Endian) (cl : Client) (w w' : World) (r : Req) (msgs : List Msg)
    (h : handleNormalRead e cl w r = .val (w', msgs)) : ∀ m ∈ msgs, HdrOk e r.cookie m := by
  unfold handleNormalRead at h
  simp only [] at h
  split at h
  · cases h
    intro m hm
    simp only [List.mem_singleton] at hm
    exact .inr ⟨_, _, _, _, hm⟩
  · split at h
    · cases h
    · cases h
    · split at h
      · cases h
      · cases h
      · rename_i hc
        cases h
        intro m hm
        rw [List.mem_append] at hm
        rcases hm with hm | hm
        · obtain ⟨x, _, rfl⟩ := List.mem_map.mp hm
          exact .inr ⟨_, _, _, _, rfl⟩
        · unfold completeRead at hc
          split at hc
          · simp only [] at hc
            split at hc
            · cases hc
              rw [List.mem_append] at hm
              rcases hm with hm | hm
              · simp only [List.mem_ite_nil_right, List.mem_singleton] at hm
                exact .inr ⟨_, _, _, _, hm.2⟩
              · exact .inr ⟨_, _, _, _, List.mem_singleton.mp hm⟩
            · cases hc
              rw [List.mem_append] at hm
              rcases hm with hm | hm
              · simp only [List.mem_ite_nil_right, List.mem_singleton] at hm
                exact .inr ⟨_, _, _, _, hm.2⟩
              · exact .inr ⟨_, _, _, _, List.mem_singleton.mp hm⟩
          · split at hc
            · cases hc
              simp only [List.mem_singleton] at hm
              subst hm
              exact .inl ⟨_, rfl⟩
            · split at hc
              · cases hc
              · cases hc
                simp only [List.mem_singleton] at hm
                subst hm
                exact .inl ⟨_, rfl⟩

theorem simpleMsg_hdr (e : Endian) (r : Req) (x : Option UInt32) :
    ∀ m ∈ [simpleMsg e r x], HdrOk e r.cookie m := by
  intro m hm
  simp only [List.mem_singleton] at hm
  subst hm
  exact .inl ⟨_, rfl⟩

theorem handleRequest_hdr (e : Endian) (cl cl' : Client) (w w' : World) (r : Req) (p : Payload)
    (msgs : List Msg) (h : handleRequest e cl w r p = .val (cl', w', msgs)) :
    ∀ m ∈ msgs, HdrOk e r.cookie m := by
  cases handleRequest_handled _ _ _ _ _ _ _ _ h with
  | refused n hn why => exact simpleMsg_hdr _ _ _
  | read hf ht hr _ _ hq =>
    rcases handleRead_cases _ _ _ _ _ _ hq with ⟨w1, hn, _⟩ | ⟨_, hs⟩
    · exact handleNormalRead_hdr _ _ _ _ _ _ hn
    · obtain ⟨_, w1, pipe, _, _, rfl⟩ := handleSpliceRead_cases _ _ _ _ _ _ hs
      intro m hm
      simp only [List.mem_singleton] at hm
      subst hm
      exact .inl ⟨_, rfl⟩
  | write hf ht hw hr _ _ _ hq =>
    obtain ⟨ok, rfl, _⟩ := handleWrite_cases _ _ _ _ _ _ _ _ hq
    exact simpleMsg_hdr _ _ _
  | flush hf ht => exact simpleMsg_hdr _ _ _
  | trim hf ht hw hr _ _ hq =>
    unfold handleTrim at hq
    split at hq
    · cases hq
    · cases hq
    · cases hq; exact simpleMsg_hdr _ _ _
  | zeroes hf ht hw hr _ _ _ hq =>
    unfold handleWriteZeroes at hq
    split at hq
    · cases hq
    · cases hq
    · cases hq; exact simpleMsg_hdr _ _ _

/-- What the log gets is the record of the reply that is sent. -/
theorem hdr_record (e : Endian) (c : List Byte) (m : Msg) (x : Spec.Reply) (hh : HdrOk e c m)
    (hb : m.bytes = x.encode) (hc : x.cookie.length = 8) (hcc : c.length = 8) :
    m.hdr = x.record.encode := by
  have m1 : store32 e (ntohl e REPLY_MAGIC) = toBE 4 0x67446698 := store32_htonl e _
  have m2 : store32 e (ntohl e STRUCTURED_REPLY_MAGIC) = toBE 4 0x668e33ef := store32_htonl e _
  have hne : (toBE 4 0x67446698 : List Byte) ≠ toBE 4 0x668e33ef := by decide
  rcases hh with ⟨v, hh⟩ | ⟨f, t, l, b, rfl⟩
  · have hb : simpleHdr e v c ++ m.body = x.encode := by rw [← hh]; exact hb
    rw [hh]
    have hlen : (simpleHdr e v c).length = 16 := by simp [simpleHdr, hcc]
    cases x with
    | simple err cookie data =>
      simp only [Spec.Reply.encode] at hb
      simp only [Spec.Reply.cookie] at hc
      exact (List.append_inj hb (by simp [hlen, hc])).1
    | chunk flags type cookie payload =>
      exfalso
      simp only [Spec.Reply.encode, simpleHdr, m1, List.append_assoc] at hb
      exact hne (List.append_inj hb (by simp)).1
  · cases x with
    | simple err cookie data =>
      exfalso
      simp only [Spec.Reply.encode, Msg.bytes, chunkMsg, m2, List.append_assoc] at hb
      exact hne (List.append_inj hb (by simp)).1.symm
    | chunk flags type cookie payload =>
      simp only [Spec.Reply.encode, Msg.bytes] at hb
      simp only [Spec.Reply.cookie] at hc
      exact (List.append_inj hb (by simp [chunkMsg, hc, hcc])).1


/-! ### No request changes which export is served -/

theorem expwrite_seat (cl : Client) (w : World) (a : Nat) (buf : List Byte) (fua : Bool)
    (cl' : Client) (w' : World) (ok : Bool) (h : expwrite cl w a buf fua = .val (cl', w', ok)) :
    SameSeat cl cl' := by
  by_cases hp : cl.paged = true
  · exact (expwrite_keptOff cl hp w a buf fua cl' w' ok h).2
  · unfold expwrite at h
    rw [if_neg hp] at h
    split at h
    · cases h
    · cases h
    · cases h; exact .refl _

theorem expwriteZeroes_seat (cl : Client) (w : World) (a len : Nat) (fua : Bool) (cl' : Client)
    (w' : World) (ok : Bool) (h : expwriteZeroes cl w a len fua = .val (cl', w', ok)) :
    SameSeat cl cl' := by
  fun_induction expwriteZeroes cl w a len fua with
  | case1 => cases h; exact .refl _
  | case2 => cases h
  | case3 => cases h
  | case4 cl w len hl l cl1 w1 hq => cases h; exact expwrite_seat _ _ _ _ _ _ _ _ hq
  | case5 cl w len hl l cl1 w1 hq ih => exact (expwrite_seat _ _ _ _ _ _ _ _ hq).trans (ih h)

theorem handleRequest_seat (e : Endian) (cl cl' : Client) (w w' : World) (r : Req) (p : Payload)
    (msgs : List Msg) (h : handleRequest e cl w r p = .val (cl', w', msgs)) : SameSeat cl cl' := by
  cases handleRequest_handled _ _ _ _ _ _ _ _ h with
  | refused n hn why => exact .refl _
  | read hf ht hr _ _ hq => exact .refl _
  | write hf ht hw hr _ _ _ hq =>
    obtain ⟨ok, _, ⟨bs, _, hx⟩ | ⟨bs, _, rfl, _⟩⟩ := handleWrite_cases _ _ _ _ _ _ _ _ hq
    · exact expwrite_seat _ _ _ _ _ _ _ _ hx
    · exact .refl _
  | flush hf ht => exact .refl _
  | trim hf ht hw hr _ _ hq => exact .refl _
  | zeroes hf ht hw hr _ _ _ hq =>
    unfold handleWriteZeroes at hq
    split at hq
    · cases hq
    · cases hq
    · rename_i hx; cases hq; exact expwriteZeroes_seat _ _ _ _ _ _ _ _ hx

/-! ### The replies fit their records -/

/-- A reply's record has a place in the log. -/
def Spec.Reply.Recordable : Spec.Reply → Prop
  | .simple err _ _ => err < 2 ^ 32
  | .chunk flags type _ payload => flags < 2 ^ 16 ∧ type < 2 ^ 16 ∧ payload.length < 2 ^ 32

/-- Is this a simple reply? -/
def Spec.Reply.isSimple : Spec.Reply → Bool
  | .simple .. => true
  | .chunk .. => false

theorem simpleMsg_logged (e : Endian) (w : World) (r : Req) (ok : Bool) :
    ∃ rs, Encodes [simpleMsg e r (resultOf e w ok)] rs ∧ Spec.Answer r.cookie rs ∧
      (∀ x ∈ rs, x.Recordable) ∧ ∀ x ∈ rs, x.isSimple = true := by
  rw [resultOf_eq]
  refine ⟨_, simpleMsg_encodes e r _, Answer.single rfl rfl, ?_, ?_⟩
  · intro x hx
    rw [List.mem_singleton] at hx
    subst hx
    exact UInt32.toNat_lt _
  · intro x hx
    rw [List.mem_singleton] at hx
    subst hx
    rfl

theorem chunks_recordable (c : List Byte) (cs : List (Nat × List Byte))
    (h : ∀ x ∈ cs, x.2.length ≤ MAX_RW_COUNT) (last : Spec.Reply) (hl : last.Recordable) :
    ∀ y ∈ cs.map (fun x => Spec.dataChunk c (x.1 % 2 ^ 64) x.2) ++ [last], y.Recordable := by
  intro y hy
  rw [List.mem_append] at hy
  rcases hy with hy | hy
  · obtain ⟨x, hx, rfl⟩ := List.mem_map.mp hy
    have := h x hx
    simp only [MAX_RW_COUNT] at this
    refine ⟨by decide, by decide, ?_⟩
    simp only [List.length_append, toBE_length]
    omega
  · rw [List.mem_singleton] at hy
    subst hy; exact hl

theorem handleNormalRead_logged (e : Endian) (cl : Client) (w w' : World) (r : Req)
    (msgs : List Msg) (hdf : has r.type CMD_FLAG_DF = false)
    (h : handleNormalRead e cl w r = .val (w', msgs)) :
    ∃ rs, Encodes msgs rs ∧ Spec.Answer r.cookie rs ∧ (∀ x ∈ rs, x.Recordable) ∧
      (cl.structured = false → ∀ x ∈ rs, x.isSimple = true) := by
  obtain ⟨c', ok, hq, hx⟩ := handleNormalRead_replies e cl w w' r msgs hdf h
  obtain ⟨cs, e1, l1, _⟩ := (expread_kept _ _ _ _ _ _ hq).chunks
  have e1 : c'.chunks = cs := by simpa [initCtx] using e1
  have l1 : ∀ x ∈ c'.chunks, x.2.length ≤ MAX_RW_COUNT := by rw [e1]; exact l1
  cases ok with
  | true =>
    rw [if_pos rfl] at hx
    rcases hx with ⟨hs, hx⟩ | ⟨_, data, _, _, hx⟩
    · refine ⟨_, hx, ?_, chunks_recordable _ _ l1 _ ⟨by decide, by decide, by decide⟩, by rw [hs]; simp⟩
      rw [map_mod_chunks]
      exact Answer.chunks _ rfl rfl
    · refine ⟨_, hx, Answer.single rfl rfl, ?_, ?_⟩
      · intro x hx; rw [List.mem_singleton] at hx; subst hx; exact (by decide : 0 < 2 ^ 32)
      · intro _ x hx; rw [List.mem_singleton] at hx; subst hx; rfl
  | false =>
    rw [if_neg (by simp)] at hx
    rcases hx with ⟨hs, hx⟩ | ⟨_, hx⟩
    · refine ⟨_, hx, ?_, chunks_recordable _ _ l1 _ ⟨by decide, by decide, ?_⟩, by rw [hs]; simp⟩
      · rw [map_mod_chunks]
        exact Answer.chunks _ rfl rfl
      · simp only [List.length_append, toBE_length, store16_length]; decide
    · refine ⟨_, hx, Answer.single rfl rfl, ?_, ?_⟩
      · intro x hx; rw [List.mem_singleton] at hx; subst hx; exact UInt32.toNat_lt _
      · intro _ x hx; rw [List.mem_singleton] at hx; subst hx; rfl

/-- Every handled request produces one answer that can be logged; only reads on connections with
structured replies produce anything but simple replies. -/
theorem handleRequest_logged (e : Endian) (cl cl' : Client) (w w' : World) (r : Req) (p : Payload)
    (msgs : List Msg) (h : handleRequest e cl w r p = .val (cl', w', msgs)) :
    ∃ rs, Encodes msgs rs ∧ Spec.Answer r.cookie rs ∧ (∀ x ∈ rs, x.Recordable) ∧
      (cl.structured = false ∨ r.type % 65536 ≠ 0 → ∀ x ∈ rs, x.isSimple = true) := by
  have simp1 : ∀ (w : World) (ok : Bool), ∃ rs, Encodes [simpleMsg e r (resultOf e w ok)] rs ∧
      Spec.Answer r.cookie rs ∧ (∀ x ∈ rs, x.Recordable) ∧
      (cl.structured = false ∨ r.type % 65536 ≠ 0 → ∀ x ∈ rs, x.isSimple = true) := by
    intro w ok
    obtain ⟨rs, h1, h2, h3, h4⟩ := simpleMsg_logged e w r ok
    exact ⟨rs, h1, h2, h3, fun _ => h4⟩
  cases handleRequest_handled _ _ _ _ _ _ _ _ h with
  | refused n hn why =>
    have := simp1 ⟨fun _ => none, fun _ => .done 0, 0, n, fun _ => []⟩ false
    simpa [resultOf] using this
  | read hf ht hr _ _ hq =>
    have hdf : has r.type CMD_FLAG_DF = false := has_df_of_flags (by omega)
    rcases handleRead_cases _ _ _ _ _ _ hq with ⟨w1, hn, _⟩ | ⟨_, hs⟩
    · obtain ⟨rs, h1, h2, h3, h4⟩ := handleNormalRead_logged _ _ _ _ _ _ hdf hn
      exact ⟨rs, h1, h2, h3, fun hx => h4 (hx.resolve_right (by omega))⟩
    · obtain ⟨_, w1, pipe, _, _, rfl⟩ := handleSpliceRead_cases _ _ _ _ _ _ hs
      refine ⟨[.simple 0 r.cookie pipe], ?_, Answer.single rfl rfl, ?_, ?_⟩
      · unfold Encodes
        simp [simple_bytes_zero]
      · intro x hx; rw [List.mem_singleton] at hx; subst hx; exact (by decide : 0 < 2 ^ 32)
      · intro _ x hx; rw [List.mem_singleton] at hx; subst hx; rfl
  | write hf ht hw hr _ _ _ hq =>
    obtain ⟨ok, rfl, _⟩ := handleWrite_cases _ _ _ _ _ _ _ _ hq
    exact simp1 _ _
  | flush hf ht => exact simp1 _ _
  | trim hf ht hw hr _ _ hq =>
    unfold handleTrim at hq
    split at hq
    · cases hq
    · cases hq
    · cases hq; exact simp1 w' true
  | zeroes hf ht hw hr _ _ _ hq =>
    unfold handleWriteZeroes at hq
    split at hq
    · cases hq
    · cases hq
    · cases hq; exact simp1 _ _

/-! ### What a session logs -/

/-- Is the data of writes logged? -/
def keepsData (cl : Client) : Bool := has cl.ex.flags F_DATALOG && !has cl.ex.flags F_SPLICE

theorem logFetch_sent (e : Endian) (cl : Client) (s : Spec.Sent) (h : s.Ok) (rest : List Byte)
    (l : Log) (hl : l.pos ≤ l.file.length) :
    logFetch e cl (s.encode ++ rest) l =
      l.write (s.req.encode ++ if keepsData cl then s.data else []) := by
  have h28 := Sent.encode_length s h
  have ht : (s.encode ++ rest).take 28 = s.req.encode := by
    rw [Spec.Sent.encode, List.append_assoc]; exact List.take_left' h28
  have hd : (s.encode ++ rest).drop 28 = s.data ++ rest := by
    rw [Spec.Sent.encode, List.append_assoc]; exact List.drop_left' h28
  have hlen : ¬ (s.encode ++ rest).length < 28 := by simp [Spec.Sent.encode, h28]
  unfold logFetch
  rw [if_neg hlen, ht, hd, loadReq_encode e s h]
  have hmag : (reqOf e s).magicOk e = true := by simp [Req.magicOk, reqOf]
  have hty : (reqOf e s).type = s.req.type := rfl
  have hln : (reqOf e s).len = s.req.len := rfl
  have hdat := h.data
  dsimp only
  rw [hmag, hty, hln]
  by_cases hk : keepsData cl = true
  · unfold keepsData at hk
    rw [Bool.and_eq_true] at hk
    by_cases hw : s.req.type % 65536 = 1
    · rw [if_pos hw] at hdat
      have hw' : s.req.type % 65536 = CMD_WRITE := hw
      have : s.req.len ≤ (s.data ++ rest).length := by simp; omega
      rw [if_pos (by rw [hk.1, hk.2]; simp only [hw', decide_true, Bool.and_self, Bool.true_and, decide_eq_true_eq]; exact this), Log.write_write _ _ _ hl]
      have hk' : keepsData cl = true := by unfold keepsData; rw [hk.1, hk.2]; rfl
      rw [if_pos hk', ← hdat, List.take_left]
    · rw [if_neg hw] at hdat
      have hw' : ¬ s.req.type % 65536 = CMD_WRITE := hw
      rw [if_neg (by simp [hw'])]
      have : s.data = [] := List.length_eq_zero_iff.mp hdat
      rw [this]; simp
  · rw [if_neg hk]
    unfold keepsData at hk
    rw [if_neg (by
      intro hx
      simp only [Bool.and_eq_true] at hx
      apply hk
      rw [Bool.and_eq_true]
      exact ⟨hx.1.1.2, hx.1.2⟩)]
    simp

theorem mainloopLog_push (e : Endian) (cl : Client) (w w1 : World) (stream rest : List Byte)
    (r : Req) (p : Payload) (l : Log) (hf : fetch e cl w stream = .val (w1, .push r p rest)) :
    (mainloopLog e cl w stream l) =
      match handleRequest e cl w1 r p with
      | .ub => (⟨[], cl, w1, .ub⟩, logFetch e cl stream l)
      | .exit => (⟨[], cl, w1, .exit⟩, logFetch e cl stream l)
      | .val (cl', w', msgs) =>
        ((mainloopLog e cl' w' rest (logReplies (logFetch e cl stream l) msgs)).1.cons ⟨r, p, msgs⟩,
         (mainloopLog e cl' w' rest (logReplies (logFetch e cl stream l) msgs)).2) := by
  rw [mainloopLog.eq_def]
  dsimp only
  split <;> rename_i h' <;> rw [hf] at h' <;> cases h'
  rfl

theorem mainloopLog_nil (e : Endian) (cl : Client) (w : World) (l : Log) :
    mainloopLog e cl w [] l = (⟨[], cl, w, .gone⟩, l) := by
  rw [mainloopLog.eq_def]
  have h : fetch e cl w [] = .val (w, .gone) := by simp [fetch]
  dsimp only
  split <;> rename_i h' <;> rw [h] at h' <;> cases h'
  simp [logFetch]

theorem mainloopLog_closing (e : Endian) (cl : Client) (w : World) (l : Log)
    (hl : l.pos ≤ l.file.length) (fin : Option Spec.Request) (hf : ∀ r ∈ fin, r.IsDisc) :
    (mainloop e cl w (Spec.closing fin)).handled = [] ∧
    (mainloop e cl w (Spec.closing fin)).cl = cl ∧ (mainloop e cl w (Spec.closing fin)).w = w ∧
    (mainloopLog e cl w (Spec.closing fin) l).2 =
      l.write ((Spec.closingRecords fin).flatMap Spec.Record.encode) := by
  rw [← mainloopLog_run e cl w _ l]
  cases fin with
  | none =>
    simp only [Spec.closing, mainloopLog_nil]
    exact ⟨trivial, trivial, trivial, (Log.write_nil l hl).symm⟩
  | some r =>
    obtain ⟨hfit, hm, hd⟩ := hf r rfl
    have h28 : r.encode.length = 28 := by simp [Spec.Request.encode, hfit.cookie]
    have ht : r.encode.take 28 = r.encode := List.take_of_length_le (by omega)
    have hdec := Request.decode_encode r hfit
    have h1 : (loadReq e r.encode).type = 2 := by
      have := ntohl_load32 e ((r.encode.drop 4).take 4) (by simp [h28])
      have h2 : (loadReq e r.encode).type = (Spec.Request.decode r.encode).type := this
      rw [h2, hdec, hd]
    have h2 : (loadReq e r.encode).magicOk e = true := by
      rw [magicOk_iff]
      apply UInt32.toNat_inj.mp
      have := ntohl_load32 e (r.encode.take 4) (by simp [h28])
      have h3 : (ntohl e (loadReq e r.encode).magic).toNat = (Spec.Request.decode r.encode).magic := this
      rw [h3, hdec, hm]; rfl
    have hfe : fetch e cl w r.encode = .val (w, .disc []) := by
      unfold fetch
      rw [if_neg (by omega), ht, List.drop_of_length_le (by omega)]
      dsimp only
      rw [h2, h1]
      rfl
    have hlf : logFetch e cl r.encode l = l.write r.encode := by
      unfold logFetch
      rw [if_neg (by omega), ht]
      dsimp only
      rw [h1, if_neg (by simp [CMD_WRITE])]
    simp only [Spec.closing]
    rw [mainloopLog.eq_def]
    dsimp only
    split <;> rename_i h' <;> rw [hfe] at h' <;> cases h'
    refine ⟨rfl, rfl, rfl, ?_⟩
    rw [hlf]
    simp [Spec.closingRecords, Spec.Record.encode]

theorem hdrs_records (e : Endian) (c : List Byte) (hc : c.length = 8) :
    ∀ (msgs : List Msg) (rs : List Spec.Reply), (∀ m ∈ msgs, HdrOk e c m) → Encodes msgs rs →
      (∀ r ∈ rs, r.cookie = c) →
      msgs.flatMap Msg.hdr = (rs.map Spec.Reply.record).flatMap Spec.Record.encode := by
  intro msgs
  induction msgs with
  | nil =>
    intro rs _ he _
    unfold Encodes at he
    cases rs with
    | nil => rfl
    | cons r rs => simp at he
  | cons m msgs ih =>
    intro rs hm he hr
    unfold Encodes at he
    cases rs with
    | nil => simp at he
    | cons r rs =>
      simp only [List.map_cons, List.cons.injEq] at he
      have hrc := hr r (by simp)
      rw [List.flatMap_cons, List.map_cons, List.flatMap_cons,
        hdr_record e c m r (hm m (by simp)) he.1 (by rw [hrc, hc]) hc,
        ih rs (fun x hx => hm x (by simp [hx])) he.2 (fun x hx => hr x (by simp [hx]))]

/-- The connection was closed by the client, not by a failure of the server. -/
def Clean (x : Ending) : Prop := x = .gone ∨ x = .disconnected

/-- A session appends the records of its requests and replies to the log, in order. -/
theorem mainloopLog_records (e : Endian) (ss : List Spec.Sent) (hok : ∀ s ∈ ss, s.Ok)
    (fin : Option Spec.Request) (hfin : ∀ r ∈ fin, r.IsDisc) :
    ∀ (cl : Client) (w : World) (l : Log), l.pos ≤ l.file.length →
      Clean (mainloop e cl w (ss.flatMap Spec.Sent.encode ++ Spec.closing fin)).ending →
      ∃ answers : List (List Spec.Reply), answers.length = ss.length ∧
        (mainloop e cl w (ss.flatMap Spec.Sent.encode ++ Spec.closing fin)).sent = Spec.wire answers.flatten ∧
        (∀ (i : Nat) (s : Spec.Sent) (rs : List Spec.Reply), ss[i]? = some s → answers[i]? = some rs →
          Spec.Answer s.req.cookie rs ∧ (∀ x ∈ rs, x.Recordable) ∧
            (cl.structured = false ∨ s.req.type % 65536 ≠ 0 → ∀ x ∈ rs, x.isSimple = true)) ∧
        (mainloopLog e cl w (ss.flatMap Spec.Sent.encode ++ Spec.closing fin) l).2 =
          l.write ((Spec.records (keepsData cl) ss answers ++
            Spec.closingRecords fin).flatMap Spec.Record.encode) := by
  induction ss with
  | nil =>
    intro cl w l hl hend
    refine ⟨[], rfl, ?_, by simp, ?_⟩
    · rw [List.flatMap_nil, List.nil_append]
      have := (mainloopLog_closing e cl w l hl fin hfin).1
      unfold Run.sent
      rw [this]; rfl
    · rw [List.flatMap_nil, List.nil_append, (mainloopLog_closing e cl w l hl fin hfin).2.2.2]
      rfl
  | cons s ss ih =>
    intro cl w l hl hend
    have hs := hok s (by simp)
    have hst : (s :: ss).flatMap Spec.Sent.encode ++ Spec.closing fin =
        s.encode ++ (ss.flatMap Spec.Sent.encode ++ Spec.closing fin) := by simp
    rw [hst] at hend ⊢
    rcases fetch_sent e cl w s hs (ss.flatMap Spec.Sent.encode ++ Spec.closing fin) with ⟨hub, _⟩ | ⟨w1, p, hf, _, _, hfit, hb, _⟩
    · rw [mainloop_ub _ _ _ _ hub] at hend
      rcases hend with h | h <;> cases h
    · rw [mainloop_push _ _ _ _ _ _ _ _ hf] at hend ⊢
      rw [mainloopLog_push _ _ _ _ _ _ _ _ _ hf]
      split at hend
      · rcases hend with h | h <;> cases h
      · rcases hend with h | h <;> cases h
      · rename_i cl' w' msgs hq
        have hend : Clean (mainloop e cl' w' (ss.flatMap Spec.Sent.encode ++ Spec.closing fin)).ending := hend
        obtain ⟨rs, henc, hans, hrec, hsimp⟩ := handleRequest_logged _ _ _ _ _ _ _ _ hq
        have hseat := handleRequest_seat _ _ _ _ _ _ _ _ hq
        have hkeep : keepsData cl' = keepsData cl := by unfold keepsData; rw [hseat.ex]
        have hpos1 := Log.write_pos l (s.req.encode ++ if keepsData cl then s.data else []) hl
        have hlog : logReplies (logFetch e cl (s.encode ++ (ss.flatMap Spec.Sent.encode ++ Spec.closing fin)) l) msgs
            = l.write ((Spec.Record.request s.req (if keepsData cl then s.data else []) ::
                rs.map Spec.Reply.record).flatMap Spec.Record.encode) := by
          rw [logFetch_sent e cl s hs _ l hl, logReplies_eq _ _ hpos1, Log.write_write _ _ _ hl,
            List.flatMap_cons]
          rw [hdrs_records e _ hs.fits.cookie msgs rs (handleRequest_hdr _ _ _ _ _ _ _ _ hq) henc hans.cookie]
          rfl
        obtain ⟨answers, a1, a2, a3, a4⟩ := ih (fun x hx => hok x (by simp [hx])) cl' w'
          (logReplies (logFetch e cl (s.encode ++ (ss.flatMap Spec.Sent.encode ++ Spec.closing fin)) l) msgs)
          (by rw [hlog]; exact Log.write_pos _ _ hl) hend
        refine ⟨rs :: answers, by simp [a1], ?_, ?_, ?_⟩
        · rw [List.flatten_cons]
          exact Run.cons_sent _ _ _ _ henc.wire a2
        · intro i s' rs' h1 h2
          cases i with
          | zero =>
            simp only [List.getElem?_cons_zero, Option.some.injEq] at h1 h2
            subst h1; subst h2
            exact ⟨hans, hrec, hsimp⟩
          | succ i =>
            simp only [List.getElem?_cons_succ] at h1 h2
            rw [← hseat.structured]
            exact a3 i s' rs' h1 h2
        · rw [hq]
          show (mainloopLog e cl' w' (ss.flatMap Spec.Sent.encode ++ Spec.closing fin) _).2 = _
          rw [a4, hlog, Log.write_write _ _ _ hl, ← List.flatMap_append, hkeep,
            ← List.append_assoc]
          rfl

theorem optionRecord_eq (e : Endian) : optionRecord e = Spec.Record.dataOn.encode := by
  unfold optionRecord Spec.Record.encode Spec.Request.encode
  rw [store32_htonl, store32_htonl, store32_htonl, store64_htonll]
  rfl

/-! ### Reading a log back -/

namespace Spec

theorem Request.encode_len (r : Request) (h : r.cookie.length = 8) : r.encode.length = 28 := by
  simp [Request.encode, h]

theorem dataOn_len : Record.dataOn.encode.length = 28 := by decide

theorem be_head4 (v : Nat) (hv : v < 2 ^ 32) (rest : List Byte) :
    beVal ((toBE 4 v ++ rest).take 4) = v := by
  rw [List.take_left' (by simp)]
  exact beVal_toBE_of_lt hv


theorem readLog_reply (keep : Bool) (err : Nat) (cookie rest : List Byte) (he : err < 2 ^ 32)
    (hc : cookie.length = 8) :
    readLog keep ((Record.reply err cookie).encode ++ rest) =
      (readLog keep rest).map (.reply err cookie :: ·) := by
  have hlen : (Record.reply err cookie).encode.length = 16 := by simp [Record.encode, hc]
  rw [readLog.eq_def, if_neg (by
    intro h
    have := congrArg List.length h
    simp [hlen] at this), dif_neg (by simp [hlen])]
  have e0 : beVal (((Record.reply err cookie).encode ++ rest).take 4) = 0x67446698 := by
    rw [Record.encode, List.append_assoc, List.append_assoc]
    exact be_head4 _ (by decide) _
  have e1 : ((Record.reply err cookie).encode ++ rest).drop 16 = rest := List.drop_left' hlen
  have e2 : ((((Record.reply err cookie).encode ++ rest).drop 4).take 4) = toBE 4 err := by
    rw [Record.encode, List.append_assoc, List.append_assoc, List.drop_left' (by simp)]
    exact List.take_left' (by simp)
  have e3 : ((((Record.reply err cookie).encode ++ rest).drop 8).take 8) = cookie := by
    rw [Record.encode, List.append_assoc, List.drop_left' (by simp)]
    exact List.take_left' hc
  simp only [e0, if_true, e1, e2, e3]
  rw [beVal_toBE_of_lt (by simpa using he)]

theorem readLog_chunk (keep : Bool) (flags type : Nat) (cookie : List Byte) (n : Nat)
    (rest : List Byte) (hf : flags < 2 ^ 16) (ht : type < 2 ^ 16) (hc : cookie.length = 8)
    (hn : n < 2 ^ 32) :
    readLog keep ((Record.chunk flags type cookie n).encode ++ rest) =
      (readLog keep rest).map (.chunk flags type cookie n :: ·) := by
  have hlen : (Record.chunk flags type cookie n).encode.length = 20 := by simp [Record.encode, hc]
  rw [readLog.eq_def, if_neg (by
    intro h
    have := congrArg List.length h
    simp [hlen] at this), dif_neg (by simp [hlen]; omega)]
  have e0 : beVal (((Record.chunk flags type cookie n).encode ++ rest).take 4) = 0x668e33ef := by
    simp only [Record.encode, List.append_assoc]
    exact be_head4 _ (by decide) _
  have e1 : ((Record.chunk flags type cookie n).encode ++ rest).drop 20 = rest := List.drop_left' hlen
  have e2 : ((((Record.chunk flags type cookie n).encode ++ rest).drop 4).take 2) = toBE 2 flags := by
    simp only [Record.encode, List.append_assoc]
    rw [List.drop_left' (by simp)]
    exact List.take_left' (by simp)
  have e3 : ((((Record.chunk flags type cookie n).encode ++ rest).drop 6).take 2) = toBE 2 type := by
    simp only [Record.encode, List.append_assoc]
    rw [← List.append_assoc, List.drop_left' (by simp)]
    exact List.take_left' (by simp)
  have e4 : ((((Record.chunk flags type cookie n).encode ++ rest).drop 8).take 8) = cookie := by
    simp only [Record.encode]
    rw [List.append_assoc, List.append_assoc, List.drop_left' (by simp)]
    exact List.take_left' hc
  have e5 : ((((Record.chunk flags type cookie n).encode ++ rest).drop 16).take 4) = toBE 4 n := by
    simp only [Record.encode]
    rw [List.append_assoc, List.drop_left' (by simp [hc])]
    exact List.take_left' (by simp)
  simp only [e0, e1, e2, e3, e4, e5]
  rw [if_neg (by decide), if_neg (by simp [hlen]), if_pos trivial]
  rw [beVal_toBE_of_lt (by simpa using hf), beVal_toBE_of_lt (by simpa using ht), beVal_toBE_of_lt (by simpa using hn)]

theorem readLog_request (keep : Bool) (r : Request) (data rest : List Byte) (hr : r.Fits)
    (hm : r.magic = 0x25609513)
    (hd : data.length = if keep = true ∧ r.type % 65536 = 1 then r.len else 0) :
    readLog keep ((Record.request r data).encode ++ rest) =
      (readLog keep rest).map (.request r data :: ·) := by
  have hlen : r.encode.length = 28 := Request.encode_len r hr.cookie
  have hall : ((Record.request r data).encode ++ rest).length = 28 + data.length + rest.length := by
    simp [Record.encode, hlen]; omega
  rw [readLog.eq_def, if_neg (by
    intro h
    have := congrArg List.length h
    rw [hall] at this
    simp at this), dif_neg (by rw [hall]; omega)]
  have e0 : beVal (((Record.request r data).encode ++ rest).take 4) = 0x25609513 := by
    simp only [Record.encode, Request.encode, List.append_assoc, hm]
    exact be_head4 _ (by decide) _
  have e1 : ((Record.request r data).encode ++ rest).take 28 = r.encode := by
    simp only [Record.encode, List.append_assoc]; exact List.take_left' hlen
  have e2 : ((Record.request r data).encode ++ rest).drop 28 = data ++ rest := by
    simp only [Record.encode, List.append_assoc]; exact List.drop_left' hlen
  simp only [e0, e1, e2]
  have hne : ¬ r.encode = Record.dataOn.encode := by
    intro h
    have := congrArg (fun l => beVal (l.take 4)) h
    rw [Request.encode, hm, List.append_assoc, List.append_assoc, List.append_assoc,
      be_head4 _ (by decide)] at this
    revert this
    decide
  rw [if_neg (by decide), if_neg (by rw [hall]; omega), if_neg (by decide), if_neg (by rw [hall]; omega),
    if_neg hne, Request.decode_encode r hr, ← hd, if_neg (by simp), List.take_left, List.drop_left]

/-- Reading back what was written. -/
theorem readLog_records (keep : Bool) (recs : List Record) (h : ∀ x ∈ recs, x.Ok keep) :
    readLog keep (recs.flatMap Record.encode) = some recs := by
  induction recs with
  | nil => rw [List.flatMap_nil, readLog.eq_def, if_pos rfl]
  | cons x recs ih =>
    have hx := h x (by simp)
    have ih := ih (fun y hy => h y (by simp [hy]))
    rw [List.flatMap_cons]
    cases x with
    | dataOn => exact hx.elim
    | request r data => rw [readLog_request keep r data _ hx.1 hx.2.1 hx.2.2, ih]; rfl
    | reply err cookie => rw [readLog_reply keep err cookie _ hx.1 hx.2, ih]; rfl
    | chunk f t c n => rw [readLog_chunk keep f t c n _ hx.1 hx.2.1 hx.2.2.1 hx.2.2.2, ih]; rfl

theorem readLog_dataOn (rest : List Byte) :
    readLog false (Record.dataOn.encode ++ rest) = (readLog true rest).map (.dataOn :: ·) := by
  rw [readLog.eq_def, if_neg (by
    intro h
    have := congrArg List.length h
    simp [dataOn_len] at this), dif_neg (by simp [dataOn_len]; omega)]
  have e0 : beVal ((Record.dataOn.encode ++ rest).take 4) = 0x25609514 := by
    rw [List.take_append_of_le_length (by simp [dataOn_len])]; decide
  have e1 : (Record.dataOn.encode ++ rest).take 28 = Record.dataOn.encode := List.take_left' dataOn_len
  have e2 : (Record.dataOn.encode ++ rest).drop 28 = rest := List.drop_left' dataOn_len
  simp only [e0, e1, e2]
  rw [if_neg (by decide), if_neg (by simp [dataOn_len]; omega), if_neg (by decide),
    if_neg (by simp [dataOn_len])]
  simp

/-- What trdump prints about a record. `e` only matters for the length of structured replies. -/
def Record.lines (e : Endian) : Record → List DumpLine
  | .dataOn => [.option 1 0x4A93BA39A54F31B6 1, .datalog true]
  | .request r _ => [.request (beVal r.cookie) r.type r.start r.len]
  | .reply err cookie => [.reply (beVal cookie) err]
  | .chunk flags type cookie len =>
    [.chunk (beVal cookie) type flags (match e with | .little => len / 65536 | .big => len % 65536)]

end Spec


/-! ### nbd-trdump reads the records -/

theorem loadReq_fields (e : Endian) (r : Spec.Request) (h : r.Fits) :
    (loadReq e r.encode).type = r.type ∧ (loadReq e r.encode).cookie = r.cookie ∧
      (loadReq e r.encode).start = r.start ∧ (loadReq e r.encode).len = r.len ∧
      (ntohl e (load32 e (r.encode.take 4))).toNat = r.magic := by
  have hl := Spec.Request.encode_len r h.cookie
  have hd := Request.decode_encode r h
  refine ⟨?_, ?_, ?_, ?_, ?_⟩
  · rw [show r.type = (Spec.Request.decode r.encode).type by rw [hd]]
    exact ntohl_load32 e _ (by simp [hl])
  · rw [show r.cookie = (Spec.Request.decode r.encode).cookie by rw [hd]]; rw [hd]
    have : (loadReq e r.encode).cookie = (Spec.Request.decode r.encode).cookie := rfl
    rw [this, hd]
  · rw [show r.start = (Spec.Request.decode r.encode).start by rw [hd]]
    exact ntohll_load64 e _ (by simp [hl])
  · rw [show r.len = (Spec.Request.decode r.encode).len by rw [hd]]
    exact ntohl_load32 e _ (by simp [hl])
  · rw [show r.magic = (Spec.Request.decode r.encode).magic by rw [hd]]
    exact ntohl_load32 e _ (by simp [hl])

theorem magic_head (e : Endian) (v : UInt32) (n : Nat) (hv : v.toNat = n) (rest : List Byte) :
    ntohl e (load32 e ((toBE 4 n ++ rest).take 4)) = v := by
  apply UInt32.toNat_inj.mp
  rw [ntohl_load32 e _ (by simp), Spec.be_head4 _ (by rw [← hv]; exact v.toNat_lt), hv]

theorem trdump_reply (e : Endian) (keep : Bool) (err : Nat) (cookie rest : List Byte)
    (he : err < 2 ^ 32) (hc : cookie.length = 8) :
    trdump e keep ((Spec.Record.reply err cookie).encode ++ rest) =
      .reply (beVal cookie) err :: trdump e keep rest := by
  have hlen : (Spec.Record.reply err cookie).encode.length = 16 := by simp [Spec.Record.encode, hc]
  rw [trdump.eq_def, dif_neg (by simp [hlen]; omega)]
  have e0 : ntohl e (load32 e (((Spec.Record.reply err cookie).encode ++ rest).take 4)) = REPLY_MAGIC := by
    rw [Spec.Record.encode, List.append_assoc, List.append_assoc]
    exact magic_head e REPLY_MAGIC 0x67446698 (by decide) _
  have e1 : ((Spec.Record.reply err cookie).encode ++ rest).drop 16 = rest := List.drop_left' hlen
  have e2 : ((((Spec.Record.reply err cookie).encode ++ rest).drop 4).take 4) = toBE 4 err := by
    rw [Spec.Record.encode, List.append_assoc, List.append_assoc, List.drop_left' (by simp)]
    exact List.take_left' (by simp)
  have e3 : ((((Spec.Record.reply err cookie).encode ++ rest).drop 8).take 8) = cookie := by
    rw [Spec.Record.encode, List.append_assoc, List.drop_left' (by simp)]
    exact List.take_left' hc
  simp only [e0, e1, e2, e3]
  rw [if_neg (by decide), if_pos trivial, if_neg (by simp [hlen]), ntohl_load32 e _ (by simp),
    ntohll_load64 e _ hc, beVal_toBE_of_lt (by simpa using he)]

theorem ntohs_low (e : Endian) (n : Nat) (hn : n < 2 ^ 32) :
    (ntohs e (load32 e (toBE 4 n)).toUInt16).toNat =
      match e with | .little => n / 65536 | .big => n % 65536 := by
  have h4 : (load32 e (toBE 4 n)).toNat = load e (toBE 4 n) := by
    rw [load32, UInt32.toNat_ofNat']
    exact Nat.mod_eq_of_lt (by simpa using load_lt e (toBE 4 n))
  cases e with
  | big =>
    have hl : (load32 .big (toBE 4 n)).toNat = n := by
      rw [h4, load]; exact beVal_toBE_of_lt hn
    have h16 : ((load32 .big (toBE 4 n)).toUInt16).toNat = n % 65536 := by
      rw [UInt32.toNat_toUInt16, hl]
    simp only [ntohs, store, h16, UInt16.toNat_ofNat']
    rw [beVal_toBE]
    have : n % 65536 < 65536 := Nat.mod_lt _ (by decide)
    omega
  | little =>
    have hsplit : (toBE 4 n : List Byte) = toBE 2 (n / 65536) ++ toBE 2 n := by
      simp only [toBE, Nat.div_div_eq_div_mul]
      rfl
    have hl : load .little (toBE 4 n) = load .little (toBE 2 n) * 65536 + load .little (toBE 2 (n / 65536)) := by
      rw [hsplit]
      simp only [load, List.reverse_append, beVal_append, List.length_reverse, toBE_length]
    have hb := load_lt .little (toBE 2 (n / 65536))
    rw [toBE_length] at hb
    have hb : load .little (toBE 2 (n / 65536)) < 65536 := hb
    have h16 : ((load32 .little (toBE 4 n)).toUInt16).toNat = load .little (toBE 2 (n / 65536)) := by
      rw [UInt32.toNat_toUInt16, h4, hl]
      omega
    simp only [ntohs, h16, UInt16.toNat_ofNat']
    have := store_load .little (toBE 2 (n / 65536))
    rw [toBE_length] at this
    rw [this, beVal_toBE]
    omega

theorem trdump_chunk (e : Endian) (keep : Bool) (flags type : Nat) (cookie : List Byte) (n : Nat)
    (rest : List Byte) (hf : flags < 2 ^ 16) (ht : type < 2 ^ 16) (hc : cookie.length = 8)
    (hn : n < 2 ^ 32) :
    trdump e keep ((Spec.Record.chunk flags type cookie n).encode ++ rest) =
      (Spec.Record.chunk flags type cookie n).lines e ++ trdump e keep rest := by
  have hlen : (Spec.Record.chunk flags type cookie n).encode.length = 20 := by simp [Spec.Record.encode, hc]
  rw [trdump.eq_def, dif_neg (by simp [hlen]; omega)]
  have e0 : ntohl e (load32 e (((Spec.Record.chunk flags type cookie n).encode ++ rest).take 4)) =
      STRUCTURED_REPLY_MAGIC := by
    simp only [Spec.Record.encode, List.append_assoc]
    exact magic_head e STRUCTURED_REPLY_MAGIC 0x668e33ef (by decide) _
  have e1 : ((Spec.Record.chunk flags type cookie n).encode ++ rest).drop 20 = rest := List.drop_left' hlen
  have e2 : ((((Spec.Record.chunk flags type cookie n).encode ++ rest).drop 4).take 2) = toBE 2 flags := by
    simp only [Spec.Record.encode, List.append_assoc]
    rw [List.drop_left' (by simp)]
    exact List.take_left' (by simp)
  have e3 : ((((Spec.Record.chunk flags type cookie n).encode ++ rest).drop 6).take 2) = toBE 2 type := by
    simp only [Spec.Record.encode, List.append_assoc]
    rw [← List.append_assoc, List.drop_left' (by simp)]
    exact List.take_left' (by simp)
  have e4 : ((((Spec.Record.chunk flags type cookie n).encode ++ rest).drop 8).take 8) = cookie := by
    simp only [Spec.Record.encode]
    rw [List.append_assoc, List.append_assoc, List.drop_left' (by simp)]
    exact List.take_left' hc
  have e5 : ((((Spec.Record.chunk flags type cookie n).encode ++ rest).drop 16).take 4) = toBE 4 n := by
    simp only [Spec.Record.encode]
    rw [List.append_assoc, List.drop_left' (by simp [hc])]
    exact List.take_left' (by simp)
  simp only [e0, e1, e2, e3, e4, e5]
  rw [if_neg (by decide), if_neg (by decide), if_neg (by decide), if_pos trivial, if_neg (by simp [hlen]),
    ntohs_load16 e _ (by simp), ntohs_load16 e _ (by simp),
    ntohll_load64 e _ hc, beVal_toBE_of_lt (by simpa using ht), beVal_toBE_of_lt (by simpa using hf), ntohs_low e n hn]
  rfl

theorem trdump_request (e : Endian) (keep : Bool) (r : Spec.Request) (data rest : List Byte)
    (hr : r.Fits) (hm : r.magic = 0x25609513)
    (hd : data.length = if keep = true ∧ r.type % 65536 = 1 then r.len else 0) :
    trdump e keep ((Spec.Record.request r data).encode ++ rest) =
      (Spec.Record.request r data).lines e ++ trdump e keep rest := by
  have hlen : r.encode.length = 28 := Spec.Request.encode_len r hr.cookie
  have hall : ((Spec.Record.request r data).encode ++ rest).length = 28 + data.length + rest.length := by
    simp [Spec.Record.encode, hlen]; omega
  obtain ⟨f1, f2, f3, f4, _⟩ := loadReq_fields e r hr
  rw [trdump.eq_def, dif_neg (by rw [hall]; omega)]
  have e0 : ntohl e (load32 e (((Spec.Record.request r data).encode ++ rest).take 4)) = REQUEST_MAGIC := by
    simp only [Spec.Record.encode, Spec.Request.encode, List.append_assoc, hm]
    exact magic_head e REQUEST_MAGIC 0x25609513 (by decide) _
  have e1 : ((Spec.Record.request r data).encode ++ rest).take 28 = r.encode := by
    simp only [Spec.Record.encode, List.append_assoc]; exact List.take_left' hlen
  have e2 : ((Spec.Record.request r data).encode ++ rest).drop 28 = data ++ rest := by
    simp only [Spec.Record.encode, List.append_assoc]; exact List.drop_left' hlen
  simp only [e0, e1, e2, f1, f2, f3, f4, ntohll_load64 e _ hr.cookie]
  rw [if_pos trivial, if_neg (by rw [hall]; omega)]
  by_cases hk : keep = true ∧ r.type % 65536 = 1
  · rw [if_pos hk] at hd
    have hw : r.type % 65536 = CMD_WRITE := hk.2
    rw [if_pos (by rw [hk.1]; simp [hw]), if_neg (by simp; omega), ← hd, List.drop_left]
    simp only [Spec.Record.lines, List.cons_append, List.nil_append, hd]
  · rw [if_neg hk] at hd
    have hnil : data = [] := List.length_eq_zero_iff.mp hd
    rw [if_neg (by
      intro hx
      rw [Bool.and_eq_true] at hx
      exact hk ⟨hx.2, of_decide_eq_true hx.1⟩), hnil]
    simp only [Spec.Record.lines, List.cons_append, List.nil_append]

theorem trdump_dataOn (e : Endian) (keep : Bool) (rest : List Byte) :
    trdump e keep (Spec.Record.dataOn.encode ++ rest) =
      Spec.Record.dataOn.lines e ++ trdump e true rest := by
  have hl : (Spec.Record.dataOn.encode ++ rest).length = 28 + rest.length := by
    rw [List.length_append, Spec.dataOn_len]
  have e1 : (Spec.Record.dataOn.encode ++ rest).take 28 = Spec.Record.dataOn.encode :=
    List.take_left' Spec.dataOn_len
  have e2 : (Spec.Record.dataOn.encode ++ rest).drop 28 = rest := List.drop_left' Spec.dataOn_len
  have hfit : Spec.Request.Fits ⟨0x25609514, 1, List.replicate 8 0, 0x4A93BA39A54F31B6, 1⟩ :=
    ⟨by decide, by decide, by decide, by decide, by decide⟩
  obtain ⟨f1, f2, f3, f4, _⟩ := loadReq_fields e _ hfit
  rw [trdump.eq_def, dif_neg (by rw [hl]; omega)]
  have e0 : ntohl e (load32 e ((Spec.Record.dataOn.encode ++ rest).take 4)) = TRACELOG_MAGIC := by
    simp only [Spec.Record.encode, Spec.Request.encode, List.append_assoc]
    exact magic_head e TRACELOG_MAGIC 0x25609514 (by decide) _
  simp only [e0, e1, e2]
  rw [if_neg (by decide), if_neg (by decide), if_pos trivial, if_neg (by rw [hl]; omega)]
  simp only [Spec.Record.encode, f1, f3, f4, traceOption, TRACELOG_FROM_MAGIC, TRACELOG_SET_DATALOG]
  rfl

theorem trdump_records (e : Endian) (keep : Bool) (recs : List Spec.Record)
    (h : ∀ x ∈ recs, x.Ok keep) :
    trdump e keep (recs.flatMap Spec.Record.encode) = recs.flatMap (Spec.Record.lines e) := by
  induction recs with
  | nil => rw [List.flatMap_nil, trdump.eq_def]; rfl
  | cons x recs ih =>
    have hx := h x (by simp)
    have ih := ih (fun y hy => h y (by simp [hy]))
    rw [List.flatMap_cons, List.flatMap_cons, ← ih]
    cases x with
    | dataOn => exact hx.elim
    | request r data => exact trdump_request e keep r data _ hx.1 hx.2.1 hx.2.2
    | reply err cookie => exact trdump_reply e keep err cookie _ hx.1 hx.2
    | chunk f t c n => exact trdump_chunk e keep f t c n _ hx.1 hx.2.1 hx.2.2.1 hx.2.2.2

end Nbd
