import Verif.Request
import Verif.RawLemmas
import Verif.WireLemmas
/-! # Every handled request produces exactly one well-formed answer -/

namespace Nbd

/-- What no read path ever changes in the read context, and the size bound of chunks. -/
structure CtxKept (c c' : ReadCtx) : Prop where
  start : c'.start = c.start
  reqLen : c'.reqLen = c.reqLen
  structured : c'.structured = c.structured
  df : c'.df = c.df
  bufLen : c'.buf.length = c.buf.length
  chunks : ∃ cs, c'.chunks = c.chunks ++ cs ∧ (∀ x ∈ cs, x.2.length ≤ MAX_RW_COUNT) ∧
    (c.chunked = false → cs = [])

theorem CtxKept.refl (c : ReadCtx) : CtxKept c c :=
  ⟨rfl, rfl, rfl, rfl, rfl, [], by simp, by simp, fun _ => rfl⟩

theorem CtxKept.chunked {c c' : ReadCtx} (h : CtxKept c c') : c'.chunked = c.chunked := by
  simp [ReadCtx.chunked, h.structured, h.df]

theorem CtxKept.trans {a b c : ReadCtx} (h1 : CtxKept a b) (h2 : CtxKept b c) : CtxKept a c := by
  obtain ⟨x1, e1, l1, n1⟩ := h1.chunks
  obtain ⟨x2, e2, l2, n2⟩ := h2.chunks
  refine ⟨h2.start.trans h1.start, h2.reqLen.trans h1.reqLen, h2.structured.trans h1.structured,
    h2.df.trans h1.df, h2.bufLen.trans h1.bufLen, x1 ++ x2, by rw [e2, e1, List.append_assoc], ?_, ?_⟩
  · intro x hx
    rw [List.mem_append] at hx
    rcases hx with hx | hx
    · exact l1 x hx
    · exact l2 x hx
  · intro hc
    rw [n1 hc, n2 (by rw [h1.chunked, hc])]
    rfl

theorem CtxKept.cursor {c c' : ReadCtx} (h : CtxKept c c') (o l : Nat) :
    CtxKept c { c' with curOff := o, curLen := l } :=
  ⟨h.start, h.reqLen, h.structured, h.df, h.bufLen, h.chunks⟩

theorem deliver_kept {c c' : ReadCtx} {bs : List Byte} (h : c.deliver bs = .val c')
    (hl : bs.length ≤ MAX_RW_COUNT) : CtxKept c c' := by
  unfold ReadCtx.deliver at h
  split at h
  · rename_i hc
    split at h
    · cases h
    · cases h
      exact ⟨rfl, rfl, rfl, rfl, rfl, [_], rfl, by simpa using hl, by simp [hc]⟩
  · split at h
    · cases h
    · cases h
      refine ⟨rfl, rfl, rfl, rfl, ?_, [], by simp, by simp, fun _ => rfl⟩
      exact bufSet_length _ _ _ (by omega)

theorem sysPread_len {w w' : World} {id : FileId} {off len : Nat} {bs : List Byte}
    (h : sysPread w id off len = (w', some bs)) : bs.length ≤ MAX_RW_COUNT := by
  unfold sysPread at h
  split at h
  · simp at h
  · split at h
    · simp at h
    · simp only [Prod.mk.injEq, Option.some.injEq] at h
      rw [← h.2]
      simp [File.pread]
      omega

theorem rawexpread_len {ex : Export} {w w' : World} {a len : Nat} {bs : List Byte}
    (h : rawexpread ex w a len = .val (w', some bs)) : bs.length ≤ MAX_RW_COUNT := by
  unfold rawexpread at h
  split at h
  · cases h
  · cases h
  · simp at h
  · simp only [Out.val.injEq] at h
    unfold handlePread at h
    split at h
    · exact sysPread_len h
    · simp at h
    · split at h
      · simp at h
      · simp only [Prod.mk.injEq, Option.some.injEq] at h
        rw [← h.2]
        simp [File.pread]
        omega

theorem rawexpreadFully_kept (ex : Export) (w : World) (c : ReadCtx) (w' : World) (c' : ReadCtx)
    (ok : Bool) (h : rawexpreadFully ex w c = .val (w', c', ok)) : CtxKept c c' := by
  fun_induction rawexpreadFully ex w c with
  | case1 w c hl => cases h; exact .refl _
  | case2 => cases h
  | case3 => cases h
  | case4 => cases h; exact .refl _
  | case5 => cases h; exact .refl _
  | case6 => cases h
  | case7 => cases h
  | case8 w c hl w1 b bs hq c1 hd ih =>
    exact ((deliver_kept hd (rawexpread_len hq)).cursor _ _).trans (ih h)

theorem expreadPages_kept (cl : Client) (n : Nat) (w : World) (c : ReadCtx) (mapcnt a len : Nat)
    (w' : World) (c' : ReadCtx) (ok : Bool)
    (h : expreadPages cl n w c mapcnt a len = .val (w', c', ok)) : CtxKept c c' := by
  fun_induction expreadPages cl n w c mapcnt a len with
  | case1 => cases h; exact .refl _
  | case2 => cases h
  | case3 => cases h; exact .refl _
  | case4 => cases h
  | case5 => cases h
  | case6 => cases h; exact .refl _
  | case7 n w c mapcnt a len off rdlen m hm hne w1 bs hp c1 hd hlen ih =>
    exact (deliver_kept hd (sysPread_len hp)).trans (ih h)
  | case8 => cases h; exact .refl _
  | case9 => cases h
  | case10 => cases h
  | case11 n w c mapcnt a len off rdlen m hm hne hw w1 c1 hq =>
    cases h
    exact ((CtxKept.refl c).cursor c.curOff rdlen).trans (rawexpreadFully_kept _ _ _ _ _ _ hq)
  | case12 n w c mapcnt a len off rdlen m hm hne hw w1 c1 hq ih =>
    exact (((CtxKept.refl c).cursor c.curOff rdlen).trans
      (rawexpreadFully_kept _ _ _ _ _ _ hq)).trans (ih h)

theorem expread_kept (cl : Client) (w : World) (c : ReadCtx) (w' : World) (c' : ReadCtx)
    (ok : Bool) (h : expread cl w c = .val (w', c', ok)) : CtxKept c c' := by
  unfold expread at h
  split at h
  · exact expreadPages_kept _ _ _ _ _ _ _ _ _ _ h
  · exact rawexpreadFully_kept _ _ _ _ _ _ h

theorem expspliceIn_len (ex : Export) (w : World) (a len : Nat) (pipe : List Byte) (w' : World)
    (out : List Byte) (h : expspliceIn ex w a len pipe = .val (w', out, true))
    (hr : ∀ w a len w' bs, rawexpread ex w a len = .val (w', some bs) → bs.length ≤ len) :
    out.length = pipe.length + len := by
  fun_induction expspliceIn ex w a len pipe with
  | case1 => cases h; omega
  | case2 => cases h
  | case3 => cases h
  | case4 => simp at h
  | case5 => simp at h
  | case6 w a len pipe hl w1 b bs hq ih =>
    have := ih h
    have h2 := hr _ _ _ _ _ hq
    rw [this]
    simp only [List.length_append]
    omega

theorem sysPread_le {w w' : World} {id : FileId} {off len : Nat} {bs : List Byte}
    (h : sysPread w id off len = (w', some bs)) : bs.length ≤ len := by
  unfold sysPread at h
  split at h
  · simp at h
  · split at h
    · simp at h
    · simp only [Prod.mk.injEq, Option.some.injEq] at h
      rw [← h.2]
      simp [File.pread]
      omega

theorem rawexpread_le {ex : Export} {w w' : World} {a len : Nat} {bs : List Byte}
    (h : rawexpread ex w a len = .val (w', some bs)) : bs.length ≤ len := by
  unfold rawexpread at h
  split at h
  · cases h
  · cases h
  · simp at h
  · simp only [Out.val.injEq] at h
    rename_i _ h' foff mb _
    have hc := clip_le mb len
    unfold handlePread at h
    split at h
    · have := sysPread_le h; omega
    · simp at h
    · split at h
      · simp at h
      · simp only [Prod.mk.injEq, Option.some.injEq] at h
        rw [← h.2]
        simp [File.pread]
        omega

theorem allInit_length {buf : List (Option Byte)} {data : List Byte} (h : allInit buf = some data) :
    data.length = buf.length := by
  unfold allInit at h
  split at h
  · cases h; simp
  · cases h

theorem allInit_map (bs : List Byte) : allInit (bs.map some) = some bs := by
  unfold allInit
  rw [if_pos (by simp), List.map_map]
  exact congrArg some (List.map_id bs)

/-! ### Messages as protocol replies -/

theorem dataMsg_bytes (e : Endian) (cookie : List Byte) (x : Nat × List Byte)
    (hl : x.2.length ≤ MAX_RW_COUNT) (ho : x.1 < 2 ^ 64) :
    (dataMsg e cookie x).bytes = (Spec.dataChunk cookie x.1 x.2).encode := by
  unfold dataMsg Spec.dataChunk
  rw [chunk_bytes]
  · rw [store64_htonll, UInt64.toNat_ofNat', Nat.mod_eq_of_lt ho]
    rfl
  · simp only [UInt32.toNat_ofNat', List.length_append, store64_length]
    simp only [MAX_RW_COUNT] at hl
    omega

/-- The chunk for a partial read, whatever the offset: still well framed. -/
theorem dataMsg_bytes' (e : Endian) (cookie : List Byte) (x : Nat × List Byte)
    (hl : x.2.length ≤ MAX_RW_COUNT) :
    (dataMsg e cookie x).bytes = (Spec.dataChunk cookie (x.1 % 2 ^ 64) x.2).encode := by
  unfold dataMsg Spec.dataChunk
  rw [chunk_bytes]
  · rw [store64_htonll, UInt64.toNat_ofNat']
    rfl
  · simp only [UInt32.toNat_ofNat', List.length_append, store64_length]
    simp only [MAX_RW_COUNT] at hl
    omega

/-- The error chunk, as a protocol reply. -/
def errorChunk (e : Endian) (cookie : List Byte) (err : UInt32) : Spec.Reply :=
  .chunk 1 32769 cookie
    (toBE 4 err.toNat ++ (store16 e (UInt16.ofNat readFailed.length) ++ readFailed))

theorem errorMsg_bytes (e : Endian) (cookie : List Byte) (v : UInt32) :
    (errorMsg e cookie (ntohl e v)).bytes = (errorChunk e cookie v).encode := by
  unfold errorMsg errorChunk
  rw [chunk_bytes]
  · rw [store32_htonl, List.append_assoc]
    rfl
  · simp only [List.length_append, store32_length, store16_length]
    rfl

theorem doneMsg_bytes (e : Endian) (cookie : List Byte) :
    (chunkMsg e cookie REPLY_FLAG_DONE REPLY_TYPE_NONE 0 []).bytes
      = (Spec.doneChunk cookie).encode := by
  rw [chunk_bytes _ _ _ _ _ _ rfl]
  rfl

theorem beVal_take_toBE (n v : Nat) (rest : List Byte) (h : v < 256 ^ n) :
    beVal ((toBE n v ++ rest).take n) = v := by
  rw [List.take_left' (by simp), beVal_toBE_of_lt h]

theorem errorChunk_error (e : Endian) (cookie : List Byte) (v : UInt32) :
    (errorChunk e cookie v).error = v.toNat := by
  unfold errorChunk Spec.Reply.error
  simp only []
  rw [if_pos (by decide), beVal_take_toBE _ _ _ v.toNat_lt]

open Spec in
theorem Answer.single {cookie : List Byte} {r : Reply} (hc : r.cookie = cookie)
    (hf : r.final = true) : Answer cookie [r] :=
  ⟨by simpa using hc, [], r, by simp [hf]⟩

open Spec in
/-- Data chunks followed by one final message form an answer. -/
theorem Answer.chunks {cookie : List Byte} (cs : List (Nat × List Byte)) {r : Reply}
    (hc : r.cookie = cookie) (hf : r.final = true) :
    Answer cookie (cs.map (fun x => dataChunk cookie x.1 x.2) ++ [r]) := by
  refine ⟨?_, _, _, rfl, hf, ?_⟩
  · intro x hx
    rw [List.mem_append] at hx
    rcases hx with hx | hx
    · rw [List.mem_map] at hx
      obtain ⟨y, _, rfl⟩ := hx
      rfl
    · rw [List.mem_singleton] at hx
      rw [hx, hc]
  · intro x hx
    rw [List.mem_map] at hx
    obtain ⟨y, _, rfl⟩ := hx
    rfl

/-- The messages of an answer are the encodings of protocol replies `rs`. -/
def Encodes (msgs : List Msg) (rs : List Spec.Reply) : Prop :=
  msgs.map Msg.bytes = rs.map Spec.Reply.encode

theorem Encodes.wire {msgs : List Msg} {rs : List Spec.Reply} (h : Encodes msgs rs) :
    (msgs.map Msg.bytes).flatten = Spec.wire rs := by rw [h]; rfl

theorem Encodes.append {m1 m2 : List Msg} {r1 r2 : List Spec.Reply} (h1 : Encodes m1 r1)
    (h2 : Encodes m2 r2) : Encodes (m1 ++ m2) (r1 ++ r2) := by
  unfold Encodes at *
  rw [List.map_append, List.map_append, h1, h2]

theorem has_df_of_flags {t : Nat} (h : (t - t % 65536) / 65536 / 4 = 0) :
    has t CMD_FLAG_DF = false := by
  have ht : t < 2 ^ 18 := by omega
  unfold has CMD_FLAG_DF
  have : t &&& 262144 = 0 := by
    apply Nat.eq_of_testBit_eq
    intro i
    have h2 : (262144 : Nat) = 2 ^ 18 := rfl
    rw [Nat.testBit_and, h2, Nat.testBit_two_pow, Nat.zero_testBit]
    by_cases hi : 18 = i
    · subst hi; simp [Nat.testBit_lt_two_pow ht]
    · simp [hi]
  simp [this]

/-- A simple reply without data is the encoding of a final reply with the request's cookie. -/
theorem simpleMsg_encodes (e : Endian) (r : Req) (err : Option UInt32) :
    Encodes [simpleMsg e r (err.map (ntohl e))]
      [.simple (err.getD 0).toNat r.cookie []] := by
  unfold Encodes simpleMsg
  cases err with
  | none =>
    simp only [Option.map_none, Option.getD_none, List.map_cons, List.map_nil, List.cons.injEq,
      and_true]
    exact simple_bytes_zero e _ _
  | some v =>
    simp only [Option.map_some, Option.getD_some, List.map_cons, List.map_nil, List.cons.injEq,
      and_true]
    exact simple_bytes e _ _ _

theorem resultOf_eq (e : Endian) (w : World) (ok : Bool) :
    resultOf e w ok = (if ok then none else some (errnoWire w.errno)).map (ntohl e) := by
  unfold resultOf
  cases ok <;> simp [nbdErrno_eq]

/-- The read context a normal (not DF) read starts with. -/
def initCtx (cl : Client) (r : Req) : ReadCtx where
  start := r.start
  reqLen := r.len
  structured := cl.structured
  df := false
  buf := if !cl.structured then List.replicate r.len none else []
  curOff := 0
  curLen := r.len
  chunks := []

/-- The replies of a normal read, whatever the read path did: on success either the whole
buffer, or the chunks and a final chunk; on failure chunks and an error. -/
theorem handleNormalRead_replies (e : Endian) (cl : Client) (w w' : World) (r : Req)
    (msgs : List Msg) (hdf : has r.type CMD_FLAG_DF = false)
    (h : handleNormalRead e cl w r = .val (w', msgs)) :
    ∃ c' ok, expread cl w (initCtx cl r) = .val (w', c', ok) ∧
      (if ok then
        (cl.structured = true ∧
          Encodes msgs (c'.chunks.map (fun x => Spec.dataChunk r.cookie (x.1 % 2 ^ 64) x.2) ++
            [Spec.doneChunk r.cookie])) ∨
        (cl.structured = false ∧ ∃ data, allInit c'.buf = some data ∧ data.length = r.len ∧
          Encodes msgs [.simple 0 r.cookie data])
       else
        (cl.structured = true ∧
          Encodes msgs (c'.chunks.map (fun x => Spec.dataChunk r.cookie (x.1 % 2 ^ 64) x.2) ++
            [errorChunk e r.cookie (errnoWire w'.errno)])) ∨
        (cl.structured = false ∧
          Encodes msgs [.simple (errnoWire w'.errno).toNat r.cookie []])) := by
  unfold handleNormalRead at h
  simp only [hdf, Bool.and_false, Bool.false_and, Bool.false_eq_true, if_false,
    Bool.false_or] at h
  change (match expread cl w (initCtx cl r) with | .ub => _ | .exit => _ | .val (w, c, ok) => _) = _ at h
  split at h
  · cases h
  · cases h
  · rename_i w1 c1 ok hq
    refine ⟨c1, ok, ?_⟩
    have hk := expread_kept _ _ _ _ _ _ hq
    obtain ⟨cs, e1, l1, n1⟩ := hk.chunks
    simp only [initCtx, List.nil_append] at e1
    have henc : Encodes (c1.chunks.map (dataMsg e r.cookie))
        (c1.chunks.map (fun x => Spec.dataChunk r.cookie (x.1 % 2 ^ 64) x.2)) := by
      unfold Encodes
      rw [List.map_map, List.map_map]
      apply List.map_congr_left
      intro x hx
      rw [e1] at hx
      exact dataMsg_bytes' e r.cookie x (l1 x hx)
    unfold completeRead at h
    have hs : c1.structured = cl.structured := hk.structured
    have hd : c1.df = false := hk.df
    rw [hs, hd] at h
    cases hst : cl.structured with
    | true =>
      rw [hst] at h
      simp only [if_true, Bool.false_and, Bool.false_eq_true, if_false, List.nil_append] at h
      cases ok with
      | true =>
        simp only [if_true, Out.val.injEq, Prod.mk.injEq] at h
        obtain ⟨rfl, rfl⟩ := h
        refine ⟨hq, ?_⟩
        rw [if_pos rfl]
        left
        refine ⟨rfl, henc.append ?_⟩
        unfold Encodes
        simp [doneMsg_bytes]
      | false =>
        simp only [Bool.false_eq_true, if_false, Out.val.injEq, Prod.mk.injEq] at h
        obtain ⟨rfl, rfl⟩ := h
        refine ⟨hq, ?_⟩
        rw [if_neg (by simp)]
        left
        refine ⟨rfl, henc.append ?_⟩
        unfold Encodes
        simp [nbdErrno_eq, errorMsg_bytes]
    | false =>
      rw [hst] at h
      have hch : c1.chunks = [] := by
        rw [e1]; apply n1; simp [ReadCtx.chunked, initCtx, hst]
      simp only [Bool.false_eq_true, if_false, hch, List.map_nil, List.nil_append] at h
      cases ok with
      | true =>
        simp only [if_true] at h
        cases hi : allInit c1.buf with
        | none => rw [hi] at h; cases h
        | some data =>
          rw [hi] at h
          simp only [Out.val.injEq, Prod.mk.injEq] at h
          obtain ⟨rfl, rfl⟩ := h
          refine ⟨hq, ?_⟩
          rw [if_pos rfl]
          right
          refine ⟨rfl, data, rfl, ?_, ?_⟩
          · rw [allInit_length hi, hk.bufLen]; simp [initCtx, hst]
          · unfold Encodes
            simp [simple_bytes_zero]
      | false =>
        simp only [Bool.false_eq_true, if_false, Out.val.injEq, Prod.mk.injEq] at h
        obtain ⟨rfl, rfl⟩ := h
        refine ⟨hq, ?_⟩
        rw [if_neg (by simp)]
        right
        refine ⟨rfl, ?_⟩
        unfold Encodes
        simp [nbdErrno_eq, simple_bytes]

theorem final_simple (a : Nat) (b c : List Byte) : (Spec.Reply.simple a b c).final = true := rfl
theorem final_done (b : List Byte) : (Spec.doneChunk b).final = true := rfl
theorem final_error (e : Endian) (b : List Byte) (v : UInt32) : (errorChunk e b v).final = true := rfl

theorem map_mod_chunks (cookie : List Byte) (cs : List (Nat × List Byte)) :
    cs.map (fun x => Spec.dataChunk cookie (x.1 % 2 ^ 64) x.2)
      = (cs.map (fun x => (x.1 % 2 ^ 64, x.2))).map (fun x => Spec.dataChunk cookie x.1 x.2) := by
  rw [List.map_map]; rfl

theorem handleNormalRead_answer (e : Endian) (cl : Client) (w w' : World) (r : Req)
    (msgs : List Msg) (hdf : has r.type CMD_FLAG_DF = false)
    (h : handleNormalRead e cl w r = .val (w', msgs)) :
    ∃ rs, Encodes msgs rs ∧ Spec.Answer r.cookie rs := by
  obtain ⟨c', ok, _, hx⟩ := handleNormalRead_replies e cl w w' r msgs hdf h
  cases ok with
  | true =>
    rw [if_pos rfl] at hx
    rcases hx with ⟨_, hx⟩ | ⟨_, data, _, _, hx⟩
    · rw [map_mod_chunks] at hx
      exact ⟨_, hx, Answer.chunks _ rfl rfl⟩
    · exact ⟨_, hx, Answer.single rfl rfl⟩
  | false =>
    rw [if_neg (by simp)] at hx
    rcases hx with ⟨_, hx⟩ | ⟨_, hx⟩
    · rw [map_mod_chunks] at hx
      exact ⟨_, hx, Answer.chunks _ rfl rfl⟩
    · exact ⟨_, hx, Answer.single rfl rfl⟩

theorem simpleMsg_answer (e : Endian) (w : World) (r : Req) (ok : Bool) :
    ∃ rs, Encodes [simpleMsg e r (resultOf e w ok)] rs ∧ Spec.Answer r.cookie rs := by
  rw [resultOf_eq]
  exact ⟨_, simpleMsg_encodes e r _, Answer.single rfl rfl⟩

theorem errorReply_answer (e : Endian) (cl cl' : Client) (w w' : World) (r : Req) (n : Nat)
    (msgs : List Msg) (h : errorReply e cl w r n = .val (cl', w', msgs)) :
    cl' = cl ∧ w' = w ∧ Encodes msgs [.simple (errnoWire n).toNat r.cookie []] := by
  unfold errorReply at h
  cases h
  refine ⟨rfl, rfl, ?_⟩
  rw [nbdErrno_eq]
  exact simpleMsg_encodes e r (some _)

/-- The six ways `handle_request` can end. -/
inductive Handled (e : Endian) (cl : Client) (w : World) (r : Req) (p : Payload) :
    Client → World → List Msg → Prop where
  | refused (n : Nat) (hn : n = EINVAL ∨ n = EPERM ∨ n = ENOSPC)
      (why : 262144 ≤ r.type ∨ r.type % 65536 ∉ [0, 1, 3, 4, 6] ∨
        (r.type % 65536 ∈ [1, 4, 6] ∧ badWrite cl = true) ∨
        (r.type % 65536 ∈ [0, 1, 4, 6] ∧ badRange cl r = true)) :
      Handled e cl w r p cl w [simpleMsg e r (some (nbdErrno e n))]
  | read (hf : r.type < 262144) (ht : r.type % 65536 = 0) (hr : badRange cl r = false)
      (w' : World) (msgs : List Msg) (h : handleRead e cl w r = .val (w', msgs)) :
      Handled e cl w r p cl w' msgs
  | write (hf : r.type < 262144) (ht : r.type % 65536 = 1) (hw : badWrite cl = false)
      (hr : badRange cl r = false) (cl' : Client) (w' : World) (msgs : List Msg)
      (h : handleWrite e cl w r p = .val (cl', w', msgs)) : Handled e cl w r p cl' w' msgs
  | flush (hf : r.type < 262144) (ht : r.type % 65536 = 3) :
      Handled e cl w r p cl (handleFlush e cl w r).1 (handleFlush e cl w r).2
  | trim (hf : r.type < 262144) (ht : r.type % 65536 = 4) (hw : badWrite cl = false)
      (hr : badRange cl r = false) (w' : World) (msgs : List Msg)
      (h : handleTrim e cl w r = .val (w', msgs)) : Handled e cl w r p cl w' msgs
  | zeroes (hf : r.type < 262144) (ht : r.type % 65536 = 6) (hw : badWrite cl = false)
      (hr : badRange cl r = false) (cl' : Client) (w' : World) (msgs : List Msg)
      (h : handleWriteZeroes e cl w r = .val (cl', w', msgs)) : Handled e cl w r p cl' w' msgs

theorem handleRequest_handled (e : Endian) (cl cl' : Client) (w w' : World) (r : Req) (p : Payload)
    (msgs : List Msg) (h : handleRequest e cl w r p = .val (cl', w', msgs)) :
    Handled e cl w r p cl' w' msgs := by
  unfold handleRequest at h
  simp only [] at h
  split at h
  · cases h; exact .refused _ (.inl rfl) (.inl (by omega))
  · have hf : r.type < 262144 := by omega
    split at h
    · rename_i ht
      have ht : r.type % 65536 = 0 := ht
      split at h
      · rename_i hr
        cases h; exact .refused _ (.inl rfl) (.inr (.inr (.inr ⟨by simp [ht], hr⟩)))
      · rename_i hr
        split at h
        · cases h
        · cases h
        · cases h; exact .read hf ht (by simpa using hr) _ _ (by assumption)
    · split at h
      · rename_i ht
        have ht : r.type % 65536 = 1 := ht
        split at h
        · rename_i hw
          cases h; exact .refused _ (.inr (.inl rfl)) (.inr (.inr (.inl ⟨by simp [ht], hw⟩)))
        · rename_i hw
          split at h
          · rename_i hr
            cases h; exact .refused _ (.inr (.inr rfl)) (.inr (.inr (.inr ⟨by simp [ht], hr⟩)))
          · rename_i hr
            exact .write hf ht (by simpa using hw) (by simpa using hr) _ _ _ h
      · split at h
        · rename_i ht
          have ht : r.type % 65536 = 3 := ht
          cases h; exact .flush hf ht
        · split at h
          · rename_i ht
            have ht : r.type % 65536 = 4 := ht
            split at h
            · rename_i hw
              cases h; exact .refused _ (.inr (.inl rfl)) (.inr (.inr (.inl ⟨by simp [ht], hw⟩)))
            · rename_i hw
              split at h
              · rename_i hr
                cases h; exact .refused _ (.inl rfl) (.inr (.inr (.inr ⟨by simp [ht], hr⟩)))
              · rename_i hr
                split at h
                · cases h
                · cases h
                · cases h
                  exact .trim hf ht (by simpa using hw) (by simpa using hr) _ _ (by assumption)
          · split at h
            · rename_i ht
              have ht : r.type % 65536 = 6 := ht
              split at h
              · rename_i hw
                cases h; exact .refused _ (.inr (.inl rfl)) (.inr (.inr (.inl ⟨by simp [ht], hw⟩)))
              · rename_i hw
                split at h
                · rename_i hr
                  cases h; exact .refused _ (.inr (.inr rfl)) (.inr (.inr (.inr ⟨by simp [ht], hr⟩)))
                · rename_i hr
                  exact .zeroes hf ht (by simpa using hw) (by simpa using hr) _ _ _ h
            · cases h
              rename_i h0 h1 h3 h4 h6
              simp only [CMD_READ, CMD_WRITE, CMD_FLUSH, CMD_TRIM, CMD_WRITE_ZEROES] at h0 h1 h3 h4 h6
              exact .refused _ (.inl rfl) (.inr (.inl (by simp; omega)))

theorem handleRead_cases (e : Endian) (cl : Client) (w w' : World) (r : Req) (msgs : List Msg)
    (h : handleRead e cl w r = .val (w', msgs)) :
    (∃ w1, handleNormalRead e cl w1 r = .val (w', msgs) ∧
      ((has cl.ex.flags F_SPLICE = false ∧ w1 = w) ∨ (has cl.ex.flags F_SPLICE = true ∧
        handleSpliceRead e cl w r = .val (w1, none)))) ∨
    (has cl.ex.flags F_SPLICE = true ∧ handleSpliceRead e cl w r = .val (w', some msgs)) := by
  unfold handleRead at h
  split at h
  · rename_i hs
    split at h
    · cases h
    · cases h
    · cases h; right; exact ⟨hs, by assumption⟩
    · rename_i w1 hq
      left; exact ⟨w1, h, .inr ⟨hs, hq⟩⟩
  · rename_i hs
    left; exact ⟨w, h, .inl ⟨by simpa using hs, rfl⟩⟩

theorem handleSpliceRead_cases (e : Endian) (cl : Client) (w w' : World) (r : Req)
    (msgs : List Msg) (h : handleSpliceRead e cl w r = .val (w', some msgs)) :
    cl.tls = false ∧ ∃ w1 pipe, mkpipe w r.len = (w1, true) ∧
      expspliceIn cl.ex w1 r.start r.len [] = .val (w', pipe, true) ∧
      msgs = [⟨simpleHdr e 0 r.cookie, pipe⟩] := by
  unfold handleSpliceRead at h
  split at h
  · cases h
  · rename_i htls
    split at h
    · cases h
    · rename_i w1 hm
      split at h
      · cases h
      · cases h
      · cases h
      · rename_i pipe hq
        cases h
        exact ⟨by simpa using htls, w1, pipe, hm, hq, rfl⟩

theorem handleWrite_cases (e : Endian) (cl cl' : Client) (w w' : World) (r : Req) (p : Payload)
    (msgs : List Msg) (h : handleWrite e cl w r p = .val (cl', w', msgs)) :
    ∃ ok, msgs = [simpleMsg e r (resultOf e w' ok)] ∧
      ((∃ bs, p = .data bs ∧
        expwrite cl w r.start bs (has r.type CMD_FLAG_FUA) = .val (cl', w', ok)) ∨
       (∃ bs, p = .pipe bs ∧ cl' = cl ∧
        expspliceOut cl.ex w r.start r.len bs (has r.type CMD_FLAG_FUA) = .val (w', ok))) := by
  unfold handleWrite at h
  cases p with
  | nothing => cases h
  | data bs =>
    simp only [] at h
    split at h
    · cases h
    · cases h
    · rename_i ok hq
      cases h
      exact ⟨ok, rfl, .inl ⟨bs, rfl, hq⟩⟩
  | pipe bs =>
    simp only [] at h
    split at h
    · cases h
    · cases h
    · rename_i ok hq
      cases h
      exact ⟨ok, rfl, .inr ⟨bs, rfl, rfl, hq⟩⟩

/-- Every request that is handled (whatever the client state, the backing store and the kernel's
answers) produces exactly one answer carrying its cookie. -/
theorem handleRequest_answer (e : Endian) (cl cl' : Client) (w w' : World) (r : Req) (p : Payload)
    (msgs : List Msg) (h : handleRequest e cl w r p = .val (cl', w', msgs)) :
    ∃ rs, Encodes msgs rs ∧ Spec.Answer r.cookie rs := by
  cases handleRequest_handled _ _ _ _ _ _ _ _ h with
  | refused n hn why =>
    rw [nbdErrno_eq]
    exact ⟨_, simpleMsg_encodes e r (some _), Answer.single rfl rfl⟩
  | read hf ht hr _ _ hq =>
    have hdf : has r.type CMD_FLAG_DF = false := has_df_of_flags (by omega)
    rcases handleRead_cases _ _ _ _ _ _ hq with ⟨w1, hn, _⟩ | ⟨_, hs⟩
    · exact handleNormalRead_answer _ _ _ _ _ _ hdf hn
    · obtain ⟨_, w1, pipe, _, _, rfl⟩ := handleSpliceRead_cases _ _ _ _ _ _ hs
      refine ⟨[.simple 0 r.cookie pipe], ?_, Answer.single rfl rfl⟩
      unfold Encodes
      simp [simple_bytes_zero]
  | write hf ht hw hr _ _ _ hq =>
    obtain ⟨ok, rfl, _⟩ := handleWrite_cases _ _ _ _ _ _ _ _ hq
    exact simpleMsg_answer _ _ _ _
  | flush hf ht => exact simpleMsg_answer _ _ _ _
  | trim hf ht hw hr _ _ hq =>
    unfold handleTrim at hq
    split at hq
    · cases hq
    · cases hq
    · cases hq; exact simpleMsg_answer e w' r true
  | zeroes hf ht hw hr _ _ _ hq =>
    unfold handleWriteZeroes at hq
    split at hq
    · cases hq
    · cases hq
    · cases hq; exact simpleMsg_answer _ _ _ _

end Nbd
