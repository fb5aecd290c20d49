import Verif.WireLemmas
/-!
# C01, C02, C22: what is on the wire

The specification side is `Verif.Spec` (big-endian layouts). The code side is `loadReq`
(reading the packed struct and the in-place conversions) and `simpleHdr`.
-/

namespace Nbd.Props

open Spec

/-- **C01** (meaning). Whatever 28 bytes arrive and whatever the byte order of the server's
machine, the request the server acts on has exactly the fields the big-endian layout assigns to
those bytes, and the magic test accepts exactly the protocol's magic number. -/
theorem C01_request_header_meaning (e : Endian) (bs : List Byte) (h : bs.length = 28) :
    (loadReq e bs).type = (Request.decode bs).type ∧
    (loadReq e bs).cookie = (Request.decode bs).cookie ∧
    (loadReq e bs).start = (Request.decode bs).start ∧
    (loadReq e bs).len = (Request.decode bs).len ∧
    ((loadReq e bs).magicOk e = true ↔ (Request.decode bs).magic = 0x25609513) := by
  refine ⟨?_, rfl, ?_, ?_, ?_⟩
  · exact ntohl_load32 e _ (by simp [h])
  · exact ntohll_load64 e _ (by simp [h])
  · exact ntohl_load32 e _ (by simp [h])
  · rw [magicOk_iff]
    have := ntohl_load32 e (bs.take 4) (by simp [h])
    simp only [loadReq, Request.decode, ← this]
    constructor
    · intro h; rw [h]; rfl
    · intro h; apply UInt32.toNat_inj.mp; rw [h]; rfl

/-- **C01** (round trip). Every header written in the protocol's layout is read back to the
same field values, on any machine. -/
theorem C01_request_header_roundtrip (e : Endian) (r : Request) (hr : r.Fits) :
    r.encode.length = 28 ∧
    (loadReq e r.encode).type = r.type ∧ (loadReq e r.encode).cookie = r.cookie ∧
    (loadReq e r.encode).start = r.start ∧ (loadReq e r.encode).len = r.len ∧
    ((loadReq e r.encode).magicOk e = true ↔ r.magic = 0x25609513) := by
  have hl : r.encode.length = 28 := by simp [Request.encode, hr.cookie]
  have hd : Request.decode r.encode = r := by
    obtain ⟨hm, ht, hc, hs, hn⟩ := hr
    cases r with
    | mk magic type cookie start len =>
      simp only at hm ht hc hs hn
      have e1 : (Request.mk magic type cookie start len).encode
          = toBE 4 magic ++ (toBE 4 type ++ (cookie ++ (toBE 8 start ++ toBE 4 len))) := by
        simp [Request.encode]
      generalize hbs : (Request.mk magic type cookie start len).encode = bs at e1
      have d1 : bs.drop 4 = toBE 4 type ++ (cookie ++ (toBE 8 start ++ toBE 4 len)) := by
        rw [e1]; exact List.drop_left' (by simp)
      have d2 : bs.drop 8 = cookie ++ (toBE 8 start ++ toBE 4 len) := by
        rw [show (8:Nat) = 4 + 4 from rfl, ← List.drop_drop, d1]; exact List.drop_left' (by simp)
      have d3 : bs.drop 16 = toBE 8 start ++ toBE 4 len := by
        rw [show (16:Nat) = 8 + 8 from rfl, ← List.drop_drop, d2]; exact List.drop_left' hc
      have d4 : bs.drop 24 = toBE 4 len := by
        rw [show (24:Nat) = 16 + 8 from rfl, ← List.drop_drop, d3]; exact List.drop_left' (by simp)
      have t1 : bs.take 4 = toBE 4 magic := by rw [e1]; exact List.take_left' (by simp)
      unfold Request.decode
      rw [d1, d2, d3, d4, t1, List.take_left' (by simp), List.take_left' hc,
        List.take_left' (by simp), List.take_of_length_le (by simp),
        beVal_toBE_of_lt hm, beVal_toBE_of_lt ht, beVal_toBE_of_lt hs, beVal_toBE_of_lt hn]
  have := C01_request_header_meaning e r.encode hl
  rw [hd] at this
  exact ⟨hl, this⟩

/-- A concrete header: write, FUA flag, offset above 4 GiB. -/
example : Request.Fits ⟨0x25609513, 65537, [1, 2, 3, 4, 5, 6, 7, 8], 0x123456789a, 4096⟩ :=
  ⟨by decide, by decide, rfl, by decide, by decide⟩

example : (loadReq .little (Request.encode
    ⟨0x25609513, 65537, [1, 2, 3, 4, 5, 6, 7, 8], 0x123456789a, 4096⟩)).start = 0x123456789a := by
  decide +kernel

/-- **C02** (layout). A simple reply is exactly the 16 bytes of the protocol followed by its
data, for every machine byte order; `v` is the error number. -/
theorem C02_simple_reply_layout (e : Endian) (v : UInt32) (cookie data : List Byte)
    (hc : cookie.length = 8) :
    (simpleHdr e (ntohl e v) cookie).length = 16 ∧
    (Msg.mk (simpleHdr e (ntohl e v) cookie) data).bytes
      = toBE 4 0x67446698 ++ toBE 4 v.toNat ++ cookie ++ data := by
  rw [simple_bytes]
  exact ⟨by simp [simpleHdr, hc], rfl⟩

/-- **C02** (round trip). A client parsing the reply recovers error, cookie and data. -/
theorem C02_simple_reply_roundtrip (e : Endian) (v : UInt32) (cookie data rest : List Byte)
    (n : Nat) (hc : cookie.length = 8) (hn : (if v = 0 then n else 0) = data.length) :
    Reply.parse n ((Msg.mk (simpleHdr e (ntohl e v) cookie) data).bytes ++ rest)
      = some (.simple v.toNat cookie data, rest) := by
  rw [simple_bytes]
  apply Reply.parse_encode_simple _ _ _ _ _ v.toNat_lt hc
  rw [← hn]
  by_cases h : v = 0
  · subst h; rfl
  · rw [if_neg h, if_neg]
    intro h0
    exact h (UInt32.toNat_inj.mp h0)

example : Reply.parse 3 ((Msg.mk (simpleHdr .little (ntohl .little 0) [9, 8, 7, 6, 5, 4, 3, 2])
    [10, 11, 12]).bytes ++ [99]) = some (.simple 0 [9, 8, 7, 6, 5, 4, 3, 2] [10, 11, 12], [99]) := by
  decide +kernel

/-- **C22** (mapping). For every errno value of the host, the error field of the reply is, on
the wire, one of the protocol's error numbers, never 0; and the five the protocol shares with
the host are preserved, the "no space" family becoming ENOSPC. -/
theorem C22_errno_mapping (e : Endian) (errcode : Nat) :
    ∃ v : Nat, store32 e (nbdErrno e errcode) = toBE 4 v ∧ v ∈ [1, 5, 12, 22, 28] ∧
      (errcode ∈ [1, 5, 12, 22, 28] → v = errcode) ∧
      (errcode ∈ [27, 122] → v = 28) ∧
      (errcode ∉ [1, 5, 12, 22, 28, 27, 122] → v = 22) := by
  refine ⟨(errnoWire errcode).toNat, ?_, ?_, ?_, ?_, ?_⟩
  · rw [nbdErrno_eq, store32_htonl]
  · have := errnoWire_mem errcode
    simp only [List.mem_cons, List.not_mem_nil, or_false] at this
    rcases this with h | h | h | h | h <;> rw [h] <;> decide
  · intro h
    simp only [List.mem_cons, List.not_mem_nil, or_false] at h
    rcases h with rfl | rfl | rfl | rfl | rfl <;> rfl
  · intro h
    simp only [List.mem_cons, List.not_mem_nil, or_false] at h
    rcases h with rfl | rfl <;> rfl
  · intro h
    simp only [List.mem_cons, List.not_mem_nil, or_false, not_or] at h
    obtain ⟨h1, h2, h3, h4, h5, h6, h7⟩ := h
    unfold errnoWire
    split <;> first | omega | rfl

example : store32 .little (nbdErrno .little 122) = toBE 4 28 := by decide +kernel

end Nbd.Props
