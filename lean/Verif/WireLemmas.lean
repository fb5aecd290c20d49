import Verif.Wire
import Verif.Spec
/-! # The structs in memory are the protocol's big-endian layout -/

namespace Nbd

theorem ntohl_ntohl (e : Endian) (v : UInt32) : ntohl e (ntohl e v) = v := by
  have h := store32_htonl e v
  unfold store32 at h
  apply UInt32.toNat_inj.mp
  conv => lhs; rw [ntohl, h, beVal_toBE, UInt32.toNat_ofNat']
  have : v.toNat < 256 ^ 4 := v.toNat_lt
  rw [Nat.mod_eq_of_lt this]
  exact Nat.mod_eq_of_lt v.toNat_lt

theorem ntohl_zero (e : Endian) : ntohl e 0 = 0 := by cases e <;> decide

theorem magicOk_iff (e : Endian) (r : Req) : r.magicOk e = true ↔ ntohl e r.magic = REQUEST_MAGIC := by
  unfold Req.magicOk
  rw [beq_iff_eq]
  constructor
  · intro h; rw [h, ntohl_ntohl]
  · intro h; rw [← h, ntohl_ntohl]

theorem simpleHdr_eq (e : Endian) (v : UInt32) (cookie : List Byte) :
    simpleHdr e (ntohl e v) cookie = toBE 4 0x67446698 ++ toBE 4 v.toNat ++ cookie := by
  unfold simpleHdr
  rw [store32_htonl, store32_htonl]
  rfl

theorem simpleHdr_zero (e : Endian) (cookie : List Byte) :
    simpleHdr e 0 cookie = toBE 4 0x67446698 ++ toBE 4 0 ++ cookie := by
  have := simpleHdr_eq e 0 cookie
  rwa [ntohl_zero] at this

theorem simple_bytes (e : Endian) (v : UInt32) (cookie data : List Byte) :
    (Msg.mk (simpleHdr e (ntohl e v) cookie) data).bytes
      = (Spec.Reply.simple v.toNat cookie data).encode := by
  simp [Msg.bytes, simpleHdr_eq, Spec.Reply.encode]

theorem simple_bytes_zero (e : Endian) (cookie data : List Byte) :
    (Msg.mk (simpleHdr e 0 cookie) data).bytes = (Spec.Reply.simple 0 cookie data).encode := by
  simp [Msg.bytes, simpleHdr_zero, Spec.Reply.encode]

theorem chunk_bytes (e : Endian) (cookie : List Byte) (flags type : UInt16) (length : UInt32)
    (body : List Byte) (h : length.toNat = body.length) :
    (chunkMsg e cookie flags type length body).bytes
      = (Spec.Reply.chunk flags.toNat type.toNat cookie body).encode := by
  simp only [Msg.bytes, chunkMsg, Spec.Reply.encode, store32_htonl, store16_htons, h]
  rfl

/-- The value `nbd_errno` puts into the reply, as a number on the wire. -/
def errnoWire (errcode : Nat) : UInt32 :=
  match errcode with
  | 1 => 1 | 5 => 5 | 12 => 12 | 22 => 22 | 27 => 28 | 28 => 28 | 122 => 28 | _ => 22

theorem nbdErrno_eq (e : Endian) (c : Nat) : nbdErrno e c = ntohl e (errnoWire c) := rfl

theorem errnoWire_mem (c : Nat) : errnoWire c ∈ [1, 5, 12, 22, 28] := by
  unfold errnoWire
  split <;> simp

theorem beVal_toBE_of_lt {n v : Nat} (h : v < 256 ^ n) : beVal (toBE n v) = v := by
  rw [beVal_toBE, Nat.mod_eq_of_lt h]

namespace Spec

/-- The encoder and the independent parser agree. -/
theorem Reply.parse_encode_simple (err : Nat) (cookie data rest : List Byte) (n : Nat)
    (he : err < 2 ^ 32) (hc : cookie.length = 8) (hn : (if err = 0 then n else 0) = data.length) :
    Reply.parse n ((Reply.simple err cookie data).encode ++ rest)
      = some (.simple err cookie data, rest) := by
  have e1 : ((Reply.simple err cookie data).encode ++ rest)
      = toBE 4 0x67446698 ++ (toBE 4 err ++ (cookie ++ (data ++ rest))) := by
    simp [Reply.encode]
  rw [e1]
  unfold Reply.parse
  have l1 : ¬ (toBE 4 0x67446698 ++ (toBE 4 err ++ (cookie ++ (data ++ rest)))).length < 16 := by
    simp [hc]; omega
  have t1 : List.take 4 (toBE 4 0x67446698 ++ (toBE 4 err ++ (cookie ++ (data ++ rest))))
      = toBE 4 0x67446698 := List.take_left' (by simp)
  have d1 : List.drop 4 (toBE 4 0x67446698 ++ (toBE 4 err ++ (cookie ++ (data ++ rest))))
      = toBE 4 err ++ (cookie ++ (data ++ rest)) := List.drop_left' (by simp)
  have d2 : List.drop 8 (toBE 4 0x67446698 ++ (toBE 4 err ++ (cookie ++ (data ++ rest))))
      = cookie ++ (data ++ rest) := by
    rw [show (8:Nat) = 4 + 4 from rfl, ← List.drop_drop, d1]
    exact List.drop_left' (by simp)
  have d3 : List.drop 16 (toBE 4 0x67446698 ++ (toBE 4 err ++ (cookie ++ (data ++ rest))))
      = data ++ rest := by
    rw [show (16:Nat) = 8 + 8 from rfl, ← List.drop_drop, d2]
    exact List.drop_left' hc
  have t2 : List.take 4 (toBE 4 err ++ (cookie ++ (data ++ rest))) = toBE 4 err :=
    List.take_left' (by simp)
  have t3 : List.take 8 (cookie ++ (data ++ rest)) = cookie := List.take_left' hc
  rw [if_neg l1, t1, d1, d2, d3, t2, t3, beVal_toBE_of_lt (by decide), if_pos rfl,
    beVal_toBE_of_lt he]
  simp only [hn]
  rw [if_neg (by simp), List.take_left' rfl, List.drop_left' rfl]

theorem Reply.parse_encode_chunk (flags type : Nat) (cookie payload rest : List Byte) (n : Nat)
    (hf : flags < 2 ^ 16) (ht : type < 2 ^ 16) (hc : cookie.length = 8)
    (hp : payload.length < 2 ^ 32) :
    Reply.parse n ((Reply.chunk flags type cookie payload).encode ++ rest)
      = some (.chunk flags type cookie payload, rest) := by
  generalize hx : payload ++ rest = pr
  have e1 : ((Reply.chunk flags type cookie payload).encode ++ rest)
      = toBE 4 0x668e33ef ++ (toBE 2 flags ++ (toBE 2 type ++ (cookie ++
        (toBE 4 payload.length ++ pr)))) := by
    simp [Reply.encode, hx]
  rw [e1]
  generalize hbs : toBE 4 0x668e33ef ++ (toBE 2 flags ++ (toBE 2 type ++ (cookie ++
        (toBE 4 payload.length ++ pr)))) = bs
  have hlen : bs.length = 20 + pr.length := by rw [← hbs]; simp [hc]; omega
  have t1 : bs.take 4 = toBE 4 0x668e33ef := by rw [← hbs]; exact List.take_left' (by simp)
  have d1 : bs.drop 4 = toBE 2 flags ++ (toBE 2 type ++ (cookie ++
        (toBE 4 payload.length ++ pr))) := by rw [← hbs]; exact List.drop_left' (by simp)
  have d2 : bs.drop 6 = toBE 2 type ++ (cookie ++ (toBE 4 payload.length ++ pr)) := by
    rw [show (6:Nat) = 4 + 2 from rfl, ← List.drop_drop, d1]; exact List.drop_left' (by simp)
  have d3 : bs.drop 8 = cookie ++ (toBE 4 payload.length ++ pr) := by
    rw [show (8:Nat) = 6 + 2 from rfl, ← List.drop_drop, d2]; exact List.drop_left' (by simp)
  have d4 : bs.drop 16 = toBE 4 payload.length ++ pr := by
    rw [show (16:Nat) = 8 + 8 from rfl, ← List.drop_drop, d3]; exact List.drop_left' hc
  have d5 : bs.drop 20 = pr := by
    rw [show (20:Nat) = 16 + 4 from rfl, ← List.drop_drop, d4]; exact List.drop_left' (by simp)
  unfold Reply.parse
  rw [if_neg (by omega), t1, d1, d2, d3, d4, d5, beVal_toBE_of_lt (by decide),
    if_neg (by decide), if_pos rfl, if_neg (by omega),
    List.take_left' (by simp), List.take_left' (by simp), List.take_left' (by simp),
    List.take_left' hc, beVal_toBE_of_lt (n := 2) hf, beVal_toBE_of_lt (n := 2) ht,
    beVal_toBE_of_lt (n := 4) hp]
  subst hx
  simp

end Spec

end Nbd
