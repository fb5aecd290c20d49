/-!
# Bytes, byte order and C integers in memory

`beVal` is the specification: the value the NBD protocol assigns to a string of
bytes ("network byte order", doc/proto.md).  `load`/`store` describe how a C
compiler lays out an integer in memory on a little- or big-endian machine, and
`ntohl`/`ntohll` are the conversions the code applies to such integers.
-/

namespace Nbd

/-- An `unsigned char` (nbd.h 90-122: all wire structs are packed bytes). -/
abbrev Byte := UInt8

/-- Specification: the number a string of bytes denotes in network byte order
(doc/proto.md: "the NBD protocol uses network byte order"). -/
def beVal : List Byte → Nat
  | [] => 0
  | b :: bs => b.toNat * 256 ^ bs.length + beVal bs

/-- Specification: the `n`-byte network-order representation of `v`. -/
def toBE : Nat → Nat → List Byte
  | 0, _ => []
  | n + 1, v => UInt8.ofNat (v / 256 ^ n) :: toBE n v

/-- Byte order of the machine the program runs on (`WORDS_BIGENDIAN`,
cliserv.c 95-98). -/
inductive Endian where
  | little
  | big
deriving DecidableEq, Repr

/-- Value of a C unsigned integer whose object representation is `bs`. As the code reads fields of nbd.h 90-122. -/
def load : Endian → List Byte → Nat
  | .big, bs => beVal bs
  | .little, bs => beVal bs.reverse

/-- Object representation of an `n`-byte C unsigned integer of value `v`. As the code fills fields of nbd.h 90-122. -/
def store : Endian → Nat → Nat → List Byte
  | .big, n, v => toBE n v
  | .little, n, v => (toBE n v).reverse

/-! ### Basic facts -/

@[simp] theorem toBE_length (n v : Nat) : (toBE n v).length = n := by
  induction n generalizing v with
  | zero => rfl
  | succ n ih => simp [toBE, ih]

@[simp] theorem store_length (e : Endian) (n v : Nat) : (store e n v).length = n := by
  cases e <;> simp [store]

theorem beVal_lt (bs : List Byte) : beVal bs < 256 ^ bs.length := by
  induction bs with
  | nil => simp [beVal]
  | cons b bs ih =>
    have hb : b.toNat < 256 := b.toNat_lt
    simp only [beVal, List.length_cons, Nat.pow_succ]
    calc b.toNat * 256 ^ bs.length + beVal bs
        < b.toNat * 256 ^ bs.length + 256 ^ bs.length := by omega
      _ = (b.toNat + 1) * 256 ^ bs.length := by rw [Nat.add_mul, Nat.one_mul]
      _ ≤ 256 * 256 ^ bs.length := Nat.mul_le_mul_right _ (by omega)
      _ = 256 ^ bs.length * 256 := Nat.mul_comm _ _

theorem beVal_append (as bs : List Byte) :
    beVal (as ++ bs) = beVal as * 256 ^ bs.length + beVal bs := by
  induction as with
  | nil => simp [beVal]
  | cons a as ih =>
    simp only [List.cons_append, beVal, List.length_append, ih, Nat.pow_add, Nat.add_mul,
      Nat.mul_assoc]
    omega

theorem beVal_toBE (n v : Nat) : beVal (toBE n v) = v % 256 ^ n := by
  induction n with
  | zero => simp [toBE, beVal, Nat.mod_one]
  | succ n ih =>
    have h8 : (2 : Nat) ^ 8 = 256 := rfl
    simp only [toBE, beVal, toBE_length, ih, UInt8.toNat_ofNat', h8]
    rw [Nat.pow_succ, Nat.mod_mul, Nat.mul_comm, Nat.add_comm]

theorem toBE_mod (n v k : Nat) (h : n ≤ k) : toBE n (v % 256 ^ k) = toBE n v := by
  induction n with
  | zero => rfl
  | succ n ih =>
    simp only [toBE]
    rw [ih (by omega)]
    congr 1
    apply UInt8.toNat_inj.mp
    simp only [UInt8.toNat_ofNat']
    obtain ⟨d, rfl⟩ : ∃ d, k = n + 1 + d := ⟨k - (n + 1), by omega⟩
    rw [Nat.add_assoc, Nat.pow_add, Nat.mod_mul_right_div_self, Nat.pow_add, Nat.pow_one,
      Nat.mod_mod_of_dvd _ (Nat.dvd_mul_right _ _)]

theorem toBE_beVal (bs : List Byte) : toBE bs.length (beVal bs) = bs := by
  induction bs with
  | nil => rfl
  | cons b bs ih =>
    have hlt := beVal_lt bs
    have hpos : 0 < 256 ^ bs.length := Nat.pow_pos (by omega)
    simp only [List.length_cons, toBE, beVal]
    congr 1
    · apply UInt8.toNat_inj.mp
      rw [UInt8.toNat_ofNat', Nat.mul_comm, Nat.mul_add_div hpos, Nat.div_eq_of_lt hlt]
      have hb : b.toNat < 256 := b.toNat_lt
      simp only [Nat.add_zero]
      exact Nat.mod_eq_of_lt hb
    · rw [← toBE_mod _ _ _ (Nat.le_refl _), Nat.mul_comm, Nat.mul_add_mod,
        Nat.mod_eq_of_lt hlt, ih]

theorem load_store (e : Endian) (n v : Nat) : load e (store e n v) = v % 256 ^ n := by
  cases e <;> simp [load, store, beVal_toBE]

theorem store_load (e : Endian) (bs : List Byte) : store e bs.length (load e bs) = bs := by
  cases e
  · have := toBE_beVal bs.reverse
    rw [List.length_reverse] at this
    simp [load, store, this]
  · exact toBE_beVal bs

theorem load_lt (e : Endian) (bs : List Byte) : load e bs < 256 ^ bs.length := by
  cases e
  · simpa [load] using beVal_lt bs.reverse
  · exact beVal_lt bs

/-! ### The conversions -/

/-- libc `ntohl`/`htonl`: reinterpret the four bytes of the object as a network-order
number.  (libc, not repo code; modelled by its contract.) -/
def ntohl (e : Endian) (x : UInt32) : UInt32 :=
  UInt32.ofNat (beVal (store e 4 x.toNat))

/-- libc `ntohs`/`htons`. Used at nbd-server.c 1309-1310, 2579, 2599 and nbd-client.c 537. -/
def ntohs (e : Endian) (x : UInt16) : UInt16 :=
  UInt16.ofNat (beVal (store e 2 x.toNat))

/-- cliserv.c 94-109 `ntohll` (also used as `htonll`, cliserv.h): big-endian hosts return
the argument, little-endian hosts convert the two 32-bit halves and swap them. -/
def ntohll (e : Endian) (a : UInt64) : UInt64 :=
  match e with
  | .big => a
  | .little =>
    let lo : UInt32 := (a &&& 0xffffffff).toUInt32
    let hi : UInt32 := (a >>> 32).toUInt32
    let lo := ntohl .little lo
    let hi := ntohl .little hi
    (lo.toUInt64 <<< 32) ||| hi.toUInt64

/-- Load of a 16/32/64-bit field from memory. -/
def load16 (e : Endian) (bs : List Byte) : UInt16 := UInt16.ofNat (load e bs)
/-- A `uint32_t` in memory (nbd.h 91-95). -/
def load32 (e : Endian) (bs : List Byte) : UInt32 := UInt32.ofNat (load e bs)
/-- A `uint64_t` in memory (nbd.h 94). -/
def load64 (e : Endian) (bs : List Byte) : UInt64 := UInt64.ofNat (load e bs)

/-- Store of a 16/32/64-bit field to memory. -/
def store16 (e : Endian) (v : UInt16) : List Byte := store e 2 v.toNat
/-- A `uint32_t` in memory (nbd.h 91-95). -/
def store32 (e : Endian) (v : UInt32) : List Byte := store e 4 v.toNat
/-- A `uint64_t` in memory (nbd.h 94). -/
def store64 (e : Endian) (v : UInt64) : List Byte := store e 8 v.toNat

@[simp] theorem store16_length (e v) : (store16 e v).length = 2 := store_length ..
@[simp] theorem store32_length (e v) : (store32 e v).length = 4 := store_length ..
@[simp] theorem store64_length (e v) : (store64 e v).length = 8 := store_length ..

theorem ntohl_load32 (e : Endian) (bs : List Byte) (h : bs.length = 4) :
    (ntohl e (load32 e bs)).toNat = beVal bs := by
  have hlt := load_lt e bs
  have hv := beVal_lt bs
  rw [h] at hlt hv
  have h1 : (load32 e bs).toNat = load e bs := by
    simp only [load32, UInt32.toNat_ofNat']
    exact Nat.mod_eq_of_lt hlt
  rw [ntohl, h1, ← h, store_load, UInt32.toNat_ofNat']
  exact Nat.mod_eq_of_lt hv

theorem ntohs_load16 (e : Endian) (bs : List Byte) (h : bs.length = 2) :
    (ntohs e (load16 e bs)).toNat = beVal bs := by
  have hlt := load_lt e bs
  have hv := beVal_lt bs
  rw [h] at hlt hv
  have h1 : (load16 e bs).toNat = load e bs := by
    simp only [load16, UInt16.toNat_ofNat']
    exact Nat.mod_eq_of_lt hlt
  rw [ntohs, h1, ← h, store_load, UInt16.toNat_ofNat']
  exact Nat.mod_eq_of_lt hv

theorem store32_htonl (e : Endian) (v : UInt32) :
    store32 e (ntohl e v) = toBE 4 v.toNat := by
  have hv : v.toNat < 256 ^ 4 := v.toNat_lt
  cases e with
  | big =>
    simp only [store32, ntohl, store, beVal_toBE, UInt32.toNat_ofNat']
    rw [Nat.mod_eq_of_lt hv, Nat.mod_eq_of_lt v.toNat_lt]
  | little =>
    have hb := beVal_lt (toBE 4 v.toNat).reverse
    rw [List.length_reverse, toBE_length] at hb
    simp only [store32, ntohl, store, UInt32.toNat_ofNat']
    rw [Nat.mod_eq_of_lt hb]
    have := toBE_beVal (toBE 4 v.toNat).reverse
    rw [List.length_reverse, toBE_length] at this
    rw [this, List.reverse_reverse]

theorem store16_htons (e : Endian) (v : UInt16) :
    store16 e (ntohs e v) = toBE 2 v.toNat := by
  have hv : v.toNat < 256 ^ 2 := v.toNat_lt
  cases e with
  | big =>
    simp only [store16, ntohs, store, beVal_toBE, UInt16.toNat_ofNat']
    rw [Nat.mod_eq_of_lt hv, Nat.mod_eq_of_lt v.toNat_lt]
  | little =>
    have hb := beVal_lt (toBE 2 v.toNat).reverse
    rw [List.length_reverse, toBE_length] at hb
    simp only [store16, ntohs, store, UInt16.toNat_ofNat']
    rw [Nat.mod_eq_of_lt hb]
    have := toBE_beVal (toBE 2 v.toNat).reverse
    rw [List.length_reverse, toBE_length] at this
    rw [this, List.reverse_reverse]

private theorem or_eq_add (x y : Nat) (h : y < 2 ^ 32) : x * 2 ^ 32 ||| y = x * 2 ^ 32 + y := by
  rw [← Nat.shiftLeft_eq, Nat.shiftLeft_add_eq_or_of_lt h]

/-- The halves-swapping `ntohll` computes the network-order value of the 8 bytes. -/
theorem ntohll_load64 (e : Endian) (bs : List Byte) (h : bs.length = 8) :
    (ntohll e (load64 e bs)).toNat = beVal bs := by
  have hv := beVal_lt bs
  rw [h] at hv
  cases e with
  | big =>
    simp only [ntohll, load64, load, UInt64.toNat_ofNat']
    exact Nat.mod_eq_of_lt hv
  | little =>
    obtain ⟨as, cs, rfl, ha, hc⟩ : ∃ as cs, bs = as ++ cs ∧ as.length = 4 ∧ cs.length = 4 :=
      ⟨bs.take 4, bs.drop 4, by simp, by simp [h], by simp [h]⟩
    have hlt := load_lt .little (as ++ cs)
    rw [h] at hlt
    have hA := load_lt .little as
    have hC := load_lt .little cs
    rw [ha] at hA
    rw [hc] at hC
    have hl : load .little (as ++ cs) = load .little cs * 2 ^ 32 + load .little as := by
      simp only [load, List.reverse_append, beVal_append, List.length_reverse, ha]
    have hA' : load .little as < 2 ^ 32 := hA
    have hC' : load .little cs < 2 ^ 32 := hC
    have h64 : (load64 .little (as ++ cs)).toNat = load .little cs * 2 ^ 32 + load .little as := by
      rw [load64, UInt64.toNat_ofNat', ← hl]
      exact Nat.mod_eq_of_lt hlt
    have hlo : ((load64 .little (as ++ cs)) &&& 0xffffffff).toUInt32 = load32 .little as := by
      apply UInt32.toNat_inj.mp
      have : (0xffffffff : UInt64).toNat = 2 ^ 32 - 1 := rfl
      simp only [UInt64.toNat_toUInt32, UInt64.toNat_and, this, Nat.and_two_pow_sub_one_eq_mod,
        h64, load32, UInt32.toNat_ofNat']
      omega
    have hhi : ((load64 .little (as ++ cs)) >>> 32).toUInt32 = load32 .little cs := by
      apply UInt32.toNat_inj.mp
      have : (32 : UInt64).toNat = 32 := rfl
      simp only [UInt64.toNat_toUInt32, UInt64.toNat_shiftRight, this, h64, load32,
        UInt32.toNat_ofNat', Nat.shiftRight_eq_div_pow]
      have h32 : 32 % 64 = 32 := rfl
      rw [h32]
      omega
    have e1 := ntohl_load32 .little as ha
    have e2 := ntohl_load32 .little cs hc
    have b1 := beVal_lt as
    have b2 := beVal_lt cs
    rw [ha] at b1
    rw [hc] at b2
    simp only [ntohll, hlo, hhi]
    simp only [UInt64.toNat_or, UInt64.toNat_shiftLeft, UInt32.toNat_toUInt64, e1, e2]
    have : (32 : UInt64).toNat % 64 = 32 := rfl
    rw [this, Nat.shiftLeft_eq, Nat.mod_eq_of_lt (by omega), or_eq_add _ _ (by omega),
      beVal_append, hc]

theorem store64_htonll (e : Endian) (v : UInt64) :
    store64 e (ntohll e v) = toBE 8 v.toNat := by
  -- apply the load lemma to the bytes of `v`, then take representations
  have key := ntohll_load64 e (store e 8 v.toNat) (by simp)
  have hv : v.toNat < 256 ^ 8 := v.toNat_lt
  have hl : load64 e (store e 8 v.toNat) = v := by
    apply UInt64.toNat_inj.mp
    rw [load64, load_store, UInt64.toNat_ofNat', Nat.mod_eq_of_lt hv, Nat.mod_eq_of_lt v.toNat_lt]
  rw [hl] at key
  rw [store64, key]
  cases e with
  | big =>
    simp only [store]
    have := toBE_beVal (toBE 8 v.toNat)
    rwa [toBE_length] at this
  | little =>
    simp only [store]
    have := toBE_beVal (toBE 8 v.toNat).reverse
    rw [List.length_reverse, toBE_length] at this
    rw [this, List.reverse_reverse]

end Nbd
