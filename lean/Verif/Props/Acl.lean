import Verif.Acl
/-!
# Properties of access control

C32 (what a network entry means), C33 (reads stay within the addresses), C34 (who is authorised), C59 (a configured list is
enforced).
-/

set_option autoImplicit false

namespace Nbd.Spec

/-- The bits of an address, most significant first. -/
def bits (bs : List Byte) : List Bool := bs.flatMap fun b => (List.range 8).map fun i => b.toNat.testBit (7 - i)

/-- Two addresses agree on their first `n` bits. -/
def Agree (n : Nat) (a b : List Byte) : Prop := (bits a).take n = (bits b).take n

instance (n : Nat) (a b : List Byte) : Decidable (Agree n a b) := by unfold Agree; infer_instance

/-- The IPv6 form of an IPv4 address: 80 bits 0, 16 bits 1, the address (RFC 4291, 2.5.5.2). -/
def asV6 (a : List Byte) : List Byte := List.replicate 10 0 ++ [0xff, 0xff] ++ a

/-- The address is in the network given by an address and a prefix length. -/
def InNetwork : Sock → Sock → Nat → Prop
  | .inet a, .inet b, n => Agree n a b
  | .inet6 a, .inet6 b, n => Agree n a b
  | .inet a, .inet6 b, n => Agree n (asV6 a) b
  | .inet6 a, .inet b, n => Agree (96 + n) a (asV6 b)
  | _, _, _ => False

/-- An internet address has 4 or 16 bytes. -/
def SockOk : Sock → Prop
  | .inet a => a.length = 4
  | .inet6 a => a.length = 16
  | .other => False

/-- A decimal number. -/
structure Decimal (ds : List Byte) (n : Nat) : Prop where
  some : ds ≠ []
  digits : ∀ d ∈ ds, 48 ≤ d ∧ d ≤ 57
  value : ds.foldl (fun v d => v * 10 + (d.toNat - 48)) 0 = n

/-- A white-space character, and one that ends an entry. -/
def Blank (b : Byte) : Prop := b = 32 ∨ b = 9 ∨ b = 10 ∨ b = 11 ∨ b = 12 ∨ b = 13
def Ends (b : Byte) : Prop := Blank b ∨ b = 35 ∨ b = 0

/-- The line has the entry `t`: its first word, before any comment. -/
def HasEntry (line t : List Byte) : Prop :=
  ∃ sp rest, line = sp ++ t ++ rest ∧ (∀ b ∈ sp, Blank b) ∧ t ≠ [] ∧ (∀ b ∈ t, ¬ Ends b) ∧
    (∀ b r, rest = b :: r → Ends b)

end Nbd.Spec

namespace Nbd.Props

open Nbd Nbd.Spec

/-! ### C32 -/

theorem maskbyte_testBit (n : Nat) (h : n < 8) (i : Nat) :
    (getmaskbyte n).toNat.testBit i = (decide (8 - n ≤ i) && decide (i < 8)) := by
  by_cases hi : i < 8
  · rcases (by omega : n = 0 ∨ n = 1 ∨ n = 2 ∨ n = 3 ∨ n = 4 ∨ n = 5 ∨ n = 6 ∨ n = 7) with
      rfl | rfl | rfl | rfl | rfl | rfl | rfl | rfl <;>
    rcases (by omega : i = 0 ∨ i = 1 ∨ i = 2 ∨ i = 3 ∨ i = 4 ∨ i = 5 ∨ i = 6 ∨ i = 7) with
      rfl | rfl | rfl | rfl | rfl | rfl | rfl | rfl <;> rfl
  · rw [decide_eq_false hi, Bool.and_false]
    apply Nat.testBit_lt_two_pow
    have := (getmaskbyte n).toNat_lt
    have : 2 ^ 8 ≤ 2 ^ i := Nat.pow_le_pow_right (by decide) (by omega)
    omega

/-- The first bits of one byte. -/
def byteBits (b : Byte) : List Bool := (List.range 8).map fun i => b.toNat.testBit (7 - i)

theorem byteBits_inj {a b : Byte} (h : byteBits a = byteBits b) : a = b := by
  apply UInt8.toNat_inj.mp
  apply Nat.eq_of_testBit_eq
  intro i
  by_cases hi : i < 8
  · have : (byteBits a)[7 - i]? = (byteBits b)[7 - i]? := by rw [h]
    unfold byteBits at this
    rw [List.getElem?_map, List.getElem?_map, List.getElem?_range (by omega)] at this
    simp only [Option.map_some, Option.some.injEq] at this
    rw [show 7 - (7 - i) = i by omega] at this
    exact this
  · have hp : 2 ^ 8 ≤ 2 ^ i := Nat.pow_le_pow_right (by decide) (by omega)
    have ha := a.toNat_lt
    have hb := b.toNat_lt
    rw [Nat.testBit_lt_two_pow (by omega), Nat.testBit_lt_two_pow (by omega)]

theorem mask_agree (a b : Byte) (n : Nat) (h : n < 8) :
    (a &&& getmaskbyte n = b &&& getmaskbyte n) ↔ (byteBits a).take n = (byteBits b).take n := by
  have hR : (byteBits a).take n = (byteBits b).take n ↔ ∀ i, i < n → a.toNat.testBit (7 - i) = b.toNat.testBit (7 - i) := by
    constructor
    · intro he i hi
      have : ((byteBits a).take n)[i]? = ((byteBits b).take n)[i]? := by rw [he]
      unfold byteBits at this
      rw [List.getElem?_take_of_lt hi, List.getElem?_take_of_lt hi, List.getElem?_map, List.getElem?_map,
        List.getElem?_range (by omega)] at this
      simpa using this
    · intro he
      apply List.ext_getElem?
      intro i
      by_cases hi : i < n
      · unfold byteBits
        rw [List.getElem?_take_of_lt hi, List.getElem?_take_of_lt hi, List.getElem?_map, List.getElem?_map,
          List.getElem?_range (by omega)]
        simp [he i hi]
      · rw [List.getElem?_take_eq_none (by omega), List.getElem?_take_eq_none (by omega)]
  rw [hR, ← UInt8.toNat_inj, UInt8.toNat_and, UInt8.toNat_and]
  constructor
  · intro he i hi
    have : (a.toNat &&& (getmaskbyte n).toNat).testBit (7 - i) = (b.toNat &&& (getmaskbyte n).toNat).testBit (7 - i) := by
      rw [he]
    rw [Nat.testBit_and, Nat.testBit_and, maskbyte_testBit n h, decide_eq_true (by omega), decide_eq_true (by omega)] at this
    simpa using this
  · intro he
    apply Nat.eq_of_testBit_eq
    intro i
    rw [Nat.testBit_and, Nat.testBit_and, maskbyte_testBit n h]
    by_cases hi : 8 - n ≤ i ∧ i < 8
    · have := he (7 - i) (by omega)
      rw [show 7 - (7 - i) = i by omega] at this
      rw [this]
    · rcases Decidable.not_and_iff_or_not.mp hi with h' | h' <;> rw [decide_eq_false h'] <;> simp

theorem bits_cons (a : Byte) (s : List Byte) : bits (a :: s) = byteBits a ++ bits s := by
  unfold bits byteBits; rw [List.flatMap_cons]

theorem byteBits_length (a : Byte) : (byteBits a).length = 8 := by unfold byteBits; simp

theorem bits_length (s : List Byte) : (bits s).length = 8 * s.length := by
  induction s with
  | nil => rfl
  | cons a s ih => rw [bits_cons, List.length_append, ih, byteBits_length, List.length_cons]; omega

/-- Comparing bits within both arrays. -/
theorem cmpBits_agree (s t : List Byte) (n : Nat) (hs : n ≤ 8 * s.length) (ht : n ≤ 8 * t.length) :
    cmpBits s t n = .val (decide (Agree n s t)) := by
  induction s generalizing t n with
  | nil =>
    have : n = 0 := by simpa using hs
    subst this
    unfold cmpBits
    simp [Agree]
  | cons a s ih =>
    cases t with
    | nil =>
      have : n = 0 := by simpa using ht
      subst this
      unfold cmpBits
      simp [Agree]
    | cons b t =>
      rw [List.length_cons] at hs ht
      unfold cmpBits
      have hA : Agree n (a :: s) (b :: t) ↔ (byteBits a ++ bits s).take n = (byteBits b ++ bits t).take n := by
        unfold Agree; rw [bits_cons, bits_cons]
      have hA' : decide (Agree n (a :: s) (b :: t)) = decide ((byteBits a ++ bits s).take n = (byteBits b ++ bits t).take n) :=
        decide_eq_decide.mpr hA
      rw [hA']
      by_cases h8 : 8 ≤ n
      · have hT : (byteBits a ++ bits s).take n = (byteBits b ++ bits t).take n ↔
            byteBits a ++ (bits s).take (n - 8) = byteBits b ++ (bits t).take (n - 8) := by
          rw [List.take_append, List.take_append, byteBits_length, byteBits_length,
            List.take_of_length_le (l := byteBits a) (by rw [byteBits_length]; exact h8),
            List.take_of_length_le (l := byteBits b) (by rw [byteBits_length]; exact h8)]
        rw [if_pos h8, decide_eq_decide.mpr hT]
        by_cases hab : a = b
        · subst hab
          rw [if_neg (by simp), ih t (n - 8) (by omega) (by omega)]
          simp [Agree]
        · rw [if_pos hab]
          congr 1
          symm
          apply decide_eq_false
          intro h
          exact hab (byteBits_inj (List.append_inj h (by rw [byteBits_length, byteBits_length])).1)
      · rw [if_neg h8]
        by_cases h0 : n = 0
        · subst h0; simp
        · rw [if_pos h0]
          congr 1
          rw [decide_eq_decide, List.take_append_of_le_length (by rw [byteBits_length]; omega),
            List.take_append_of_le_length (by rw [byteBits_length]; omega)]
          exact mask_agree a b n (by omega)

theorem asV6_eq (a : List Byte) : asV6 a = ipv4Mapped a := rfl

theorem ipv4Mapped_length (a : List Byte) : (ipv4Mapped a).length = 12 + a.length := by unfold ipv4Mapped; simp; omega

theorem digitsVal_eq (ds : List Byte) (h : ∀ d ∈ ds, 48 ≤ d ∧ d ≤ 57) (v : Nat) :
    digitsVal ds v = ds.foldl (fun v d => v * 10 + (d.toNat - 48)) v := by
  induction ds generalizing v with
  | nil => rfl
  | cons d ds ih =>
    rw [digitsVal, if_pos (h d (by simp)), List.foldl_cons]
    exact ih (fun x hx => h x (by simp [hx])) _

theorem strtolInt_decimal {ds : List Byte} {n : Nat} (h : Decimal ds n) (hn : n < 2 ^ 31) : strtolInt ds = n := by
  obtain ⟨h1, h2, h3⟩ := h
  have hv : digitsVal ds 0 = n := by rw [digitsVal_eq ds h2, h3]
  cases ds with
  | nil => exact absurd rfl h1
  | cons d ds =>
    have hd := h2 d (by simp)
    have hm : strtolInt (d :: ds) = (min (digitsVal (d :: ds) 0 : Int) (2 ^ 63 - 1) + 2 ^ 31) % 2 ^ 32 - 2 ^ 31 := by
      unfold strtolInt
      simp only []
      split
      · rename_i heq; cases heq; exact absurd hd (by decide)
      · rename_i heq; cases heq; exact absurd hd (by decide)
      · rfl
    rw [hm, hv, show min (n : Int) (2 ^ 63 - 1) = n by omega]
    omega

theorem split_slash (host len : List Byte) (h : (47 : Byte) ∉ host) :
    (host ++ [47] ++ len).takeWhile (· ≠ 47) = host ∧ (host ++ [47] ++ len).dropWhile (· ≠ 47) = 47 :: len := by
  induction host with
  | nil => simp
  | cons a host ih =>
    have ha : a ≠ 47 := fun h' => h (by simp [h'])
    have := ih (fun h' => h (by simp [h']))
    simp only [List.cons_append, List.takeWhile_cons, List.dropWhile_cons]
    rw [if_pos (by simpa using ha), if_pos (by simpa using ha)]
    exact ⟨by rw [this.1], this.2⟩

theorem no_slash (host : List Byte) (h : (47 : Byte) ∉ host) :
    host.takeWhile (· ≠ 47) = host ∧ host.dropWhile (· ≠ 47) = [] := by
  induction host with
  | nil => simp
  | cons a host ih =>
    have ha : a ≠ 47 := fun h' => h (by simp [h'])
    have := ih (fun h' => h (by simp [h']))
    simp only [List.takeWhile_cons, List.dropWhile_cons]
    rw [if_pos (by simpa using ha), if_pos (by simpa using ha)]
    exact ⟨by rw [this.1], this.2⟩

/-- The result of comparing with the same address several times. -/
theorem matchAny_same (n : Nat) (peer r : Sock) (b : Bool) (rs : List Sock) (h : matchOne n peer r = .val b)
    (hr : ∀ x ∈ rs, x = r) (hne : rs ≠ []) : matchAny n peer rs = .val b := by
  induction rs with
  | nil => exact absurd rfl hne
  | cons x rs ih =>
    have hx := hr x (by simp)
    subst hx
    unfold matchAny
    rw [h]
    cases b with
    | true => rfl
    | false =>
      simp only []
      cases rs with
      | nil => rfl
      | cons y rs => exact ih (fun z hz => hr z (by simp [hz])) (by simp)

/-- The widest prefix an entry may have. -/
def width : Sock → Nat
  | .inet _ => 32
  | _ => 128

/-- The combinations in which an entry means what CIDR says: all but an IPv4 client and an IPv6 entry. -/
def Compatible : Sock → Sock → Prop
  | .inet _, .inet6 _ => False
  | _, _ => True

theorem matchOne_network (peer r : Sock) (n : Nat) (hp : SockOk peer) (hr : SockOk r) (hc : Compatible peer r)
    (hn : n ≤ width r) : ∃ b, matchOne n peer r = .val b ∧ (b = true ↔ InNetwork peer r n) := by
  cases peer with
  | other => exact absurd hp id
  | inet a =>
    cases r with
    | other => exact absurd hr id
    | inet6 b => exact absurd hc id
    | inet b =>
      have ha : a.length = 4 := hp
      have hb : b.length = 4 := hr
      have hn : n ≤ 32 := hn
      exact ⟨_, cmpBits_agree a b n (by omega) (by omega), decide_eq_true_iff⟩
  | inet6 a =>
    have ha : a.length = 16 := hp
    cases r with
    | other => exact absurd hr id
    | inet6 b =>
      have hb : b.length = 16 := hr
      have hn : n ≤ 128 := hn
      exact ⟨_, cmpBits_agree a b n (by omega) (by omega), decide_eq_true_iff⟩
    | inet b =>
      have hb : b.length = 4 := hr
      have hn : n ≤ 32 := hn
      refine ⟨_, cmpBits_agree a (ipv4Mapped b) (n + 96) (by omega) (by rw [ipv4Mapped_length]; omega), ?_⟩
      rw [decide_eq_true_iff, Nat.add_comm]
      exact Iff.rfl

theorem addressMatches_any {gai : List Byte → Option (List Sock)} {mask : List Byte} {peer : Sock} {n : Nat} {rs : List Sock}
    (hm : maskLen mask peer = n) (hn : (n : Int) ≤ addrBits peer) (hg : gai (mask.takeWhile (· ≠ 47)) = some rs) :
    addressMatches gai mask peer = matchAny n peer rs := by
  unfold addressMatches
  simp only [hm, hg]
  rw [if_neg (by omega), Int.toNat_natCast]

/-- **C32, partial.** An entry `address/prefix` matches a client if and only if the client's address is in that network.

Missing: an IPv4 client and an IPv6 entry (`C32_false_mixed`), entries with a malformed prefix (`C32_false_malformed`), and
entries without a prefix for IPv6 clients (`C33_false`). -/
theorem C32_network_partial (gai : List Byte → Option (List Sock)) (host len : List Byte) (n : Nat) (peer r : Sock)
    (rs : List Sock) (hh : (47 : Byte) ∉ host) (hg : gai host = some rs) (hrs : rs ≠ []) (hsame : ∀ x ∈ rs, x = r)
    (hl : Decimal len n) (hp : SockOk peer) (hr : SockOk r) (hc : Compatible peer r) (hn : n ≤ width r) :
    ∃ b, addressMatches gai (host ++ [47] ++ len) peer = .val b ∧ (b = true ↔ InNetwork peer r n) := by
  obtain ⟨b, hb, hiff⟩ := matchOne_network peer r n hp hr hc hn
  refine ⟨b, ?_, hiff⟩
  have hw : width r ≤ 128 := by cases r <;> simp [width]
  have hs := split_slash host len hh
  have hml : maskLen (host ++ [47] ++ len) peer = n := by
    unfold maskLen
    rw [hs.2]
    exact strtolInt_decimal hl (by omega)
  rw [addressMatches_any hml ?_ (by rw [hs.1]; exact hg)]
  · exact matchAny_same n peer r b rs hb hsame hrs
  · cases peer with
    | inet a =>
      cases r with
      | inet6 => exact absurd hc id
      | other => exact absurd hr id
      | inet => show (n : Int) ≤ 32; have : n ≤ 32 := hn; omega
    | inet6 a => show (n : Int) ≤ 128; omega
    | other => exact absurd hp id

/-- The hypotheses: the network 10.0.0.0/8, and an IPv6 client with a mapped address in it. -/
example : ∃ b, addressMatches (fun t => if t = ascii "10.0.0.0" then some [.inet [10, 0, 0, 0], .inet [10, 0, 0, 0]] else none)
    (ascii "10.0.0.0" ++ [47] ++ ascii "8") (.inet6 [0, 0, 0, 0, 0, 0, 0, 0, 0, 0, 255, 255, 10, 1, 2, 3]) = .val b ∧
      (b = true ↔ InNetwork (.inet6 [0, 0, 0, 0, 0, 0, 0, 0, 0, 0, 255, 255, 10, 1, 2, 3]) (.inet [10, 0, 0, 0]) 8) :=
  C32_network_partial _ (ascii "10.0.0.0") (ascii "8") 8 _ (.inet [10, 0, 0, 0]) [.inet [10, 0, 0, 0], .inet [10, 0, 0, 0]]
    (by decide) (by decide) (by decide) (by decide) ⟨by decide, by decide, by decide⟩ rfl rfl trivial (by decide)

theorem matchAny_or (n : Nat) (peer : Sock) : ∀ rs : List Sock,
    (∀ r ∈ rs, ∃ b, matchOne n peer r = .val b ∧ (b = true ↔ InNetwork peer r n)) →
    ∃ b, matchAny n peer rs = .val b ∧ (b = true ↔ ∃ r ∈ rs, InNetwork peer r n)
  | [], _ => ⟨false, rfl, by simp⟩
  | r :: rs, h => by
    obtain ⟨b, hb, hiff⟩ := h r (by simp)
    obtain ⟨b2, hb2, hiff2⟩ := matchAny_or n peer rs (fun x hx => h x (by simp [hx]))
    cases b with
    | true =>
      refine ⟨true, ?_, ?_⟩
      · unfold matchAny
        rw [hb]
      · exact ⟨fun _ => ⟨r, by simp, hiff.mp rfl⟩, fun _ => rfl⟩
    | false =>
      refine ⟨b2, ?_, ?_⟩
      · unfold matchAny
        rw [hb]
        exact hb2
      · rw [hiff2]
        constructor
        · rintro ⟨x, hx, hn⟩
          exact ⟨x, by simp [hx], hn⟩
        · rintro ⟨x, hx, hn⟩
          rcases List.mem_cons.mp hx with rfl | hx
          · exact absurd (hiff.mpr hn) (by simp)
          · exact ⟨x, hx, hn⟩

/-- **C32, entries that stand for several addresses** (a host name; partial as `C32_network_partial`): such an entry with a prefix matches
a client if and only if the client is in the network of one of the addresses. -/
theorem C32_several_partial (gai : List Byte → Option (List Sock)) (host len : List Byte) (n : Nat) (peer : Sock)
    (rs : List Sock) (hh : (47 : Byte) ∉ host) (hg : gai host = some rs) (hl : Decimal len n) (hp : SockOk peer)
    (hrs : ∀ r ∈ rs, SockOk r ∧ Compatible peer r ∧ n ≤ width r) (hn : n < 2 ^ 31) :
    ∃ b, addressMatches gai (host ++ [47] ++ len) peer = .val b ∧ (b = true ↔ ∃ r ∈ rs, InNetwork peer r n) := by
  have hs := split_slash host len hh
  have hml : maskLen (host ++ [47] ++ len) peer = n := by
    unfold maskLen
    rw [hs.2]
    exact strtolInt_decimal hl (by omega)
  by_cases hle : (n : Int) ≤ addrBits peer
  · rw [addressMatches_any hml hle (by rw [hs.1]; exact hg)]
    exact matchAny_or n peer rs (fun r hr => matchOne_network peer r n hp (hrs r hr).1 (hrs r hr).2.1 (hrs r hr).2.2)
  · refine ⟨false, ?_, ?_⟩
    · unfold addressMatches
      simp only [hml]
      rw [if_pos (.inl (by omega))]
    · constructor
      · intro h; cases h
      · rintro ⟨r, hr, -⟩
        obtain ⟨h1, h2, h3⟩ := hrs r hr
        exfalso
        cases peer with
        | inet a =>
          cases r with
          | inet6 => exact h2
          | other => exact h1
          | inet => exact hle (show (n : Int) ≤ 32 by have : n ≤ 32 := h3; omega)
        | inet6 a =>
          have : width r ≤ 128 := by cases r <;> simp [width]
          exact hle (show (n : Int) ≤ 128 by omega)
        | other => exact hp

example : ∃ b, addressMatches (fun _ => some [.inet [10, 0, 0, 1], .inet [10, 9, 0, 0]])
    (ascii "office" ++ [47] ++ ascii "16") (.inet [10, 9, 8, 7]) = .val b ∧
    (b = true ↔ ∃ r ∈ [Sock.inet [10, 0, 0, 1], .inet [10, 9, 0, 0]], InNetwork (.inet [10, 9, 8, 7]) r 16) :=
  C32_several_partial _ _ _ 16 _ _ (by decide +kernel) rfl ⟨by decide, by decide, by decide⟩ rfl (by
    intro r hr
    simp only [List.mem_cons, List.not_mem_nil, or_false] at hr
    rcases hr with rfl | rfl <;> exact ⟨rfl, trivial, by decide⟩) (by decide)

/-- **C32, entries without a prefix** mean exactly that address, for clients of the entry's own family. -/
theorem C32_host_partial (gai : List Byte → Option (List Sock)) (host a b : List Byte) (f : List Byte → Sock)
    (rs : List Sock) (hf : (f = .inet ∧ a.length = 4 ∧ b.length = 4) ∨ (f = .inet6 ∧ a.length = 16 ∧ b.length = 16))
    (hh : (47 : Byte) ∉ host) (hg : gai host = some rs) (hrs : rs ≠ []) (hsame : ∀ x ∈ rs, x = f b) :
    addressMatches gai host (f a) = .val (decide (a = b)) := by
  have hs := no_slash host hh
  have hfull : ∀ a b : List Byte, a.length = b.length → (Agree (8 * a.length) a b ↔ a = b) := by
    intro a b hab
    unfold Agree
    rw [List.take_of_length_le (by rw [bits_length]; exact Nat.le_refl _),
      List.take_of_length_le (by rw [bits_length, hab]; exact Nat.le_refl _)]
    constructor
    · intro h
      clear hf hg hrs hsame hs
      induction a generalizing b with
      | nil => cases b with
        | nil => rfl
        | cons => cases hab
      | cons x a ih =>
        cases b with
        | nil => cases hab
        | cons y b =>
          rw [bits_cons, bits_cons] at h
          have := List.append_inj h (by rw [byteBits_length, byteBits_length])
          rw [byteBits_inj this.1, ih b (by simpa using hab) this.2]
    · intro h; rw [h]
  rcases hf with ⟨rfl, ha, hb⟩ | ⟨rfl, ha, hb⟩
  · rw [addressMatches_any (n := 32) (by unfold maskLen; rw [hs.2]; rfl) (Int.le_refl _) (by rw [hs.1]; exact hg)]
    refine matchAny_same _ _ (.inet b) _ rs ?_ hsame hrs
    show cmpBits a b 32 = _
    rw [cmpBits_agree a b 32 (by omega) (by omega)]
    congr 1
    rw [decide_eq_decide]
    have := hfull a b (by omega)
    rwa [ha] at this
  · rw [addressMatches_any (n := 128) (by unfold maskLen; rw [hs.2]; rfl) (Int.le_refl _) (by rw [hs.1]; exact hg)]
    refine matchAny_same _ _ (.inet6 b) _ rs ?_ hsame hrs
    show cmpBits a b 128 = _
    rw [cmpBits_agree a b 128 (by omega) (by omega)]
    congr 1
    rw [decide_eq_decide]
    have := hfull a b (by omega)
    rwa [ha] at this

example : addressMatches (fun _ => some [.inet [10, 0, 0, 1]]) (ascii "10.0.0.1") (.inet [10, 0, 0, 1]) =
    .val (decide (([10, 0, 0, 1] : List Byte) = [10, 0, 0, 1])) :=
  C32_host_partial _ _ _ _ .inet _ (.inl ⟨rfl, rfl, rfl⟩) (by decide) rfl (by simp) (by simp)

/-- **C32, malformed entries.** A text that is not an address, and a negative or too long prefix, match nobody. -/
theorem C32_nobody_partial (gai : List Byte → Option (List Sock)) (host len : List Byte) (peer : Sock)
    (hh : (47 : Byte) ∉ host) (h : gai host = none ∨ strtolInt len < 0 ∨ addrBits peer < strtolInt len) :
    addressMatches gai (host ++ [47] ++ len) peer = .val false := by
  have hs := split_slash host len hh
  unfold addressMatches maskLen
  rw [hs.1, hs.2]
  simp only []
  split
  · rfl
  · rename_i hn
    rcases h with h | h | h
    · rw [h]
    · exact absurd (.inr h) hn
    · exact absurd (.inl h) hn

/-- **C32 is false: malformed prefixes.** `10.0.0.0/x` (and `10.0.0.0/`) match every IPv4 client. -/
theorem C32_false_malformed (gai : List Byte → Option (List Sock)) (a : List Byte) (ha : a.length = 4)
    (hg : gai (ascii "10.0.0.0") = some [.inet [10, 0, 0, 0]]) :
    addressMatches gai (ascii "10.0.0.0/x") (.inet a) = .val true ∧
    addressMatches gai (ascii "10.0.0.0/") (.inet a) = .val true := by
  have hc : cmpBits a [10, 0, 0, 0] 0 = .val true := by
    rw [cmpBits_agree a _ 0 (by omega) (by omega)]
    simp [Agree]
  constructor
  · have hm : maskLen (ascii "10.0.0.0/x") (.inet a) = (0 : Nat) := by
      unfold maskLen
      rw [show (ascii "10.0.0.0/x").dropWhile (· ≠ 47) = 47 :: ascii "x" from by decide +kernel]
      show strtolInt (ascii "x") = (0 : Nat)
      decide +kernel
    rw [addressMatches_any (gai := gai) (rs := [.inet [10, 0, 0, 0]]) hm (show (0 : Int) ≤ 32 by decide)
      (by rw [show (ascii "10.0.0.0/x").takeWhile (· ≠ 47) = ascii "10.0.0.0" from by decide +kernel, hg])]
    exact matchAny_same _ _ (.inet [10, 0, 0, 0]) _ _ hc (by simp) (by simp)
  · have hm : maskLen (ascii "10.0.0.0/") (.inet a) = (0 : Nat) := by
      unfold maskLen
      rw [show (ascii "10.0.0.0/").dropWhile (· ≠ 47) = 47 :: ascii "" from by decide +kernel]
      show strtolInt (ascii "") = (0 : Nat)
      decide +kernel
    rw [addressMatches_any (gai := gai) (rs := [.inet [10, 0, 0, 0]]) hm (show (0 : Int) ≤ 32 by decide)
      (by rw [show (ascii "10.0.0.0/").takeWhile (· ≠ 47) = ascii "10.0.0.0" from by decide +kernel, hg])]
    exact matchAny_same _ _ (.inet [10, 0, 0, 0]) _ _ hc (by simp) (by simp)

/-- **C32 is false: mixed families.** `::/0` does not match an IPv4 client although its address, seen as an IPv6 address, is
in that network; and `::ffff:10.0.0.0/104`, the IPv6 form of 10.0.0.0/8, does not match 10.1.2.3. -/
theorem C32_false_mixed : let any : Sock := .inet6 (List.replicate 16 0)
    let ten : Sock := .inet6 [0, 0, 0, 0, 0, 0, 0, 0, 0, 0, 255, 255, 10, 0, 0, 0]
    let gai : List Byte → Option (List Sock) := fun t =>
      if t = ascii "::" then some [any] else if t = ascii "::ffff:10.0.0.0" then some [ten] else none
    InNetwork (.inet [10, 1, 2, 3]) any 0 ∧ addressMatches gai (ascii "::/0") (.inet [10, 1, 2, 3]) = .val false ∧
    InNetwork (.inet [10, 1, 2, 3]) ten 104 ∧
      addressMatches gai (ascii "::ffff:10.0.0.0/104") (.inet [10, 1, 2, 3]) = .val false := by
  refine ⟨?_, by decide +kernel, ?_, by decide +kernel⟩
  · show Agree 0 _ _
    decide +kernel
  · show Agree 104 _ _
    decide +kernel

/-- **C32, what an IPv6 entry means to an IPv4 client** (the case that `Compatible` leaves out): the prefix length is counted from the
embedded IPv4 address on. An entry with a prefix of at most 32 matches if and only if the client's mapped address and the entry agree on
96 bits more than it says; an entry with a longer one matches no IPv4 client. -/
theorem C32_mixed_partial (gai : List Byte → Option (List Sock)) (host len : List Byte) (n : Nat) (a b : List Byte)
    (rs : List Sock) (hh : (47 : Byte) ∉ host) (hg : gai host = some rs) (hrs : rs ≠ []) (hsame : ∀ x ∈ rs, x = .inet6 b)
    (hl : Decimal len n) (ha : a.length = 4) (hb : b.length = 16) (hn : n < 2 ^ 31) :
    ∃ v, addressMatches gai (host ++ [47] ++ len) (.inet a) = .val v ∧ (v = true ↔ n ≤ 32 ∧ Agree (96 + n) (asV6 a) b) := by
  have hs := split_slash host len hh
  have hml : maskLen (host ++ [47] ++ len) (.inet a) = n := by
    unfold maskLen
    rw [hs.2]
    exact strtolInt_decimal hl (by omega)
  by_cases hle : n ≤ 32
  · rw [addressMatches_any hml (show (n : Int) ≤ 32 by omega) (by rw [hs.1]; exact hg)]
    refine ⟨_, matchAny_same n _ (.inet6 b) _ rs
      (cmpBits_agree (ipv4Mapped a) b (n + 96) (by rw [ipv4Mapped_length]; omega) (by omega)) hsame hrs, ?_⟩
    rw [decide_eq_true_iff, Nat.add_comm]
    exact ⟨fun h => ⟨hle, h⟩, fun h => h.2⟩
  · refine ⟨false, ?_, by simp [hle]⟩
    unfold addressMatches
    simp only [hml]
    rw [if_pos (.inl (show (32 : Int) < n by omega))]

/-- The hypotheses: `::ffff:10.0.0.0/8`, and 10.1.2.3, which it matches. -/
example : ∃ v, addressMatches (fun _ => some [.inet6 (asV6 [10, 0, 0, 0])]) (ascii "::ffff:10.0.0.0" ++ [47] ++ ascii "8")
    (.inet [10, 1, 2, 3]) = .val v ∧ (v = true ↔ 8 ≤ 32 ∧ Agree (96 + 8) (asV6 [10, 1, 2, 3]) (asV6 [10, 0, 0, 0])) :=
  C32_mixed_partial _ _ _ 8 _ _ _ (by decide) rfl (by simp) (by simp) ⟨by decide, by decide, by decide⟩ rfl rfl (by decide)

/-! ### C33 -/

/-- An IPv6 client checked against an IPv4 entry with more than 32 bits (or none given). -/
def Overlong (mask : List Byte) (peer : Sock) (rs : List Sock) : Prop :=
  (∃ a, peer = .inet6 a) ∧ (∃ b, .inet b ∈ rs) ∧ 32 < maskLen mask peer

/-- **C33, partial.** Whatever the entry and the client: except for an IPv6 client and an IPv4 entry without prefix, or with
one longer than 32, only bytes of the two addresses are read. -/
theorem C33_within_partial (gai : List Byte → Option (List Sock)) (mask : List Byte) (peer : Sock) (hp : SockOk peer)
    (hgai : ∀ t rs, gai t = some rs → ∀ r ∈ rs, SockOk r)
    (hn : ∀ rs, gai (mask.takeWhile (· ≠ 47)) = some rs → ¬ Overlong mask peer rs) :
    addressMatches gai mask peer ≠ .ub := by
  unfold addressMatches
  simp only []
  split
  · simp
  rename_i hlen
  split
  · simp
  rename_i rs hg
  have hok := hgai _ _ hg
  have hno := hn rs hg
  have hone : ∀ r ∈ rs, matchOne (maskLen mask peer).toNat peer r ≠ .ub := by
    intro r hr
    have hrok := hok r hr
    generalize hN : (maskLen mask peer).toNat = N
    cases peer with
    | other => exact absurd hp id
    | inet a =>
      have ha : a.length = 4 := hp
      have : (maskLen mask (.inet a)) ≤ 32 := by simp only [addrBits] at hlen; omega
      cases r with
      | other => exact absurd hrok id
      | inet b =>
        have hb : b.length = 4 := hrok
        show cmpBits a b N ≠ .ub
        rw [cmpBits_agree _ _ _ (by omega) (by omega)]; simp
      | inet6 b =>
        have hb : b.length = 16 := hrok
        show cmpBits (ipv4Mapped a) b (N + 96) ≠ .ub
        rw [cmpBits_agree _ _ _ (by rw [ipv4Mapped_length]; omega) (by omega)]; simp
    | inet6 a =>
      have ha : a.length = 16 := hp
      have : (maskLen mask (.inet6 a)) ≤ 128 := by simp only [addrBits] at hlen; omega
      cases r with
      | other => exact absurd hrok id
      | inet6 b =>
        have hb : b.length = 16 := hrok
        show cmpBits a b N ≠ .ub
        rw [cmpBits_agree _ _ _ (by omega) (by omega)]; simp
      | inet b =>
        have hb : b.length = 4 := hrok
        have h32 : ¬ 32 < maskLen mask (.inet6 a) := fun h => hno ⟨⟨a, rfl⟩, ⟨b, hr⟩, h⟩
        show cmpBits a (ipv4Mapped b) (N + 96) ≠ .ub
        rw [cmpBits_agree _ _ _ (by omega) (by rw [ipv4Mapped_length]; omega)]; simp
  clear hn hno hg hok
  induction rs with
  | nil => simp [matchAny]
  | cons r rs ih =>
    unfold matchAny
    have h1 := hone r (by simp)
    split
    · simp
    · exact ih (fun x hx => hone x (by simp [hx]))
    · rename_i hq; exact absurd hq h1
    · simp

/-- **C33 is false.** A client with the address 10.1.2.3 that comes in through an IPv6 socket, and the entry `10.1.2.3`: the
comparison runs 96 bits past the end of both addresses. -/
theorem C33_false (gai : List Byte → Option (List Sock)) (hg : gai (ascii "10.1.2.3") = some [.inet [10, 1, 2, 3]]) :
    addressMatches gai (ascii "10.1.2.3") (.inet6 [0, 0, 0, 0, 0, 0, 0, 0, 0, 0, 255, 255, 10, 1, 2, 3]) = .ub := by
  unfold addressMatches
  rw [show (ascii "10.1.2.3").takeWhile (· ≠ 47) = ascii "10.1.2.3" from by decide +kernel, hg]
  decide +kernel

/-! ### C34 -/

theorem isSpace_iff (b : Byte) : isSpace b = true ↔ Blank b := by
  unfold isSpace Blank
  rw [decide_eq_true_iff]
  simp only [← UInt8.toNat_inj, UInt8.le_iff_toNat_le]
  show b.toNat = 32 ∨ 9 ≤ b.toNat ∧ b.toNat ≤ 13 ↔ b.toNat = 32 ∨ b.toNat = 9 ∨ b.toNat = 10 ∨ b.toNat = 11 ∨ b.toNat = 12 ∨ b.toNat = 13
  omega

theorem takeWhile_drop {p : Byte → Bool} (a rest : List Byte) (ha : ∀ b ∈ a, p b = true)
    (hr : ∀ b r, rest = b :: r → p b = false) : (a ++ rest).takeWhile p = a ∧ (a ++ rest).dropWhile p = rest := by
  induction a with
  | nil =>
    cases rest with
    | nil => simp
    | cons b r => simp [List.takeWhile_cons, List.dropWhile_cons, hr b r rfl]
  | cons x a ih =>
    have := ih (fun b hb => ha b (by simp [hb]))
    simp [List.takeWhile_cons, List.dropWhile_cons, ha x (by simp), this]

theorem split_at (p : Byte → Bool) (s : List Byte) : ∃ a rest, s = a ++ rest ∧ (∀ b ∈ a, p b = true) ∧
    (∀ b r, rest = b :: r → p b = false) := by
  refine ⟨s.takeWhile p, s.dropWhile p, (List.takeWhile_append_dropWhile).symm, ?_, ?_⟩
  · intro b hb
    have := List.all_takeWhile (p := p) (l := s)
    rw [List.all_eq_true] at this
    exact this b hb
  · intro b r h
    have := List.head?_dropWhile_not p s
    rw [h] at this
    simpa using this

/-- What is looked at is the line's entry. -/
theorem aclToken_iff (line t : List Byte) : aclToken line = some t ↔ HasEntry line t := by
  -- the line up to a comment or NUL
  obtain ⟨c, r0, hc, hc1, hc2⟩ := split_at (fun b => b ≠ 0) line
  obtain ⟨d, r1, hd, hd1, hd2⟩ := split_at (fun b => b ≠ 35) c
  obtain ⟨sp, q, hq, hq1, hq2⟩ := split_at isSpace d
  obtain ⟨w, r2, hw, hw1, hw2⟩ := split_at (fun b => !isSpace b) q
  have htok : aclToken line = if q = [] then none else some w := by
    unfold aclToken cstr
    have h1 : line.takeWhile (· ≠ 0) = c := by rw [hc]; exact (takeWhile_drop c r0 hc1 hc2).1
    have h2 : c.takeWhile (· ≠ 35) = d := by rw [hd]; exact (takeWhile_drop d r1 hd1 hd2).1
    have h3 : d.dropWhile isSpace = q := by rw [hq]; exact (takeWhile_drop sp q hq1 hq2).2
    have h4 : q.takeWhile (fun b => !isSpace b) = w := by rw [hw]; exact (takeWhile_drop w r2 hw1 hw2).1
    simp only [h1, h2, h3, h4]
  have hline : line = sp ++ w ++ (r2 ++ r1 ++ r0) := by
    rw [hc, hd, hq, hw]; simp
  have hdm : ∀ b ∈ d, b ≠ 35 ∧ b ≠ 0 := by
    intro b hb
    refine ⟨by simpa using hd1 b hb, ?_⟩
    have := hc1 b (by rw [hd]; simp [hb])
    simpa using this
  have hrest : ∀ b r, r2 ++ r1 ++ r0 = b :: r → Ends b := by
    intro b r h
    cases r2 with
    | cons x r2 =>
      cases h
      have := hw2 b r2 rfl
      exact .inl ((isSpace_iff b).mp (by simpa using this))
    | nil =>
      cases r1 with
      | cons x r1 => cases h; exact .inr (.inl (by simpa using hd2 b r1 rfl))
      | nil => exact .inr (.inr (by simpa using hc2 b r h))
  have hwm : ∀ b ∈ w, ¬ Ends b := by
    intro b hb h
    have hbd : b ∈ d := by rw [hq, hw]; simp [hb]
    rcases h with h | h | h
    · have := hw1 b hb
      rw [(isSpace_iff b).mpr h] at this
      cases this
    · exact (hdm b hbd).1 h
    · exact (hdm b hbd).2 h
  have hspm : ∀ b ∈ sp, Blank b := fun b hb => (isSpace_iff b).mp (hq1 b hb)
  have hqw : q = [] ↔ w = [] := by
    constructor
    · intro h; rw [h] at hw; exact (List.append_eq_nil_iff.mp hw.symm).1
    · intro h
      cases hqc : q with
      | nil => rfl
      | cons b q' =>
        have h1 := hq2 b q' hqc
        rw [h, hqc] at hw
        have := hw2 b q' hw.symm
        rw [h1] at this
        cases this
  rw [htok]
  constructor
  · intro h
    split at h
    · cases h
    · cases h
      rename_i hne
      exact ⟨sp, r2 ++ r1 ++ r0, hline, hspm, fun h => hne (hqw.mpr h), hwm, hrest⟩
  · rintro ⟨sp', rest', hl', hsp', ht, ht', hr'⟩
    have hsp0 : ∀ b ∈ sp' ++ t, b ≠ 0 ∧ b ≠ 35 := by
      intro b hb
      rw [List.mem_append] at hb
      rcases hb with hb | hb
      · have := hsp' b hb
        constructor
        · rintro rfl; exact absurd this (by unfold Blank; decide)
        · rintro rfl; exact absurd this (by unfold Blank; decide)
      · exact ⟨fun h => ht' b hb (.inr (.inr h)), fun h => ht' b hb (.inr (.inl h))⟩
    rw [← htok]
    unfold aclToken cstr
    have h1 : line.takeWhile (· ≠ 0) = sp' ++ t ++ rest'.takeWhile (· ≠ 0) := by
      rw [hl', List.takeWhile_append_of_pos (by intro b hb; simpa using (hsp0 b hb).1)]
    have h2 : (sp' ++ t ++ rest'.takeWhile (· ≠ 0)).takeWhile (· ≠ 35) =
        sp' ++ (t ++ (rest'.takeWhile (· ≠ 0)).takeWhile (· ≠ 35)) := by
      rw [List.takeWhile_append_of_pos (by intro b hb; simpa using (hsp0 b hb).2), List.append_assoc]
    generalize hu : (rest'.takeWhile (· ≠ 0)).takeWhile (· ≠ 35) = u at h2
    have hub : ∀ b r, u = b :: r → (!isSpace b) = false := by
      intro b r h
      cases rest' with
      | nil => rw [← hu] at h; simp at h
      | cons x rest' =>
        have hx := hr' x rest' rfl
        rw [← hu, List.takeWhile_cons] at h
        split at h
        · rename_i h0
          rw [List.takeWhile_cons] at h
          split at h
          · rename_i h35
            cases h
            rcases hx with hx | hx | hx
            · rw [(isSpace_iff b).mpr hx]; rfl
            · simp [hx] at h35
            · simp [hx] at h0
          · cases h
        · simp at h
    have h3 : (sp' ++ (t ++ u)).dropWhile isSpace = t ++ u := by
      refine (takeWhile_drop sp' (t ++ u) (fun b hb => (isSpace_iff b).mpr (hsp' b hb)) ?_).2
      intro b r h
      cases t with
      | nil => exact absurd rfl ht
      | cons x t =>
        cases h
        rw [Bool.eq_false_iff]
        intro hb
        exact ht' b (by simp) (.inl ((isSpace_iff b).mp hb))
    have h4 : (t ++ u).takeWhile (fun b => !isSpace b) = t := by
      refine (takeWhile_drop t u ?_ hub).1
      intro b hb
      have : isSpace b = false := by
        rw [Bool.eq_false_iff]; intro h; exact ht' b hb (.inl ((isSpace_iff b).mp h))
      rw [this]; rfl
    simp only [h1, h2, h3, h4]
    rw [if_neg (by cases t <;> simp_all)]

/-- Reading a file of short lines gives these lines. -/
theorem fgetsAll_lines (ls : List (List Byte)) (last : List Byte) (h : ∀ l ∈ last :: ls, l.length ≤ 254 ∧ (10 : Byte) ∉ l) :
    fgetsAll ((ls.map (· ++ [10])).flatten ++ last) = ls.map (· ++ [10]) ++ (if last = [] then [] else [last]) := by
  induction ls with
  | nil =>
    have hl := h last (by simp)
    simp only [List.map_nil, List.flatten_nil, List.nil_append]
    rw [fgetsAll]
    split
    · rfl
    · rename_i hne
      have htk : last.take 255 = last := List.take_of_length_le (by omega)
      have htw : last.takeWhile (· ≠ 10) = last := by
        have := List.takeWhile_append_of_pos (p := fun b : Byte => decide (b ≠ 10)) (l₁ := last) (l₂ := [])
          (by intro b hb; simp only [decide_eq_true_eq]; intro h'; exact hl.2 (h' ▸ hb))
        simpa using this
      have : fgetsOne last = (last, []) := by
        unfold fgetsOne
        simp only [htk, htw]
        rw [if_neg (by omega)]
        simp
      rw [this]
      simp only []
      rw [fgetsAll]
      simp
  | cons l ls ih =>
    have hl := h l (by simp)
    have ih' := ih (fun x hx => h x (by rcases List.mem_cons.mp hx with h' | h' <;> simp [h']))
    generalize hR : (ls.map (· ++ [10])).flatten ++ last = R at ih'
    have hc : ((l :: ls).map (· ++ [10])).flatten ++ last = l ++ (10 :: R) := by
      rw [← hR]; simp
    rw [hc, fgetsAll, dif_neg (by simp)]
    have hone : fgetsOne (l ++ (10 :: R)) = (l ++ [10], R) := by
      unfold fgetsOne
      have htk : (l ++ (10 :: R)).take 255 = l ++ (10 :: R).take (255 - l.length) := by
        rw [List.take_append, List.take_of_length_le (by omega)]
      have hpos : (10 :: R).take (255 - l.length) = 10 :: R.take (254 - l.length) := by
        rw [show 255 - l.length = (254 - l.length) + 1 by omega]; rfl
      have htw : (l ++ 10 :: R.take (254 - l.length)).takeWhile (· ≠ 10) = l :=
        (takeWhile_drop l _ (by intro b hb; simp only [decide_eq_true_eq]; intro h'; exact hl.2 (h' ▸ hb))
          (by intro b r h'; cases h'; decide)).1
      rw [htk, hpos]
      simp only [htw]
      rw [if_pos (by rw [List.length_append, List.length_cons]; omega)]
      refine Prod.ext ?_ ?_
      · show (l ++ (10 :: R)).take (l.length + 1) = _
        rw [List.take_append, List.take_of_length_le (by omega), show l.length + 1 - l.length = 1 by omega]; rfl
      · show (l ++ (10 :: R)).drop (l.length + 1) = _
        rw [List.drop_append, List.drop_of_length_le (by omega), show l.length + 1 - l.length = 1 by omega]; rfl
    rw [hone]
    simp only []
    rw [ih']
    rfl

/-- A newline at the end does not matter. -/
theorem HasEntry.newline (l t : List Byte) : HasEntry (l ++ [10]) t ↔ HasEntry l t := by
  constructor
  · rintro ⟨sp, rest, h, hsp, ht, ht', hr⟩
    obtain ⟨rest0, rfl⟩ : ∃ r0, rest = r0 ++ [10] := by
      rcases List.eq_nil_or_concat rest with rfl | ⟨r0, x, rfl⟩
      · exfalso
        obtain ⟨t0, x, rfl⟩ : ∃ t0 x, t = t0 ++ [x] := by
          rcases List.eq_nil_or_concat t with h' | ⟨a, b, h'⟩
          · exact absurd h' ht
          · exact ⟨a, b, by simpa using h'⟩
        rw [List.append_nil, ← List.append_assoc] at h
        have hx := (List.append_inj' h rfl).2
        simp only [List.cons.injEq, and_true] at hx
        exact ht' x (by simp) (.inl (by rw [← hx]; unfold Blank; decide))
      · rw [List.concat_eq_append, ← List.append_assoc] at h
        have hx := (List.append_inj' h rfl).2
        simp only [List.cons.injEq, and_true] at hx
        exact ⟨r0, by rw [List.concat_eq_append, hx]⟩
    refine ⟨sp, rest0, ?_, hsp, ht, ht', ?_⟩
    · rw [← List.append_assoc] at h
      exact (List.append_inj' h rfl).1
    · intro b r hb
      exact hr b (r ++ [10]) (by rw [hb]; rfl)
  · rintro ⟨sp, rest, h, hsp, ht, ht', hr⟩
    refine ⟨sp, rest ++ [10], by rw [h]; simp, hsp, ht, ht', ?_⟩
    intro b r hb
    cases rest with
    | nil => cases hb; exact .inl (by unfold Blank; decide)
    | cons x rest => cases hb; exact hr b rest rfl

theorem authLoop_any (gai : List Byte → Option (List Sock)) (peer : Sock) (ls : List (List Byte))
    (hv : ∀ l ∈ ls, ∀ t, HasEntry l t → ∃ b, addressMatches gai t peer = .val b) :
    ∃ b, authLoop gai peer ls = .val b ∧ (b = true ↔ ∃ l ∈ ls, ∃ t, HasEntry l t ∧ addressMatches gai t peer = .val true) := by
  induction ls with
  | nil => exact ⟨false, rfl, by simp⟩
  | cons l ls ih =>
    obtain ⟨b, hb, hiff⟩ := ih (fun x hx => hv x (by simp [hx]))
    unfold authLoop
    cases htok : aclToken l with
    | none =>
      refine ⟨b, hb, hiff.trans ?_⟩
      constructor
      · rintro ⟨x, hx, h⟩; exact ⟨x, by simp [hx], h⟩
      · rintro ⟨x, hx, t, ht, h⟩
        rcases List.mem_cons.mp hx with rfl | hx
        · rw [(aclToken_iff x t).mpr ht] at htok; cases htok
        · exact ⟨x, hx, t, ht, h⟩
    | some t =>
      simp only []
      have ht := (aclToken_iff l t).mp htok
      obtain ⟨m, hm⟩ := hv l (by simp) t ht
      rw [hm]
      cases m with
      | true => exact ⟨true, rfl, by simp only [true_iff]; exact ⟨l, by simp, t, ht, hm⟩⟩
      | false =>
        refine ⟨b, hb, hiff.trans ?_⟩
        constructor
        · rintro ⟨x, hx, h⟩; exact ⟨x, by simp [hx], h⟩
        · rintro ⟨x, hx, t', ht', h⟩
          rcases List.mem_cons.mp hx with rfl | hx
          · rw [(aclToken_iff x t').mpr ht'] at htok
            cases htok
            rw [hm] at h; cases h
          · exact ⟨x, hx, t', ht', h⟩

/-- **C34, partial.** With an ACL file whose lines are all shorter than 255 bytes, a client is authorised if and only if
some line has an entry that matches its address.

Missing: longer lines (`C34_false_long_line`) and the entries for which the comparison goes wrong altogether (`hv`; see
`C32_network_partial`, `C32_host_partial`, `C33_within_partial` for when it does not), among them every entry for a client on
a Unix socket (`C34_false_unix`). -/
theorem C34_lines_partial (gai : List Byte → Option (List Sock)) (peer : Sock) (ls : List (List Byte)) (last : List Byte)
    (hl : ∀ l ∈ last :: ls, l.length ≤ 254 ∧ (10 : Byte) ∉ l)
    (hv : ∀ l ∈ last :: ls, ∀ t, HasEntry l t → ∃ b, addressMatches gai t peer = .val b) :
    ∃ b, authorizedClient gai (some (some ((ls.map (· ++ [10])).flatten ++ last))) peer = .val b ∧
      (b = true ↔ ∃ l ∈ last :: ls, ∃ t, HasEntry l t ∧ addressMatches gai t peer = .val true) := by
  unfold authorizedClient
  simp only []
  rw [fgetsAll_lines ls last hl]
  obtain ⟨b, hb, hiff⟩ := authLoop_any gai peer (ls.map (· ++ [10]) ++ (if last = [] then [] else [last])) (by
    intro l hl' t ht
    rw [List.mem_append] at hl'
    rcases hl' with hl' | hl'
    · obtain ⟨x, hx, rfl⟩ := List.mem_map.mp hl'
      exact hv x (by simp [hx]) t ((HasEntry.newline x t).mp ht)
    · split at hl'
      · cases hl'
      · rw [List.mem_singleton] at hl'
        subst hl'
        exact hv l (by simp) t ht)
  refine ⟨b, hb, hiff.trans ?_⟩
  constructor
  · rintro ⟨x, hx, t, ht, h⟩
    rw [List.mem_append] at hx
    rcases hx with hx | hx
    · obtain ⟨y, hy, rfl⟩ := List.mem_map.mp hx
      exact ⟨y, by simp [hy], t, (HasEntry.newline y t).mp ht, h⟩
    · split at hx
      · cases hx
      · rw [List.mem_singleton] at hx
        exact ⟨x, by simp [hx], t, ht, h⟩
  · rintro ⟨x, hx, t, ht, h⟩
    rcases List.mem_cons.mp hx with rfl | hx
    · refine ⟨x, ?_, t, ht, h⟩
      rw [List.mem_append]
      right
      rw [if_neg]
      · simp
      · rintro rfl
        obtain ⟨sp, rest, h1, -, h2, -⟩ := ht
        have := h1.symm
        simp only [List.append_eq_nil_iff] at this
        exact h2 this.1.2
    · exact ⟨x ++ [10], by rw [List.mem_append]; left; exact List.mem_map.mpr ⟨x, hx, rfl⟩, t,
        (HasEntry.newline x t).mpr ht, h⟩

/-- The hypotheses: a comment, an empty line, and one entry with a comment after it; a client that matches. -/
example : ∃ b, authorizedClient (fun t => if t = ascii "10.0.0.0" then some [.inet [10, 0, 0, 0]] else none)
    (some (some (ascii "# everybody here\n\n  10.0.0.0/8 # us\n"))) (.inet [10, 1, 2, 3]) = .val b ∧ b = true :=
  ⟨true, by decide +kernel, rfl⟩

/-- **C34.** Without an ACL everybody is authorised, and also if it cannot be opened. -/
theorem C34_open (gai : List Byte → Option (List Sock)) (peer : Sock) :
    authorizedClient gai none peer = .val true ∧ authorizedClient gai (some none) peer = .val true := ⟨rfl, rfl⟩

/-- **C34, a file without entries** (an empty one, or one of comments and blank lines) authorises nobody. -/
theorem C34_empty (gai : List Byte → Option (List Sock)) (peer : Sock) (ls : List (List Byte)) (last : List Byte)
    (hl : ∀ l ∈ last :: ls, l.length ≤ 254 ∧ (10 : Byte) ∉ l) (h : ∀ l ∈ last :: ls, ∀ t, ¬ HasEntry l t) :
    authorizedClient gai (some (some ((ls.map (· ++ [10])).flatten ++ last))) peer = .val false := by
  obtain ⟨b, hb, hiff⟩ := C34_lines_partial gai peer ls last hl (fun l hl' t ht => absurd ht (h l hl' t))
  rw [hb]
  cases b with
  | false => rfl
  | true =>
    obtain ⟨l, hl', t, ht, -⟩ := hiff.mp rfl
    exact absurd ht (h l hl' t)

/-- **C34 is false: long lines.** A comment of more than 254 bytes: its tail is taken for an entry of its own. -/
theorem C34_false_long_line :
    let gai : List Byte → Option (List Sock) := fun t =>
      if t = ascii "10.0.0.0" then some [.inet [10, 0, 0, 0]] else none
    let line := [35] ++ List.replicate 254 120 ++ ascii "10.0.0.0/8"
    (10 : Byte) ∉ line ∧ (∀ t, ¬ HasEntry line t) ∧
      authorizedClient gai (some (some (line ++ [10]))) (.inet [10, 1, 2, 3]) = .val true := by
  refine ⟨by decide +kernel, ?_, by decide +kernel⟩
  intro t ht
  have := (aclToken_iff _ t).mpr ht
  have h2 : aclToken ([35] ++ List.replicate 254 120 ++ ascii "10.0.0.0/8") = none := by decide +kernel
  rw [h2] at this
  cases this

/-- **C34 is false: Unix sockets.** Checking a client that came through a Unix socket against any entry with an address ends
the server process. -/
theorem C34_false_unix (gai : List Byte → Option (List Sock)) (hg : gai (ascii "10.0.0.0") = some [.inet [10, 0, 0, 0]]) :
    authorizedClient gai (some (some (ascii "10.0.0.0/8\n"))) .other = .exit := by
  unfold authorizedClient
  simp only []
  rw [show fgetsAll (ascii "10.0.0.0/8\n") = [ascii "10.0.0.0/8\n"] from by decide +kernel]
  unfold authLoop
  rw [show aclToken (ascii "10.0.0.0/8\n") = some (ascii "10.0.0.0/8") from by decide +kernel]
  simp only []
  unfold addressMatches
  rw [show (ascii "10.0.0.0/8").takeWhile (· ≠ 47) = ascii "10.0.0.0" from by decide +kernel, hg]
  rw [show maskLen (ascii "10.0.0.0/8") .other = 8 from by decide +kernel]
  simp [addrBits, matchAny, matchOne]

/-- **C59 is false.** A list is configured, cannot be opened (say, its permissions are wrong), and everybody is let in. -/
theorem C59_false (gai : List Byte → Option (List Sock)) (peer : Sock) : authorizedClient gai (some none) peer = .val true := rfl

/-- **C59, partial.** A list that can be opened is enforced: a client in no network of the list is not let in (under the
conditions of `C34_lines_partial`). -/
theorem C59_enforced_partial (gai : List Byte → Option (List Sock)) (peer : Sock) (ls : List (List Byte)) (last : List Byte)
    (hl : ∀ l ∈ last :: ls, l.length ≤ 254 ∧ (10 : Byte) ∉ l)
    (hn : ∀ l ∈ last :: ls, ∀ t, HasEntry l t → ∃ host len n r rs, t = host ++ [47] ++ len ∧ (47 : Byte) ∉ host ∧
      Decimal len n ∧ gai host = some rs ∧ rs ≠ [] ∧ (∀ x ∈ rs, x = r) ∧ SockOk r ∧ Compatible peer r ∧ n ≤ width r ∧
      ¬ InNetwork peer r n) (hp : SockOk peer) :
    authorizedClient gai (some (some ((ls.map (· ++ [10])).flatten ++ last))) peer = .val false := by
  have hno : ∀ l ∈ last :: ls, ∀ t, HasEntry l t → addressMatches gai t peer = .val false := by
    intro l hl' t ht
    obtain ⟨host, len, n, r, rs, rfl, h1, h2, h3, h4, h5, h6, h7, h8, h9⟩ := hn l hl' t ht
    obtain ⟨b, hb, hiff⟩ := C32_network_partial gai host len n peer r rs h1 h3 h4 h5 h2 hp h6 h7 h8
    rw [hb]
    cases b with
    | false => rfl
    | true => exact absurd (hiff.mp rfl) h9
  obtain ⟨b, hb, hiff⟩ := C34_lines_partial gai peer ls last hl (fun l hl' t ht => ⟨false, hno l hl' t ht⟩)
  rw [hb]
  cases b with
  | false => rfl
  | true =>
    obtain ⟨l, hl', t, ht, h⟩ := hiff.mp rfl
    rw [hno l hl' t ht] at h
    cases h

end Nbd.Props
