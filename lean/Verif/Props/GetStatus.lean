import Verif.GetStatus
import Verif.Props.Acl
/-!
# nbd-get-status tells what the kernel knows: C94
-/

set_option autoImplicit false

namespace Nbd

namespace Spec

/-- A netlink attribute as the kernel writes it: length, type, payload, and zeroes up to a multiple of four. -/
def nlAttr (e : Endian) (t : Nat) (payload : List Byte) : List Byte :=
  store e 2 (payload.length + 4) ++ store e 2 t ++ payload ++ List.replicate (3 - (payload.length + 3) % 4) 0

/-- What the kernel says about a device: its number, and whether it is connected. (Linux, drivers/block/nbd.c, `populate_nbd_status`.) -/
def nlDevice (e : Endian) (d : Nat × Bool) : List Byte :=
  nlAttr e 1 (nlAttr e 1 (store e 4 d.1) ++ nlAttr e 2 [if d.2 then 1 else 0])

/-- The kernel's answer about some devices, behind the message header. (`nbd_genl_status`.) -/
def nlStatus (e : Endian) (ds : List (Nat × Bool)) : List Byte := nlAttr e 9 ((ds.map (nlDevice e)).flatten)

/-- The line about a device. -/
def deviceLine (d : Nat × Bool) : List Byte :=
  ascii "/dev/nbd" ++ decText d.1 ++ ascii (if d.2 then ": connected\n" else ": disconnected\n")

end Spec

open Spec

theorem nlAttr_length (e : Endian) (t : Nat) (p : List Byte) : (nlAttr e t p).length = (p.length + 4 + 3) / 4 * 4 := by
  simp only [nlAttr, List.length_append, store_length, List.length_replicate]
  omega

theorem store_two_take (e : Endian) (v : Nat) (l : List Byte) : (store e 2 v ++ l).take 2 = store e 2 v := by
  rw [List.take_left' (store_length e 2 v)]

theorem store_two_drop (e : Endian) (v : Nat) (l : List Byte) : (store e 2 v ++ l).drop 2 = l := by
  rw [List.drop_left' (store_length e 2 v)]

/-- Reading the attributes back. -/
theorem nlAttrs_cons (e : Endian) (t : Nat) (p rest : List Byte) (ht : t < 2 ^ 14) (hp : p.length + 4 < 2 ^ 16) :
    nlAttrs e (nlAttr e t p ++ rest) = (t, p) :: nlAttrs e rest := by
  have hlen := nlAttr_length e t p
  have hl : load e ((nlAttr e t p ++ rest).take 2) = p.length + 4 := by
    simp only [nlAttr, List.append_assoc]
    rw [store_two_take, load_store]
    exact Nat.mod_eq_of_lt (by omega)
  have ht' : load e (((nlAttr e t p ++ rest).drop 2).take 2) = t := by
    simp only [nlAttr, List.append_assoc]
    rw [store_two_drop, store_two_take, load_store]
    exact Nat.mod_eq_of_lt (by omega)
  rw [nlAttrs]
  rw [if_pos (by rw [List.length_append, hlen]; omega)]
  dsimp only
  rw [hl, ht', if_pos (by rw [List.length_append, hlen]; omega)]
  rw [Nat.mod_eq_of_lt ht]
  congr 1
  · congr 1
    have : nlAttr e t p ++ rest = (store e 2 (p.length + 4) ++ store e 2 t) ++ (p ++ (List.replicate (3 - (p.length + 3) % 4) 0 ++ rest)) := by
      simp only [nlAttr, List.append_assoc]
    rw [this, List.drop_take, List.drop_left' (by simp)]
    rw [List.take_left' (by omega)]
  · rw [List.drop_left' hlen]

theorem nlAttrs_nil (e : Endian) : nlAttrs e [] = [] := by rw [nlAttrs]; rfl

theorem nlDevice_length (e : Endian) (d : Nat × Bool) : (nlDevice e d).length = 20 := by
  simp only [nlDevice, nlAttr_length, List.length_append, store_length, List.length_singleton]

theorem statusLine_device (d : Nat × Bool) (h : d.1 < 2 ^ 31) : statusLine d.1 (if d.2 then 1 else 0) = deviceLine d := by
  unfold statusLine deviceLine
  rw [if_pos h, List.append_assoc, List.append_assoc]
  cases d.2 <;> rfl

theorem statusLoop_devices (e : Endian) (ds : List (Nat × Bool)) (hd : ∀ d ∈ ds, d.1 < 2 ^ 31) :
    statusLoop e (nlAttrs e ((ds.map (nlDevice e)).flatten)) = ((ds.map deviceLine).flatten, .going) := by
  induction ds with
  | nil => simp only [List.map_nil, List.flatten_nil, nlAttrs_nil]; rfl
  | cons d ds ih =>
    have ih := ih (fun x hx => hd x (.tail _ hx))
    simp only [List.map_cons, List.flatten_cons]
    rw [show nlDevice e d = nlAttr e 1 (nlAttr e 1 (store e 4 d.1) ++ nlAttr e 2 [if d.2 then 1 else 0]) from rfl]
    rw [nlAttrs_cons e 1 _ _ (by decide) (by simp only [nlAttr_length, List.length_append, store_length, List.length_singleton]; decide)]
    unfold statusLoop
    have hin : nlAttrs e (nlAttr e 1 (store e 4 d.1) ++ nlAttr e 2 [if d.2 then 1 else 0]) =
        [(1, store e 4 d.1), (2, [if d.2 then 1 else 0])] := by
      rw [nlAttrs_cons e 1 _ _ (by decide) (by rw [store_length]; decide)]
      have := nlAttrs_cons e 2 [if d.2 then 1 else 0] [] (by decide) (by simp)
      rw [List.append_nil] at this
      rw [this, nlAttrs_nil]
    rw [hin]
    have hpol : ([(1, store e 4 d.1), (2, [if d.2 then 1 else 0])] : List (Nat × List Byte)).all statusPolicy = true := by
      simp [statusPolicy, store_length]
    have hf1 : nlFind [(1, store e 4 d.1), (2, [if d.2 then (1 : Byte) else 0])] 1 = some (store e 4 d.1) := rfl
    have hf2 : nlFind [(1, store e 4 d.1), (2, [if d.2 then (1 : Byte) else 0])] 2 = some [if d.2 then 1 else 0] := rfl
    rw [if_neg (by simp), hpol, hf1, hf2]
    dsimp only
    rw [if_neg (by simp), ih]
    have h1 : load e ((store e 4 d.1).take 4) = d.1 := by
      rw [List.take_of_length_le (by rw [store_length]; omega), load_store]
      exact Nat.mod_eq_of_lt (by have := hd d (.head _); omega)
    have h2 : load e (([if d.2 then (1 : Byte) else 0]).take 1) = if d.2 then 1 else 0 := by
      cases e <;> cases d.2 <;> rfl
    rw [h1, h2, statusLine_device d (hd d (.head _))]

/-- Decimal text is what `Decimal` says, without leading zeroes. -/
theorem decText_decimal (n : Nat) : Decimal (decText n) n ∧ (10 ≤ n → (decText n).head? ≠ some 48) := by
  induction n using Nat.strongRecOn with
  | ind n ih =>
    rw [decText]
    by_cases h : n < 10
    · rw [if_pos h]
      have hv : (UInt8.ofNat (48 + n)).toNat = 48 + n := by
        rw [UInt8.toNat_ofNat']; exact Nat.mod_eq_of_lt (by omega)
      refine ⟨⟨by simp, ?_, ?_⟩, fun h2 => by omega⟩
      · intro d hd
        rw [List.mem_singleton] at hd
        subst hd
        constructor <;> rw [UInt8.le_iff_toNat_le, hv]
        · show 48 ≤ _; omega
        · show _ ≤ 57; omega
      · simp only [List.foldl_cons, List.foldl_nil, hv]; omega
    · rw [if_neg h]
      obtain ⟨⟨h1, h2, h3⟩, h4⟩ := ih (n / 10) (by omega)
      have hv : (UInt8.ofNat (48 + n % 10)).toNat = 48 + n % 10 := by
        rw [UInt8.toNat_ofNat']; exact Nat.mod_eq_of_lt (by omega)
      refine ⟨⟨by simp, ?_, ?_⟩, fun _ => ?_⟩
      · intro d hd
        rw [List.mem_append, List.mem_singleton] at hd
        rcases hd with hd | hd
        · exact h2 d hd
        · subst hd
          constructor <;> rw [UInt8.le_iff_toNat_le, hv]
          · show 48 ≤ _; omega
          · show _ ≤ 57; omega
      · rw [List.foldl_append, h3]
        simp only [List.foldl_cons, List.foldl_nil, hv]; omega
      · rw [List.head?_append, Option.or_of_isSome (by rw [List.isSome_head?]; exact h1)]
        by_cases h5 : 10 ≤ n / 10
        · exact h4 h5
        · rw [decText, if_pos (by omega)]
          have hv : (UInt8.ofNat (48 + n / 10)).toNat = 48 + n / 10 := by
            rw [UInt8.toNat_ofNat']; exact Nat.mod_eq_of_lt (by omega)
          intro hx
          simp only [List.head?_cons, Option.some.injEq] at hx
          have := congrArg UInt8.toNat hx
          rw [hv] at this
          have h48 : (48 : UInt8).toNat = 48 := rfl
          omega

theorem netlinkIndex_decimal {t : List Byte} {i : Nat} (h : Decimal t i) (hi : i < 2 ^ 31) : netlinkIndex (ascii "/dev/nbd" ++ t) = some (i : Int) := by
  have hp : (ascii "/dev/nbd").isPrefixOf (ascii "/dev/nbd" ++ t) = true := by
    rw [List.isPrefixOf_iff_prefix]; exact List.prefix_append _ _
  have hd : (ascii "/dev/nbd" ++ t).drop 8 = t := List.drop_left' rfl
  have hs := Props.strtolInt_decimal h hi
  obtain ⟨h1, h2, -⟩ := h
  rcases t with _ | ⟨b, bs⟩
  · exact absurd rfl h1
  have hb := h2 b (.head _)
  rw [UInt8.le_iff_toNat_le, UInt8.le_iff_toNat_le] at hb
  have e1 : (48 : UInt8).toNat = 48 := rfl
  have e2 : (57 : UInt8).toNat = 57 := rfl
  rw [e1, e2] at hb
  have hne : ∀ x : Byte, x.toNat < 48 → b ≠ x := by rintro x hx rfl; omega
  have hsp : isSpace b = false := by
    unfold isSpace
    rw [decide_eq_false_iff_not]
    rintro (h | ⟨-, h⟩)
    · exact hne _ (by decide) h
    · rw [UInt8.le_iff_toNat_le] at h
      have : (13 : UInt8).toNat = 13 := rfl
      omega
  have hdw : ((b :: bs).dropWhile fun b => decide (b = 32 ∨ (9 ≤ b ∧ b ≤ 13))) = b :: bs := by
    rw [List.dropWhile_cons]
    rw [if_neg]
    rw [decide_eq_true_eq]
    rintro (h | ⟨-, h⟩)
    · exact hne _ (by decide) h
    · rw [UInt8.le_iff_toNat_le] at h
      have : (13 : UInt8).toNat = 13 := rfl
      omega
  have hok : netlinkDevOk (ascii "/dev/nbd" ++ b :: bs) = true := by
    unfold netlinkDevOk
    rw [hp, hd, hdw, Bool.true_and]
    split
    · rename_i hh; exact absurd (List.cons.inj hh).1 (hne _ (by decide))
    · rename_i hh; exact absurd (List.cons.inj hh).1 (hne _ (by decide))
    · rename_i hh
      obtain ⟨rfl, -⟩ := List.cons.inj hh
      simp only [UInt8.le_iff_toNat_le, e1, e2, decide_eq_true_eq]
      exact hb
    · rename_i hh; cases hh
  unfold netlinkIndex
  rw [hok, if_pos rfl, hd, List.dropWhile_cons, hsp]
  simp only [Bool.false_eq_true, if_false]
  rw [hs]

namespace Props

/-- **C94** (partial: arguments that are names of devices; `C94_false_name`). Without an argument nbd-get-status asks about all devices, with
the name of a device about that one, and it prints one line for each device in the kernel's answer, in order, with its state. The status is 0
exactly if the kernel reports success. (A netlink attribute cannot hold more devices.) -/
theorem C94_partial (e : Endian) (k : StKernel) (hf : k.family = true) (argv : List (List Byte)) (n : Option Nat)
    (hargv : argv = [] ∧ n = none ∨ ∃ i t rest, n = some i ∧ i < 2 ^ 31 ∧ Decimal t i ∧ argv = (ascii "/dev/nbd" ++ t) :: rest)
    (ds : List (Nat × Bool)) (hd : ∀ d ∈ ds, d.1 < 2 ^ 31) (hlen : 20 * ds.length + 4 < 2 ^ 16) (ok : Bool)
    (hk : k.answer n = ([nlStatus e ds], ok)) :
    getStatus e k argv = (some n, (ds.map deviceLine).flatten, .exit (if ok then 0 else 1)) := by
  have hcb : statusAll e [nlStatus e ds] = ((ds.map deviceLine).flatten, .going) := by
    have hll : ((ds.map (nlDevice e)).flatten).length = 20 * ds.length := by
      clear hd hlen hk
      induction ds with
      | nil => rfl
      | cons d ds ih => simp only [List.map_cons, List.flatten_cons, List.length_append, ih, nlDevice_length, List.length_cons]; omega
    have ha := nlAttrs_cons e 9 ((ds.map (nlDevice e)).flatten) [] (by decide) (by omega)
    rw [List.append_nil] at ha
    have hc : statusCallback e (nlStatus e ds) = ((ds.map deviceLine).flatten, .going) := by
      unfold statusCallback nlStatus
      rw [ha, nlAttrs_nil]
      show statusLoop e (nlAttrs e _) = _
      exact statusLoop_devices e ds hd
    unfold statusAll
    rw [hc]
    simp only [statusAll, List.append_nil]
  rcases hargv with ⟨rfl, rfl⟩ | ⟨i, t, rest, rfl, hi, ht, rfl⟩
  · unfold getStatus
    simp only [hf, Bool.not_true, Bool.false_eq_true, if_false]
    rw [if_neg (by decide), hk]
    simp only [hcb]
  · unfold getStatus
    simp only [hf, Bool.not_true, Bool.false_eq_true, if_false, netlinkIndex_decimal ht hi]
    rw [if_pos (by omega), Int.toNat_natCast, hk]
    simp only [hcb]

/-- A word that is not the name of a device is refused, and the kernel is not asked. -/
theorem C94_refused (e : Endian) (k : StKernel) (w : List Byte) (rest : List (List Byte)) (h : ¬ ascii "/dev/nbd" <+: w) :
    getStatus e k (w :: rest) = (none, [], .exit 1) := by
  have : netlinkIndex w = none := by
    unfold netlinkIndex netlinkDevOk
    rw [if_neg]
    rw [Bool.and_eq_true, List.isPrefixOf_iff_prefix]
    exact fun hh => h hh.1
  unfold getStatus
  simp only [this]

/-- **C94 does not hold** of other names that begin with /dev/nbd: a negative number stands for all devices, what follows the number is
ignored, as are its upper bits; whatever the kernel answers. -/
theorem C94_false_name (e : Endian) (k : StKernel) (hf : k.family = true) :
    (getStatus e k [ascii "/dev/nbd-1"]).1 = some none ∧ (getStatus e k [ascii "/dev/nbd5p1"]).1 = some (some 5) ∧
      (getStatus e k [ascii "/dev/nbd4294967296"]).1 = some (some 0) := by
  have h : ∀ w i, netlinkIndex w = some i → (getStatus e k [w]).1 = some (if 0 ≤ i then some i.toNat else none) := by
    intro w i hw
    unfold getStatus
    simp only [hw, hf, Bool.not_true, Bool.false_eq_true, if_false]
    split <;> rfl
  exact ⟨h _ (-1) (by decide +kernel), h _ 5 (by decide +kernel), h _ 0 (by decide +kernel)⟩

/-- **The hypotheses.** Two devices. -/
example : getStatus .little ⟨true, fun _ => ([nlStatus .little [(0, true), (12, false)]], true)⟩ [] =
    (some none, ascii "/dev/nbd0: connected\n/dev/nbd12: disconnected\n", .exit 0) := by decide +kernel

/-- An answer without a list of devices would crash it. -/
example : (getStatus .little ⟨true, fun _ => ([[]], true)⟩ []).2.2 = .ub := by decide +kernel

end Props
end Nbd
