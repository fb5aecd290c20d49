import Verif.Ask
import Verif.Props.Parent
import Verif.Props.Stream
/-! # C35: the question of a child, however it is delivered -/
set_option autoImplicit false

namespace Nbd.Props
open Nbd

theorem readLen_done (rs : List RecvRes) (stream mem : List Byte) {rt : Nat} (h : 4 ≤ rt) :
    readLen rs stream mem rt = some (some (mem, stream, rs)) := by
  rw [readLen.eq_def]
  exact if_pos h

/-- **C35**, delivery (partial: the four bytes of the length arrive in one piece - they are sent in one piece - see
`C35_false_split`). However the name is cut into pieces on its way, the parent looks up the name the child sent; and it waits if it has
not arrived completely. -/
theorem C35_delivered_partial (e : Endian) (name rest : List Byte) (hz : (0 : Byte) ∉ name) (hl : name.length < 2 ^ 32 - 2)
    (k : Nat) (hk : 3 ≤ k) (rs : List RecvRes) (hrs : ∀ r ∈ rs, r = .again ∨ ∃ k, r = .got k) :
    (name.length ≤ (rs.filter (· ≠ .again)).length → readAsk e (.got k :: rs) (askBytes e name ++ rest) = .name name) ∧
    ∀ m, readAsk e (.got k :: rs) (askBytes e name ++ rest) = .name m → m = name := by
  have h4 : (store32 e (UInt32.ofNat name.length)).length = 4 := store32_length ..
  have hcount : (load32 e (store32 e (UInt32.ofNat name.length))).toNat = name.length := by
    have hn : (UInt32.ofNat name.length).toNat = name.length :=
      UInt32.toNat_ofNat_of_lt' (by show name.length < 2 ^ 32; omega)
    unfold load32 store32
    rw [load_store, hn, Nat.mod_eq_of_lt (by show name.length < 256 ^ 4; omega), hn]
  have hcstr : cstr name = name := by
    have := C35_name e name hz hl
    unfold readName askBytes at this
    rw [if_neg (by rw [List.length_append, h4]; omega), List.take_left' h4, List.drop_left' h4] at this
    simp only [hcount] at this
    rw [if_neg (by omega), List.take_length] at this
    exact Option.some.inj this
  have hlen : readLen (.got k :: rs) (askBytes e name ++ rest) [] 0 =
      some (some (store32 e (UInt32.ofNat name.length), name ++ rest, rs)) := by
    unfold askBytes
    rw [List.append_assoc]
    have hn : min (min (k + 1) 4) (store32 e (UInt32.ofNat name.length) ++ (name ++ rest)).length = 4 := by
      rw [List.length_append, h4]; omega
    rw [readLen, if_neg (by omega)]
    simp only [hn]
    rw [if_neg (by omega), List.take_left' h4, List.drop_left' h4, List.drop_nil, List.append_nil, readLen_done _ _ _ (by omega)]
  have hask : readAsk e (.got k :: rs) (askBytes e name ++ rest) =
      match readit rs (name ++ rest) name.length [] with
      | .done buf _ => .name (cstr buf)
      | .blocked => .waiting
      | _ => .gaveUp := by
    unfold readAsk
    rw [hlen]
    simp only [h4, hcount]
    rw [if_neg (by omega), if_neg (by omega)]
    rfl
  rw [hask]
  constructor
  · intro hc
    rw [C16_receive_progress rs (name ++ rest) name.length hrs hc (by simp)]
    simp only [List.take_left, hcstr]
  · intro m h
    cases hr : readit rs (name ++ rest) name.length [] with
    | done b r =>
      rw [hr] at h
      cases h
      obtain ⟨h1, h2⟩ := C16_receive _ _ _ _ _ hr
      obtain ⟨rfl, _⟩ := List.append_inj h2 (by rw [h1])
      exact hcstr
    | failed => rw [hr] at h; cases h
    | exited => rw [hr] at h; cases h
    | blocked => rw [hr] at h; cases h

/-- A name that arrives in three pieces. -/
example : readAsk .little [.got 3, .got 0, .again, .got 0, .got 9] (askBytes .little (ascii "disk")) = .name (ascii "disk") := by
  decide +kernel

/-- **C35 is false** if the length arrives in pieces: with one byte and then the rest, the parent takes other bytes for the length and
waits for more than a gigabyte that nobody will send - and while it waits, it answers nobody, whatever else arrives in that connection; with two bytes and two bytes it
uses a number half of which was never written. -/
theorem C35_false_split : ∃ name : List Byte, (0 : Byte) ∉ name ∧
    (∀ rs m, readAsk .little (.got 0 :: .got 3 :: rs) (askBytes .little name) ≠ .name m) ∧
    (∀ rs, readAsk .little (.got 1 :: .got 1 :: rs) (askBytes .little name) = .ub) := by
  refine ⟨ascii "a", by decide +kernel, ?_, ?_⟩
  · intro rs m h
    have hlen : readLen (.got 0 :: .got 3 :: rs) (askBytes .little (ascii "a")) [] 0 = some (some ([0, 0, 0, 97], [], rs)) := by
      have hb : askBytes .little (ascii "a") = [1, 0, 0, 0, 97] := by decide +kernel
      rw [hb, readLen, if_neg (by omega)]
      simp [readLen, readLen_done]
    unfold readAsk at h
    rw [hlen] at h
    simp only [List.length_cons, List.length_nil] at h
    rw [if_neg (by omega), if_neg (by decide)] at h
    rcases C16_receive_short rs [] (load32 .little [0, 0, 0, 97]).toNat (by decide) with h1 | h1 <;> rw [h1] at h <;> cases h
  · intro rs
    have hlen : readLen (.got 1 :: .got 1 :: rs) (askBytes .little (ascii "a")) [] 0 = some (some ([0, 0], [97], rs)) := by
      have hb : askBytes .little (ascii "a") = [1, 0, 0, 0, 97] := by decide +kernel
      rw [hb, readLen, if_neg (by omega)]
      simp [readLen, readLen_done]
    unfold readAsk
    rw [hlen]
    simp

end Nbd.Props
