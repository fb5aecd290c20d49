import Verif.SafeLemmas
/-!
# Concrete sessions used as examples beside the property theorems
-/

namespace Nbd.Demo

/-- A file of `n` bytes, no two neighbours equal, none zero. -/
def file (n : Nat) : File := File.clean (fun i => UInt8.ofNat (i % 251 + 1)) n

/-- A kernel that transfers one to three bytes at a time. -/
def stingy : Nat → Kr := fun t => .done (t % 3 + 1)

/-- Two files of five and six bytes. -/
def world : World :=
  ⟨fun id => if id = .fd 3 then some (file 5) else if id = .fd 4 then some (file 6) else none,
   stingy, 0, 0, fun _ => []⟩

/-- The two files as one export of eleven bytes. -/
def ex : Export := ⟨F_MULTIFILE, 11, [⟨3, 0⟩, ⟨4, 5⟩], []⟩

/-- A session on it. -/
def client (structured : Bool) : Client := ⟨ex, false, [], 0, 0, 0, structured, false⟩

/-- The same export, read-only. -/
def roClient : Client := ⟨⟨F_MULTIFILE ||| F_READONLY, 11, [⟨3, 0⟩, ⟨4, 5⟩], []⟩, false, [], 0, 0, 0, true, false⟩

theorem ex_good : GoodExport ex where
  size := by decide
  files _ := ⟨by decide, by decide, by decide⟩

theorem client_plain (s : Bool) : Plain (client s) where
  good := ex_good
  paged := by cases s <;> decide

/-- A cookie. -/
def cookie : List Byte := [1, 2, 3, 4, 5, 6, 7, 8]

/-- A request without payload. -/
def request (type start len : Nat) : Spec.Sent := ⟨⟨0x25609513, type, cookie, start, len⟩, []⟩

/-- A write. -/
def write (start : Nat) (data : List Byte) : Spec.Sent :=
  ⟨⟨0x25609513, 1, cookie, start, data.length⟩, data⟩

theorem read_ok : (request 0 2 8).Ok :=
  ⟨⟨by decide, by decide, by decide, by decide, by decide⟩, rfl, by decide, by decide⟩

theorem write_ok : (write 3 [10, 11, 12, 13]).Ok :=
  ⟨⟨by decide, by decide, by decide, by decide, by decide⟩, rfl, by decide, by decide⟩

/-- A file of 128 MiB, all ones. -/
def bigWorld : World :=
  ⟨fun id => if id = .fd 3 then some (File.clean (fun _ => 1) (2 ^ 27)) else none,
   fun _ => .done (2 ^ 31), 0, 0, fun _ => []⟩

/-- A session on it. -/
def bigClient : Client := ⟨⟨0, 2 ^ 27, [⟨3, 0⟩], []⟩, false, [], 0, 0, 0, false, false⟩

theorem big_plain : Plain bigClient where
  good := ⟨by decide, fun _ => ⟨by decide, by decide, by decide⟩⟩
  paged := by decide

end Nbd.Demo
