import Verif.Props.Cow
/-!
# Copy-on-write exports: what is false (C12)
-/

set_option autoImplicit false

namespace Nbd.Props

open Nbd.Spec

-- What the two clients of the example beside `C12_partial` receive: client 1 the original bytes, client 0 its own.
example : sentTo 1 (turns .little (cowSched.map (fun x => (x.1, x.2.encode))) (cowClient false) cowWorld).1 =
    [103, 68, 102, 152, 0, 0, 0, 0, 1, 2, 3, 4, 5, 6, 7, 8, 80, 81] := by decide +kernel

example : (sentTo 0 (turns .little (cowSched.map (fun x => (x.1, x.2.encode))) (cowClient false) cowWorld).1).drop 32 =
    [80, 7] := by decide +kernel

/-! ### What is false -/

/-- What the session on `cl` does when the client sends `ss`. -/
def cowRun (cl : Client) (w : World) (ss : List Sent) : Run := mainloop .little cl w (ss.map Sent.encode).flatten

/-- **C12 is false of the code: a read that begins in a block written before.** After a one-byte write at 4095, reading bytes 4095 and
4096 — in range — makes the server send memory that was never initialised: the position in the reply does not advance past a block
that came from the diff file. -/
theorem C12_false_read : FreshCow cowEx (cowClient false 0) cowWorld ∧ NeverFails cowWorld ∧
    (cowRun (cowClient false 0) cowWorld [Demo.write 4095 [7], Demo.request 0 4095 2]).handled.length = 1 ∧
    (cowRun (cowClient false 0) cowWorld [Demo.write 4095 [7], Demo.request 0 4095 2]).ending = .ub :=
  ⟨cowClient_fresh _ _, cowWorld_fine, by decide +kernel, by decide +kernel⟩

/-- **C12 is false of the code: structured replies, a read that ends in a block written before.** The buffer for the second block is
allocated with length 0 and then filled: the server writes outside allocated memory. -/
theorem C12_false_structured : FreshCow cowEx (cowClient true 0) cowWorld ∧ NeverFails cowWorld ∧
    (cowRun (cowClient true 0) cowWorld [Demo.write 4096 [7], Demo.request 0 4095 2]).handled.length = 1 ∧
    (cowRun (cowClient true 0) cowWorld [Demo.write 4096 [7], Demo.request 0 4095 2]).ending = .ub :=
  ⟨cowClient_fresh _ _, cowWorld_fine, by decide +kernel, by decide +kernel⟩

/-- **C12 is false of the code: empty requests at offset 0.** A read of no bytes at offset 0 (or a write of none) looks up the map far
outside its bounds. -/
theorem C12_false_empty :
    (cowRun (cowClient false 0) cowWorld [Demo.request 0 0 0]).ending = .ub ∧
    (cowRun (cowClient false 0) cowWorld [Demo.write 0 []]).ending = .ub :=
  ⟨by decide +kernel, by decide +kernel⟩

/-- An export of one block and one byte. -/
def cowOdd : Export := ⟨F_COPYONWRITE, 4097, [⟨3, 0⟩], []⟩

/-- **C12 is false of the code: exports that are not a whole number of blocks.** Writing the last byte of a 4097-byte export
looks up the map outside its bounds. -/
theorem C12_false_odd : FreshCow cowOdd ⟨cowOdd, false, [4294967295], 0, 9, 0, false, false⟩ cowWorld ∧
    (cowRun ⟨cowOdd, false, [4294967295], 0, 9, 0, false, false⟩ cowWorld [Demo.write 4096 [7]]).ending = .ub :=
  ⟨⟨rfl, rfl, rfl, rfl, rfl, ⟨File.clean (fun _ => 0) 0, rfl⟩⟩, by decide +kernel⟩

/-- The two-block export with `sparse_cow`. -/
def cowSparse : Export := ⟨F_COPYONWRITE ||| F_SPARSE, 8192, [⟨3, 0⟩], []⟩

/-- **C12 is false of the code: `sparse_cow`.** Writing the second block and then the first swaps their contents: the acknowledged
writes of 7 at 4096 and 9 at 0 are read back as 9 and 7. -/
theorem C12_false_sparse :
    FreshCow cowSparse ⟨cowSparse, false, [4294967295, 4294967295], 0, 9, 0, false, false⟩ cowWorld ∧
    (cowRun ⟨cowSparse, false, [4294967295, 4294967295], 0, 9, 0, false, false⟩ cowWorld
      [Demo.write 4096 [7], Demo.write 0 [9], Demo.request 0 4096 1, Demo.request 0 0 1]).sent =
    wire [.simple 0 Demo.cookie [], .simple 0 Demo.cookie [], .simple 0 Demo.cookie [9], .simple 0 Demo.cookie [7]] :=
  ⟨⟨rfl, rfl, rfl, rfl, rfl, ⟨File.clean (fun _ => 0) 0, rfl⟩⟩, by decide +kernel⟩

/-- The same files, on a file system where one `write` to the diff file is short. -/
def cowShort : World := { cowWorld with orc := fun t => if t = 1 then .done 2 else .done (2 ^ 31) }

/-- **C12 is false of the code after a failure.** If appending the first block to the diff file was cut short and reported as an error,
a later write of 8 to the *other* block is acknowledged and then reads back as something else. -/
theorem C12_false_failure : FreshCow cowEx (cowClient false 0) cowShort ∧
    (cowRun (cowClient false 0) cowShort [Demo.write 0 [7], Demo.write 4096 [8], Demo.request 0 4096 1]).sent =
    wire [.simple 22 Demo.cookie [], .simple 0 Demo.cookie [], .simple 0 Demo.cookie [159]] :=
  ⟨⟨rfl, rfl, rfl, rfl, rfl, ⟨File.clean (fun _ => 0) 0, rfl⟩⟩, by decide +kernel⟩

end Nbd.Props
