import Verif.CowAny
import Verif.Props.Cow
/-!
# Copy-on-write exports on a kernel whose calls may fail or be short: C12, C15

`CowRun` (Verif/CowAny.lean) is the specification: a flat array, except that reads and flushes may fail, and that nothing is said
after a write that was answered with an error (`C12_false_failure` shows what can happen then).
-/

set_option autoImplicit false

namespace Nbd.Props

open Nbd.Spec

/-- **C12**, **C15** (partial: the same exports and commands as `C12_partial`). No assumption on which system calls fail and how many
bytes the others move, except that a read answers "zero bytes" only at the end of a file; and no assumption on the other sessions,
which may send any bytes and may be in any state. What client `i` receives is the wire form of what a private flat copy of the
original export answers to that client's own commands: a read that succeeds returns all the bytes and the right ones (as far as
data chunks were sent before an error, these, too, are right), a write that succeeds was stored completely, a read or a flush that
fails changes nothing. This is so until a write of the same session is answered with an error. -/
theorem C12_any_partial (e : Endian) (ex : Export) (hx : CowExport ex) (cls : Nat → Client) (w : World) (i : Nat)
    (hfresh : FreshCow ex (cls i) w)
    (hcow : ∀ j, has (cls j).ex.flags F_COPYONWRITE = true ∧ has (cls j).ex.flags F_SPLICE = false)
    (hdist : ∀ j, j ≠ i → (cls i).difffile ≠ (cls j).difffile)
    (hbase : ∀ j a x, home ex a = some x → x.1 ≠ .fd (cls j).difffile)
    (hb : Backed ex w) (hk : NoEarlyEof w)
    (sched : List (Nat × List Byte)) (mine : List Sent)
    (hmine : (sched.filter (fun x => x.1 == i)).map Prod.snd = mine.map Sent.encode) (hs : ∀ s ∈ mine, s.Ok)
    (ht : AllTractable (cls i).structured (mine.map Sent.cmd)) :
    ∃ rs failed rest, sentTo i (turns e sched cls w).1 = wire rs ++ rest ∧
      CowRun ex.exportsize (has ex.flags F_READONLY || has ex.flags F_AUTOREADONLY) (cls i).structured (original ex w)
        (mine.map Sent.cmd) rs failed ∧ (failed = false → rest = []) := by
  obtain ⟨hok, hview, hclean⟩ := fresh_ok hfresh hx (hbase i)
  have hser := hfresh.serves
  obtain ⟨rs, bad, rest, h1, h2, h3⟩ := turns_any e i sched cls w [] mine hmine hs hcow hok hk
    (by rw [hser]; exact hb) hdist (by rw [hser]; exact hbase) (fun q hq => absurd hq (hclean q)) ht
  have hbw : badWrite (cls i) = (has ex.flags F_READONLY || has ex.flags F_AUTOREADONLY) := by
    unfold badWrite; rw [hser]
  rw [hview, hser, hbw] at h2
  exact ⟨rs, bad, rest, h1, h2, h3⟩

/-! ### A concrete case -/

/-- The files of `cowWorld`, and a kernel on which every third call fails and the others move between 1 and 3000 bytes. -/
def cowFlaky : World := { cowWorld with orc := fun t => if t % 3 = 0 then .err 5 else .done (1 + t % 3000) }

theorem cowFlaky_eof : NoEarlyEof cowFlaky := by
  intro t h
  have h : (if t % 3 = 0 then Kr.err 5 else Kr.done (1 + t % 3000)) = .done 0 := h
  split at h
  · cases h
  · have := Kr.done.inj h
    omega

/-- Client 0 as in `cowSched`; client 1 sends bytes that are not even a request. -/
def cowMixed : List (Nat × List Byte) :=
  [(0, (Demo.write 4096 [7]).encode), (1, [1, 2, 3]), (0, (Demo.request 0 4095 2).encode)]

-- The hypotheses of C12_any are met on this kernel.
example (e : Endian) := C12_any_partial e cowEx cowEx_ok (cowClient false) cowFlaky 0
  { cowClient_fresh false 0 with file := (cowClient_fresh false 0).file }
  (fun _ => ⟨(by decide : has cowEx.flags F_COPYONWRITE = true), (by decide : has cowEx.flags F_SPLICE = false)⟩)
  (fun j hj => (cowClient_own false).1 0 j (Ne.symm hj)) (cowClient_own false).2 cowEx_backed cowFlaky_eof cowMixed
  [Demo.write 4096 [7], Demo.request 0 4095 2] rfl
  (fun s h => by
    simp only [List.mem_cons, List.not_mem_nil, or_false] at h
    rcases h with rfl | rfl
    · exact cowSched_ok (0, _) (.head _)
    · exact cowSched_ok (0, _) (.tail _ (.tail _ (.head _))))
  (cowSched_tractable 0)

end Nbd.Props
