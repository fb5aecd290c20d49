import Verif.SchedFrame
import Verif.Props.SpliceKept
/-! # C07 with several worker threads and crashes -/

set_option autoImplicit false

namespace Nbd
namespace Props
open Spec

theorem poss_of_survives {ex : Export} {w : World} {i : Nat} {y : Byte} {x : FileId × Nat} (h : Survives ex w i y) (hi : i < ex.exportsize)
    (hx : home ex i = some x) (b : Byte) (hb : Poss w x b) : b = y := by
  obtain ⟨w', h1, h2⟩ := hb.crash
  have := h w' h1
  unfold view at this
  rw [if_pos hi, hx] at this
  exact h2.symm.trans this

/-- A request that is not about byte `i`, or whose range is not inside the export, leaves the stored byte alone. -/
theorem requestS_leaves (e : Endian) (cl : Client) (hcl : Spliced cl) (lg : Bool) (en : Nat) (j : Job) (hj : j.Fits) (i : Nat)
    (hi : i < cl.ex.exportsize) (x : FileId × Nat) (hx : home cl.ex i = some x)
    (hn : Touches (asked j) i → cl.ex.exportsize < (asked j).start + (asked j).len) :
    (requestS e cl lg en j.req j.payload).Keep (· ≠ x) := by
  by_cases ht : j.req.type < 262144
  · by_cases hc : Changes j.req i
    · have hout : cl.ex.exportsize < j.req.start + j.req.len := by
        have := hn ⟨by simp only [asked, cmdOf, ht, if_true]; exact hc.1, hc.2⟩
        exact this
      have hbad : badRange cl j.req = true := by
        cases hb : badRange cl j.req with
        | true => rfl
        | false =>
          have := inRange hcl.plain.good hj.1 hb
          omega
      have h1 := hc.1
      have hfl : (j.req.type - j.req.type % 65536) / 65536 / 4 = 0 := by omega
      simp only [List.mem_cons, List.not_mem_nil, or_false] at h1
      unfold requestS requestP
      rcases h1 with h1 | h1 | h1 <;>
        simp only [h1] at hfl <;>
        simp only [h1, hfl, hbad, CMD_READ, CMD_WRITE, CMD_FLUSH, CMD_TRIM, CMD_WRITE_ZEROES, if_true, if_false, Nat.reduceEqDiff, ne_eq,
          not_true_eq_false] <;>
        (try split) <;> first | exact sendReplyP_keep _ _ _ trivial | (split <;> exact sendReplyP_keep _ _ _ trivial)
    · refine (requestS_keep e cl hcl lg en j hj).mono ?_
      intro y hy hyx
      subst hyx
      exact hc (hy i hi hx)
  · unfold requestS requestP
    dsimp only
    rw [if_pos (by omega), if_pos (by omega)]
    exact sendReplyP_keep _ _ _ trivial

/-- **C07** with several worker threads, and crashes (partial: one export of plain files, none of them empty, with or without splicing). Any number of clients send
any bytes; their requests are worked on at the same time, one system call per step, in any order; the kernel answers anything. A byte
of the export that is safely on the disk, and is in the range of no write, trim or write-zeroes request - or only of requests whose ranges are not inside the
export -, has the same value at every moment, and also after a crash at any moment. -/
theorem C07_threads_partial (e : Endian) (ex : Export) (cls : Nat → Client) (lgs : Nat → Bool) (hcl : OneSplice ex cls)
    (S T : System World) (hf : ∀ s ∈ S.sessions, s.Fresh) (tr : List (Nat × Ext))
    (hx : Exec (fun sid => spliceServer e (cls sid) (lgs sid)) S tr T) (i : Nat) (y : Byte) (hi : i < ex.exportsize)
    (hbefore : Survives ex S.sh.st i y)
    (hothers : ∀ sid j, (sid, .recv j) ∈ tr → Touches (asked j) i → ex.exportsize < (asked j).start + (asked j).len) :
    view ex T.sh.st i = y ∧ Survives ex T.sh.st i y := by
  cases hh : home ex i with
  | none =>
    have hv : ∀ w, view ex w i = view ex S.sh.st i := by
      intro w
      unfold view
      rw [if_pos hi, if_pos hi, hh]
    obtain ⟨w0, h0⟩ : ∃ w0, Crash S.sh.st w0 := by
      obtain ⟨w0, h0, _⟩ := (poss_content S.sh.st (.fd 0, 0)).crash
      exact ⟨w0, h0⟩
    have := hbefore w0 h0
    rw [hv] at this
    exact ⟨(hv _).trans this, fun w' _ => (hv _).trans this⟩
  | some x =>
    have hk := (hx.keeps (U := (· ≠ x)) (fun sid st st' stream f h => fetch_keeps _ e (cls sid) st st' stream f h) hf
      (fun sid j hj en => by
        refine requestS_leaves e (cls sid) (hcl.flat sid) (lgs sid) en j
          (Exec.recv_wf (J := fun _ => Job.Fits) (splice_meets e ex cls lgs hcl) hf hx sid j hj) i ?_ x ?_ ?_
        · rw [hcl.same]; exact hi
        · rw [hcl.same]; exact hh
        · rw [hcl.same]; exact hothers sid j hj)).1
    have hposs : ∀ b, Poss T.sh.st x b → b = y := fun b hb =>
      poss_of_survives hbefore hi hh b (hk.poss x (by simp) b hb)
    refine ⟨?_, survives_of_poss hi hh hposs⟩
    unfold view
    rw [if_pos hi, hh]
    exact hposs _ (poss_content _ _)

/-- Two writes and a flush go on at the same time; byte 6, which is in neither write, keeps its value. -/
example : ∃ T, Exec (fun sid => spliceServer .little (spliceCls sid) false) (keptSys 1)
    [(0, .recv (pipedW 1)), (0, .sent 0 keptOk), (0, .recv pipedW2), (1, .recv keptF), (1, .sent 0 keptOk)] T ∧
    view spliceEx T.sh.st 6 = 2 ∧ Survives spliceEx T.sh.st 6 2 := by
  obtain ⟨T, hT⟩ := kept_splice_exec (keptSys 1) keptTurns
    [(0, .recv (pipedW 1)), (0, .sent 0 keptOk), (0, .recv pipedW2), (1, .recv keptF), (1, .sent 0 keptOk)] (by decide +kernel)
  refine ⟨T, hT, C07_threads_partial .little spliceEx spliceCls (fun _ => false) spliceCls_one (keptSys 1) T (keptSys_fresh 1) _ hT 6 2
    (by decide) ?_ ?_⟩
  · refine survives_settled (by decide +kernel) ?_
    intro x _ hx b hb
    have h6 : home spliceEx 6 = some (.fd 4, 1) := by decide +kernel
    rw [h6] at hx
    cases hx
    obtain ⟨f, hf, hb⟩ := hb
    have : f = some (Demo.file 6) := by
      simpa [entries, keptSys, Demo.world, Demo.file, File.clean] using hf
    subst this
    rcases hb with hb | hb
    · exact hb
    · exact absurd hb (by simp [Demo.file, File.clean])
  · intro sid j hj ht
    simp only [List.mem_cons, List.not_mem_nil, or_false, Prod.mk.injEq, Ext.recv.injEq, reduceCtorEq, and_false, false_or] at hj
    obtain ⟨-, h1, h2⟩ := ht
    rcases hj with ⟨-, rfl⟩ | ⟨-, rfl⟩ | ⟨-, rfl⟩
    · exact absurd h2 (by decide)
    · exact absurd h1 (by decide)
    · exact absurd h2 (by decide)

end Props
end Nbd
