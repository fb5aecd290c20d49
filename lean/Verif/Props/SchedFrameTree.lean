import Verif.SchedFrameTree
import Verif.SchedTreeGood
import Verif.Props.SchedFrame
import Verif.Props.TreeRace
/-! # C07 on tree exports served by several processes at once, and crashes -/

set_option autoImplicit false

namespace Nbd
namespace Props
open Spec

/-- **C07** on writable tree exports with requests processed at the same time, and crashes. Any number of clients send any bytes; every
system call on a block file is a step; the kernel answers anything. A byte of the export that is safely on the disk, and is in the range
of no write, trim or write-zeroes request - or only of requests whose ranges are not inside the export -, has the same value at every
moment, and also after a crash at any moment. (Partial: a trim is one step, and one worker thread per client, see `SchedTree`.) -/
theorem C07_threads_tree_partial (e : Endian) (cl : Client) (hcl : Treefile cl) (hwr : has cl.ex.flags F_READONLY = false) (lg : Bool)
    (S T : System World) (hf : ∀ s ∈ S.sessions, s.Fresh) (tr : List (Nat × Ext))
    (hx : Exec (fun _ => treeServer e cl lg) S tr T) (i : Nat) (y : Byte) (hi : i < cl.ex.exportsize)
    (hbefore : Survives cl.ex S.sh.st i y)
    (hothers : ∀ sid j, (sid, .recv j) ∈ tr → Touches (asked j) i → cl.ex.exportsize < (asked j).start + (asked j).len) :
    view cl.ex T.sh.st i = y ∧ Survives cl.ex T.sh.st i y := by
  cases hh : home cl.ex i with
  | none =>
    have hv : ∀ w, view cl.ex w i = view cl.ex S.sh.st i := by
      intro w
      unfold view
      rw [if_pos hi, if_pos hi, hh]
    obtain ⟨w0, h0⟩ : ∃ w0, Crash S.sh.st w0 := by
      obtain ⟨w0, h0, _⟩ := (poss_content S.sh.st (.fd 0, 0)).crash
      exact ⟨w0, h0⟩
    have := hbefore w0 h0
    rw [hv] at this
    exact ⟨(hv _).trans this, fun w' _ => (hv _).trans this⟩
  | some x =>
    have hposs : Sure x y T.sh.st := (hx.keepsSure (I := Sure x y)
      (fun sid st st' stream f h hs => (fetch_keeps (· ≠ x) e cl st st' stream f h).sure hs) hf
      (fun b hb => poss_of_survives hbefore hi hh b hb)
      (fun sid j hj en => by
        have hwf : j.Wf := Exec.recv_wf (J := fun _ => Job.Wf) (fun _ => treeServer_meets e cl hcl hwr lg) hf hx sid j hj
        by_cases ht : j.req.type < 262144
        · exact requestT_sure e cl hcl lg en j hwf i hi x y hh
            (fun hc => hothers sid j hj ⟨by simp only [asked, cmdOf, ht, if_true]; exact hc.1, hc.2⟩)
        · show Prog.Keeps _ (requestT e cl lg en j.req j.payload)
          unfold requestT
          dsimp only
          rw [if_pos (by omega)]
          exact (sendReplyP_keep _ _ (.done _) trivial).sure)).1
    refine ⟨?_, survives_of_poss hi hh hposs⟩
    unfold view
    rw [if_pos hi, hh]
    exact hposs _ (poss_content _ _)

/-- The race of `C72_tree_false`: a block comes into being while it is written and read. The bytes in front of the write are kept. -/
example : ∃ T, Exec (fun _ => treeServer .little demoTree false) raceSys
    [(0, .recv raceR), (1, .recv raceW), (1, .sent 0 keptOk),
      (0, .sent 0 ⟨keptOk.hdr, [0, 0, 0, 0]⟩), (2, .recv raceR2), (2, .sent 0 raceBack)] T ∧
    view demoTree.ex T.sh.st 4091 = 0 ∧ Survives demoTree.ex T.sh.st 4091 0 := by
  obtain ⟨T, hT⟩ := race_exec
  refine ⟨T, hT, C07_threads_tree_partial .little demoTree demoTree_treefile (by decide) false raceSys T race_fresh _ hT 4091 0
    (by decide) ?_ ?_⟩
  · refine survives_settled (by decide +kernel) ?_
    intro x _ _ b hb
    obtain ⟨f, hf, hb⟩ := hb
    have : f = none := by
      obtain ⟨id, o⟩ := x
      cases id <;> simpa [entries, raceSys, demoEmpty] using hf
    subst this
    exact hb
  · intro sid j hj ht
    simp only [List.mem_cons, List.not_mem_nil, or_false, Prod.mk.injEq, Ext.recv.injEq, reduceCtorEq, and_false, false_or] at hj
    obtain ⟨h0, h1, h2⟩ := ht
    rcases hj with ⟨-, rfl⟩ | ⟨-, rfl⟩ | ⟨-, rfl⟩
    · exact absurd h2 (by decide)
    · exact absurd h1 (by decide)
    · exact absurd h1 (by decide)

/-- A tree whose first block is stored, and a read and a write of other bytes of it: its last byte is kept. -/
def storedTree : World :=
  ⟨fun id => match treeFilename demoTree.ex.name demoTree.ex.exportsize 0 with
     | some p => if id = .path p then some (File.clean (fun i => UInt8.ofNat (i % 251 + 1)) 4096) else none
     | none => none,
   fun _ => .done 4096, 0, 0, fun _ => []⟩

/-- The read and the write. -/
def storedSys : System World :=
  ⟨⟨storedTree, none, []⟩,
   [Session.fresh (Demo.request 0 4092 4).encode [0] 0, Session.fresh (Demo.write 8 [20, 21]).encode [0] 0]⟩

/-- They are worked on in turn. -/
def storedTurns : List (Nat × Move) :=
  [(0, .main), (1, .main)] ++ (List.replicate 7 [(0, .work 0 99), (1, .work 0 99)]).flatten

/-- The write of the example. -/
def storedW : Job := ⟨0, ⟨328556581, 1, Demo.cookie, 8, 2⟩, .data [20, 21]⟩

example : ∃ T, Exec (fun _ => treeServer .little demoTree false) storedSys
    [(0, .recv raceR2), (1, .recv storedW), (0, .sent 0 ⟨keptOk.hdr, [77, 78, 79, 80]⟩), (1, .sent 0 keptOk)] T ∧
    view demoTree.ex T.sh.st 4095 = 80 ∧ Survives demoTree.ex T.sh.st 4095 80 := by
  have hp : (System.play (fun _ => treeServer .little demoTree false) storedTurns [] storedSys).map Prod.fst =
      some [(0, .recv raceR2), (1, .recv storedW), (0, .sent 0 ⟨keptOk.hdr, [77, 78, 79, 80]⟩), (1, .sent 0 keptOk)] := by
    decide +kernel
  cases hq : System.play (fun _ => treeServer .little demoTree false) storedTurns [] storedSys with
  | none => rw [hq] at hp; cases hp
  | some q =>
    obtain ⟨tr', T⟩ := q
    rw [hq] at hp
    cases hp
    have hT := System.play_start _ storedSys storedTurns _ hq
    refine ⟨T, hT, C07_threads_tree_partial .little demoTree demoTree_treefile (by decide) false storedSys T ?_ _ hT 4095 80
      (by decide) ?_ ?_⟩
    · intro s hs
      simp only [storedSys, List.mem_cons, List.not_mem_nil, or_false] at hs
      rcases hs with rfl | rfl
      · exact ⟨_, _, _, rfl⟩
      · exact ⟨_, _, _, rfl⟩
    · refine survives_settled (by decide +kernel) ?_
      intro x _ _ b hb
      obtain ⟨f, hf, hb⟩ := hb
      have hfx : f = storedTree.files x.1 := by
        obtain ⟨id, o⟩ := x
        cases id <;> simpa [entries, storedSys, storedTree] using hf
      unfold content
      rw [show storedSys.sh.st.files x.1 = f from hfx.symm]
      cases f with
      | none => exact hb
      | some f =>
        rcases hb with hb | hb
        · exact hb
        · have hh : f.hist = fun _ => [] := by
            unfold storedTree at hfx
            dsimp only at hfx
            split at hfx
            · split at hfx
              · cases hfx; rfl
              · cases hfx
            · cases hfx
          rw [hh] at hb
          cases hb
    · intro sid j hj ht
      simp only [List.mem_cons, List.not_mem_nil, or_false, Prod.mk.injEq, Ext.recv.injEq, reduceCtorEq, and_false] at hj
      obtain ⟨h0, h1, h2⟩ := ht
      rcases hj with ⟨-, rfl⟩ | ⟨-, rfl⟩
      · exact absurd h0 (by decide)
      · exact absurd h2 (by decide)

end Props
end Nbd
