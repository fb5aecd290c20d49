import Verif.SchedSpliceKept
import Verif.Props.SpliceLinear
import Verif.Props.Kept
/-!
# C73 on exports that use `splice(2)`

As `Verif.Props.Kept`, for exports of plain files with or without `splice = true` (`OneSplice`, `spliceServer` as in
Verif/Props/SpliceLinear.lean): the data of a write may go through a pipe.
-/

set_option autoImplicit false

namespace Nbd
namespace Props
open Spec

theorem splice_careful (e : Endian) (ex : Export) (cls : Nat → Client) (lgs : Nat → Bool) (hcl : OneSplice ex cls) (i : Nat)
    (hi : i < ex.exportsize) (x : FileId × Nat) (hx : home ex i = some x) (I : World → Prop) (hI : ∀ T w w', Keeps T w w' → I w → I w') :
    Careful (fun sid => spliceServer e (cls sid) (lgs sid)) (fun _ => Job.Fits) (fun j => Touches (asked j) i) x I where
  any sid en j hj := (requestS_keep e (cls sid) (hcl.flat sid) (lgs sid) en j hj).mono (fun _ _ => trivial)
  keep sid en j hj hn := by
    by_cases ht : j.req.type < 262144
    · refine (requestS_keep e (cls sid) (hcl.flat sid) (lgs sid) en j hj).mono ?_
      intro y hy hyx
      subst hyx
      rw [hcl.same sid] at hy
      obtain ⟨h1, h2, h3⟩ := hy i hi hx
      exact hn ⟨by simp only [asked, cmdOf, ht, if_true]; exact h1, h2, h3⟩
    · show Prog.Keep _ (requestS e (cls sid) (lgs sid) en j.req j.payload)
      unfold requestS requestP
      dsimp only
      rw [if_pos (by omega), if_pos (by omega)]
      exact sendReplyP_keep _ _ _ trivial
  one sid en j hj ht := by
    refine requestS_oneMsg e (cls sid) (lgs sid) en j hj ?_
    obtain ⟨⟨h1, _⟩, _⟩ := asked_touches ht
    intro h0
    rw [h0] at h1
    simp at h1
  take sid st st' stream f h := fetch_keeps _ e (cls sid) st st' stream f h
  inv := hI

theorem splice_meets (e : Endian) (ex : Export) (cls : Nat → Client) (lgs : Nat → Bool) (hcl : OneSplice ex cls) (sid : Nat) :
    (spliceServer e (cls sid) (lgs sid)).Meets (view ex) Job.Fits
      (fun j => Complete ex.exportsize (badWrite (cls sid)) [(cls sid).structured, false] (asked j))
      (fun j => Partial ex.exportsize (badWrite (cls sid)) [(cls sid).structured, false] (asked j)) := by
  have := spliceServer_meets e (cls sid) (hcl.flat sid) (lgs sid)
  rw [hcl.same sid] at this
  exact this

/-- **C73.** When the success of a write was sent, and after that a flush was received, on the same connection or another, and the
success of the flush was sent, then every byte of the write survives a crash from then on, provided no other request that may change
this byte is in flight: every other one received so far had been answered before the write was received. Nothing is assumed about
the kernel: calls may fail and transfer any number of bytes, and a pipe may be had or not. -/
theorem C73_splice_flush_partial (e : Endian) (ex : Export) (cls : Nat → Client) (lgs : Nat → Bool) (hcl : OneSplice ex cls)
    (S T : System World) (hf : ∀ s ∈ S.sessions, s.Fresh) (a b b' c d : List (Nat × Ext)) (s1 s2 : Nat) (W F : Job) (ok ok' : Msg)
    (hx : Exec (fun sid => spliceServer e (cls sid) (lgs sid)) S
      (a ++ (s1, .recv W) :: (b ++ (s1, .sent W.id ok) :: (b' ++ (s2, .recv F) :: (c ++ (s2, .sent F.id ok') :: d)))) T)
    (i : Nat) (y : Byte) (hW : Stores (asked W) i y) (hok : ok.bytes = (Reply.simple 0 (asked W).cookie []).encode)
    (hF : (asked F).code = 3) (hok' : ok'.bytes = (Reply.simple 0 (asked F).cookie []).encode)
    (hothers : ∀ sid j, (sid, .recv j) ∈ a ++ b ++ b' ++ c ++ d → Touches (asked j) i → ∃ m, (sid, .sent j.id m) ∈ a) :
    Survives ex T.sh.st i y := by
  refine survives_settled (C72_splice_final_contents_partial e ex cls lgs hcl S T hf a b _ s1 W ok hx i y hW hok
    (others_final hF hothers)) ?_
  intro x hi hhome
  have hfit : F.Fits := Exec.recv_wf (J := fun _ => Job.Fits) (splice_meets e ex cls lgs hcl) hf hx s2 F (by simp)
  obtain ⟨h, h1, h2, _⟩ := splice_history e ex cls lgs hcl S T _ hf hx
  refine flush_settles (splice_meets e ex cls lgs hcl) hf a b b' c d s1 s2 W F ok ok' hx
    (fun p q htr sid j m => received_before ⟨h, h1, h2⟩ p q htr sid j m) i hok' hothers x
    (splice_careful e ex cls lgs hcl i hi x hhome (fun _ => True) (fun _ _ _ _ h => h)) (fun en => ?_)
  exact requestS_pend_flush e (cls s2) (hcl.flat s2) (lgs s2) en F hfit i
    (by rw [hcl.same]; exact hhome) (asked_flush hF) (fun _ _ h => h)

/-- **C73.** When the success of a write with FUA (or of any write on a `sync` export) was sent and no system call fails, every byte
of the write survives a crash from then on, provided no other request that may change this byte is in flight: every other one
received so far had been answered before the write was received. -/
theorem C73_splice_fua_partial (e : Endian) (ex : Export) (cls : Nat → Client) (lgs : Nat → Bool) (hcl : OneSplice ex cls)
    (S T : System World) (hf : ∀ s ∈ S.sessions, s.Fresh) (hno : ∀ t err, S.sh.st.orc t ≠ .err err)
    (a b c : List (Nat × Ext)) (s1 : Nat) (W : Job) (ok : Msg)
    (hx : Exec (fun sid => spliceServer e (cls sid) (lgs sid)) S (a ++ (s1, .recv W) :: (b ++ (s1, .sent W.id ok) :: c)) T)
    (i : Nat) (y : Byte) (hW : Stores (asked W) i y) (hok : ok.bytes = (Reply.simple 0 (asked W).cookie []).encode)
    (hsync : W.req.type.testBit 16 = true ∨ has ex.flags F_SYNC = true)
    (hothers : ∀ sid j, (sid, .recv j) ∈ a ++ b ++ c → Touches (asked j) i → ∃ m, (sid, .sent j.id m) ∈ a) :
    Survives ex T.sh.st i y := by
  refine survives_settled (C72_splice_final_contents_partial e ex cls lgs hcl S T hf a b c s1 W ok hx i y hW hok hothers) ?_
  intro x hi hhome
  have hfit : W.Fits := Exec.recv_wf (J := fun _ => Job.Fits) (splice_meets e ex cls lgs hcl) hf hx s1 W (by simp)
  have hshape := stores_shape (fits_data hfit) hW
  obtain ⟨h, h1, h2, _⟩ := splice_history e ex cls lgs hcl S T _ hf hx
  refine fua_settles (splice_meets e ex cls lgs hcl) hf hno a b c s1 W ok hx
    (fun p q htr sid j m => received_before ⟨h, h1, h2⟩ p q htr sid j m) i hok hothers x
    (splice_careful e ex cls lgs hcl i hi x hhome NoErr (fun _ _ _ hk h => by unfold NoErr; rw [hk.orc]; exact h)) (fun en => ?_)
  exact requestS_pend_fua e (cls s1) (hcl.flat s1) (lgs s1) en W hfit i
    (by rw [hcl.same]; exact hhome) hshape.1 (by rw [hcl.same, has_fua]; exact hsync) hshape.2.1 hshape.2.2 (fun _ _ h => h) (fun _ h => h)

/-! ### Examples -/

theorem kept_splice_exec (S : System World) (turns : List (Nat × Move)) (tr : List (Nat × Ext))
    (h : (System.play (fun sid => spliceServer .little (spliceCls sid) false) turns [] S).map Prod.fst = some tr) :
    ∃ T, Exec (fun sid => spliceServer .little (spliceCls sid) false) S tr T := by
  cases hp : System.play (fun sid => spliceServer .little (spliceCls sid) false) turns [] S with
  | none => rw [hp] at h; cases h
  | some q =>
    obtain ⟨tr', T⟩ := q
    rw [hp] at h
    cases h
    exact ⟨T, System.play_start _ S turns _ hp⟩

/-- The first write of `keptSys`, its data in a pipe. -/
def pipedW (type : Nat) : Job := ⟨0, ⟨328556581, type, Demo.cookie, 0, 4⟩, .pipe [20, 21, 22, 23]⟩

/-- The second. -/
def pipedW2 : Job := ⟨1, ⟨328556581, 1, Demo.cookie, 8, 2⟩, .pipe [30, 31]⟩

/-- The bytes of the first write, which came through a pipe, are safe, while the second is being worked on. -/
example : ∃ T, Exec (fun sid => spliceServer .little (spliceCls sid) false) (keptSys 1)
    [(0, .recv (pipedW 1)), (0, .sent 0 keptOk), (0, .recv pipedW2), (1, .recv keptF), (1, .sent 0 keptOk)] T ∧
    Survives spliceEx T.sh.st 1 21 := by
  obtain ⟨T, hT⟩ := kept_splice_exec (keptSys 1) keptTurns
    [(0, .recv (pipedW 1)), (0, .sent 0 keptOk), (0, .recv pipedW2), (1, .recv keptF), (1, .sent 0 keptOk)] (by decide +kernel)
  refine ⟨T, hT, ?_⟩
  refine C73_splice_flush_partial .little spliceEx spliceCls (fun _ => false) spliceCls_one (keptSys 1) T (keptSys_fresh 1) [] []
    [(0, .recv pipedW2)] [] [] 0 1 (pipedW 1) keptF keptOk keptOk hT 1 21 (.inl ⟨rfl, by decide, rfl⟩) (by decide +kernel) rfl
    (by decide +kernel) ?_
  intro sid j hj ht
  simp only [List.append_nil, List.nil_append, List.mem_singleton, Prod.mk.injEq, Ext.recv.injEq] at hj
  obtain ⟨-, rfl⟩ := hj
  obtain ⟨-, h, -⟩ := ht
  exact absurd h (by decide)

/-- The same with FUA in place of the flush. -/
example : ∃ T, Exec (fun sid => spliceServer .little (spliceCls sid) false) (keptSys 65537)
    [(0, .recv (pipedW 65537)), (0, .recv pipedW2), (0, .sent 0 keptOk)] T ∧ Survives spliceEx T.sh.st 1 21 := by
  obtain ⟨T, hT⟩ := kept_splice_exec (keptSys 65537)
    ([(0, .main), (0, .work 0 99), (0, .work 0 99), (0, .main), (0, .work 1 99), (0, .work 1 99)] ++ List.replicate 8 (0, .work 0 99))
    [(0, .recv (pipedW 65537)), (0, .recv pipedW2), (0, .sent 0 keptOk)] (by decide +kernel)
  refine ⟨T, hT, ?_⟩
  refine C73_splice_fua_partial .little spliceEx spliceCls (fun _ => false) spliceCls_one (keptSys 65537) T (keptSys_fresh _)
    (by intro t err h; cases h) [] [(0, .recv pipedW2)] [] 0 (pipedW 65537) keptOk hT 1 21 (.inl ⟨rfl, by decide, rfl⟩)
    (by decide +kernel) (.inl (by decide)) ?_
  intro sid j hj ht
  simp only [List.append_nil, List.nil_append, List.mem_singleton, Prod.mk.injEq, Ext.recv.injEq] at hj
  obtain ⟨-, rfl⟩ := hj
  obtain ⟨-, h, -⟩ := ht
  exact absurd h (by decide)

end Props
end Nbd
