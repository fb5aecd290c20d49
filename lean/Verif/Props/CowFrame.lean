import Verif.Props.Par
import Verif.Props.Kept
/-! # C07 on a copy-on-write export whose session has two worker threads -/

set_option autoImplicit false

namespace Nbd.Props

open Nbd.Spec

/-- A read of bytes 1 to 3, a write of byte 0, a write of byte 4096, and the read again. -/
def mixStream : List Byte :=
  (Demo.request 0 1 3).encode ++ (Demo.write 0 [7]).encode ++ (Demo.write 4096 [8]).encode ++ (Demo.request 0 1 3).encode

/-- One session with two threads. -/
def mixSys : System Mem := ⟨⟨(cowClient false, cowWorld), none, []⟩, [Session.fresh mixStream [0, 0] 0]⟩

/-- The second thread gets to run between the first one's choice of a place in the diff file and its write there. -/
def mixTurns : List (Nat × Move) :=
  [(0, .main)] ++ List.replicate 12 (0, .work 0 9999) ++ [(0, .main), (0, .main)] ++ List.replicate 3 (0, .work 0 9999) ++
  List.replicate 7 (0, .work 1 9999) ++ List.replicate 12 (0, .work 0 9999) ++ List.replicate 12 (0, .work 1 9999) ++ [(0, .main)] ++
  List.replicate 12 (0, .work 0 9999)

/-- The reads. -/
def mixR (n : Nat) : Job := ⟨n, ⟨328556581, 0, Demo.cookie, 1, 3⟩, .nothing⟩

/-- The write of byte 0. -/
def mixW0 : Job := ⟨1, ⟨328556581, 1, Demo.cookie, 0, 1⟩, .data [7]⟩

/-- The write of byte 4096. -/
def mixW1 : Job := ⟨2, ⟨328556581, 1, Demo.cookie, 4096, 1⟩, .data [8]⟩

/-- **C07 is false on a copy-on-write export when a session has more than one worker thread.** No system call fails, and no request
changes byte 1: the client reads it, then writes byte 0 and byte 4096 at the same time, both writes succeed, and then it reads another value from byte 1. (The two writes
get their places in the diff file mixed up, so byte 1 is now what byte 4097 was.) -/
theorem C07_false_cow_threads : ∃ (S T : System Mem) (R W W' R' : Job) (before after ok : Msg),
    (∀ s ∈ S.sessions, s.Fresh) ∧ (∀ t err, S.sh.st.2.orc t ≠ .err err) ∧
    Exec (fun i => cowServer .little (cowClient false i) i false) S
      [(0, .recv R), (0, .sent R.id before), (0, .recv W), (0, .recv W'), (0, .sent W.id ok), (0, .sent W'.id ok),
       (0, .recv R'), (0, .sent R'.id after)] T ∧
    ok.bytes = (Reply.simple 0 (asked W).cookie []).encode ∧
    Delivers (asked R) before.bytes 1 2 ∧ Delivers (asked R') after.bytes 1 82 ∧
    (∀ j ∈ [R, W, W', R'], ¬ Touches (asked j) 1) := by
  have hp : (System.play (fun i => cowServer .little (cowClient false i) i false) mixTurns [] mixSys).map Prod.fst =
      some [(0, .recv (mixR 0)), (0, .sent 0 ⟨keptOk.hdr, [2, 3, 4]⟩), (0, .recv mixW0), (0, .recv mixW1), (0, .sent 1 keptOk),
        (0, .sent 2 keptOk), (0, .recv (mixR 3)), (0, .sent 3 ⟨keptOk.hdr, [82, 83, 84]⟩)] := by
    decide +kernel
  cases hq : System.play (fun i => cowServer .little (cowClient false i) i false) mixTurns [] mixSys with
  | none => rw [hq] at hp; cases hp
  | some q =>
    obtain ⟨tr', T⟩ := q
    rw [hq] at hp
    cases hp
    refine ⟨mixSys, T, mixR 0, mixW0, mixW1, mixR 3, ⟨keptOk.hdr, [2, 3, 4]⟩, ⟨keptOk.hdr, [82, 83, 84]⟩, keptOk, ?_, ?_,
      System.play_start _ mixSys mixTurns _ hq, by decide +kernel, .inl ⟨[2, 3, 4], by decide +kernel, by decide, rfl⟩,
      .inl ⟨[82, 83, 84], by decide +kernel, by decide, rfl⟩, ?_⟩
    · intro s hs
      simp only [mixSys, List.mem_singleton] at hs
      subst hs
      exact ⟨_, _, _, rfl⟩
    · intro t err h
      cases h
    · intro j hj ht
      simp only [List.mem_cons, List.not_mem_nil, or_false] at hj
      obtain ⟨h0, h1, h2⟩ := ht
      rcases hj with rfl | rfl | rfl | rfl
      · exact absurd h0 (by decide)
      · exact absurd h2 (by decide)
      · exact absurd h1 (by decide)
      · exact absurd h0 (by decide)

end Nbd.Props
