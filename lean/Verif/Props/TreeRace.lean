import Verif.SchedTree
import Verif.Props.Kept
import Verif.Props.Par
/-!
# Tree exports and parallel connections: C72, C77

* C72 is false of tree exports with two connections: `C72_tree_false`. The lock in `open_treefile` (treefiles.c 73) is one of the
  process, and every connection has a process of its own.
* The model of the threads, run alone, is the sequential one: `C72_tree_alone`.
* C77 with every system call on a block file a step: `C77_tree_partial`.
-/

set_option autoImplicit false

namespace Nbd.Props

open Nbd.Spec

/-- **C72** on tree exports: the program of a request, run with nothing in between, is `handleRequest`. -/
theorem C72_tree_alone (e : Endian) (cl : Client) (hcl : Treefile cl) (lg : Bool) (w : World) (r : Req)
    (p : Payload) (hp : r.type % 65536 = 1 → ∃ bs, p = .data bs) :
    (requestT e cl lg w.errno r p).run [] w =
      match handleRequest e cl w r p with
      | .ub => .ub
      | .exit => .exit
      | .val (_, w', msgs) => .val (w', msgs, w'.errno) :=
  requestT_run e cl hcl lg w r p hp

theorem demoTree_treefile : Treefile demoTree :=
  ⟨⟨⟨by decide, fun h => absurd h (by decide)⟩, by decide⟩, by decide, by decide, by decide⟩

/-- The first write to a block that does not exist yet: the block file is there afterwards. -/
example : (match (requestT .little demoTree false 0 ⟨0x25609513, 1, Demo.cookie, 4092, 2⟩ (.data [20, 21])).run [] demoEmpty with
    | .val x => (List.range 2).map (fun i => view demoTree.ex x.1 (4092 + i))
    | _ => []) = [20, 21] := by decide +kernel

/-- **C77** on tree exports (partial as `C77_plain_partial`): every system call on a block file is a step of its own. -/
theorem C77_tree_partial (e : Endian) (cl : Client) (hcl : Treefile cl) (lg : Bool) (w : World) (stream : List Byte) (pos : Nat)
    (sem : Option Nat) (file : List Byte) (tr : List (Nat × Ext)) (T : System World)
    (hx : Exec (fun _ => treeServer e cl lg) ⟨⟨w, sem, file⟩, [Session.fresh stream [w.errno] pos]⟩ tr T) :
    ∃ s, T.sessions = [s] ∧
      ((mainloop e cl w stream).ending = .gone ∨ (mainloop e cl w stream).ending = .disconnected →
        s.sock <+: (mainloop e cl w stream).sent) ∧
      (s.main = .over → s.sock = (mainloop e cl w stream).sent ∧ T.sh.st = (mainloop e cl w stream).w ∧
        (received 0 tr).map (fun j => (j.req, j.payload)) = (mainloop e cl w stream).handled.map (fun d => (d.req, d.payload))) := by
  obtain ⟨s, h1, h2, h3⟩ := Exec.one_mainloop e (fun _ => treeServer e cl lg) (fun w => (cl, w)) ⟨w, sem, file⟩ stream pos tr T
    (fun _ T _ stream => by
      show fetch e cl T.sh.st stream = _
      exact fetch_plain e cl hcl.splice T.sh.st stream)
    (fun _ _ _ _ => hcl.splice)
    (by
      intro ds st j _ hp
      show SameEnd _ ((requestT e cl lg st.errno j.req j.payload).run [] st) _
      rw [requestT_run e cl hcl lg st j.req j.payload hp]
      cases hr : handleRequest e cl st j.req j.payload with
      | ub => trivial
      | exit => trivial
      | val x =>
        obtain ⟨cl', w', ms⟩ := x
        exact ⟨by rw [handleRequest_record e cl cl' hcl.plain.paged st w' _ _ _ hr], rfl, rfl⟩)
    hx
  refine ⟨s, h1, h2, fun ho => ?_⟩
  obtain ⟨a, b, c⟩ := h3 ho
  exact ⟨a, congrArg Prod.snd b, c⟩

/-! ### The race -/

/-- An empty tree and three connections with one worker thread each: a read of the first bytes of block 0, a write of its last bytes,
and a read of these. -/
def raceSys : System World :=
  ⟨⟨demoEmpty, none, []⟩,
   [Session.fresh (Demo.request 0 0 4).encode [0] 0,
    Session.fresh (Demo.write 4092 [20, 21, 22, 23]).encode [0] 0,
    Session.fresh (Demo.request 0 4092 4).encode [0] 0]⟩

/-- The first read finds no block file; the write creates it and is done; the first read goes on; then comes the second. -/
def raceTurns : List (Nat × Move) :=
  [(0, .main), (0, .work 0 99), (0, .work 0 99), (1, .main)] ++ List.replicate 9 (1, .work 0 99) ++
    List.replicate 9 (0, .work 0 99) ++ [(2, .main)] ++ List.replicate 9 (2, .work 0 99)

/-- The first read. -/
def raceR : Job := ⟨0, ⟨328556581, 0, Demo.cookie, 0, 4⟩, .nothing⟩

/-- The write. -/
def raceW : Job := ⟨0, ⟨328556581, 1, Demo.cookie, 4092, 4⟩, .data [20, 21, 22, 23]⟩

/-- The second read. -/
def raceR2 : Job := ⟨0, ⟨328556581, 0, Demo.cookie, 4092, 4⟩, .nothing⟩

/-- The bytes of the answer to the second read. -/
def raceBack : Msg := ⟨keptOk.hdr, [20, 21, 22, 0]⟩

theorem race_exec : ∃ T, Exec (fun _ => treeServer .little demoTree false) raceSys
    [(0, .recv raceR), (1, .recv raceW), (1, .sent 0 keptOk),
      (0, .sent 0 ⟨keptOk.hdr, [0, 0, 0, 0]⟩), (2, .recv raceR2), (2, .sent 0 raceBack)] T := by
  have hp : (System.play (fun _ => treeServer .little demoTree false) raceTurns [] raceSys).map Prod.fst =
      some [(0, .recv raceR), (1, .recv raceW), (1, .sent 0 keptOk),
        (0, .sent 0 ⟨keptOk.hdr, [0, 0, 0, 0]⟩), (2, .recv raceR2), (2, .sent 0 raceBack)] := by
    decide +kernel
  cases hq : System.play (fun _ => treeServer .little demoTree false) raceTurns [] raceSys with
  | none => rw [hq] at hp; cases hp
  | some q =>
    obtain ⟨tr', T⟩ := q
    rw [hq] at hp
    cases hp
    exact ⟨T, System.play_start _ raceSys raceTurns _ hq⟩

theorem race_fresh : ∀ s ∈ raceSys.sessions, s.Fresh := by
  intro s hs
  simp only [raceSys, List.mem_cons, List.not_mem_nil, or_false] at hs
  rcases hs with rfl | rfl | rfl
  · exact ⟨_, _, _, rfl⟩
  · exact ⟨_, _, _, rfl⟩
  · exact ⟨_, _, _, rfl⟩

/-- **C72 is false on tree exports with two connections.** The only request that changes anything is one write, which succeeds; a
read that is received after that, when nothing else is in flight, returns something else for its last byte. No system call fails.
(The other read of the same block found no file for it before the write, and opened it with `O_CREAT` after the write, and then
stored a zero byte at the end of the block.) -/
theorem C72_tree_false : ∃ (e : Endian) (cl : Client) (S T : System World) (a b c d : List (Nat × Ext)) (s1 s2 : Nat) (W R : Job)
    (ok back : Msg),
    Treefile cl ∧ (∀ s ∈ S.sessions, s.Fresh) ∧ (∀ t err, S.sh.st.orc t ≠ .err err) ∧
    Exec (fun _ => treeServer e cl false) S
      (a ++ (s1, .recv W) :: (b ++ (s1, .sent W.id ok) :: (c ++ (s2, .recv R) :: (d ++ [(s2, .sent R.id back)])))) T ∧
    Stores (asked W) 4095 23 ∧ ok.bytes = (Reply.simple 0 (asked W).cookie []).encode ∧
    Delivers (asked R) back.bytes 4095 0 ∧
    (∀ sid j, (sid, .recv j) ∈ a ++ b ++ c ++ d → ¬ Touches (asked j) 4095) := by
  obtain ⟨T, hT⟩ := race_exec
  refine ⟨.little, demoTree, raceSys, T, [(0, .recv raceR)], [],
    [(0, .sent 0 ⟨keptOk.hdr, [0, 0, 0, 0]⟩)], [], 1, 2, raceW, raceR2, keptOk, raceBack,
    demoTree_treefile, race_fresh, (fun t err h => by cases h), hT, .inl ⟨rfl, by decide, rfl⟩, by decide +kernel,
    .inl ⟨[20, 21, 22, 0], by decide +kernel, by decide, rfl⟩, ?_⟩
  intro sid j hj ht
  simp at hj
  obtain ⟨-, rfl⟩ := hj
  obtain ⟨-, -, h⟩ := ht
  exact absurd h (by decide)

end Nbd.Props
