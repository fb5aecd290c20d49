import Verif.SchedTreeGood
import Verif.Props.TreeRace
/-!
# C72 on tree exports: what does hold

`C72_tree_false` shows that the last byte of a block can be lost. Here: every other byte behaves as on a plain file, with any number
of connections and worker threads and any interleaving of system calls; and the only thing that can go wrong with a last byte is that
it is zeroed by a request that has a byte of the block in its range.

Restricted to exports that are writable (a read-only tree is opened in another way) and as in `Props/Linear.lean`, and not for the
last byte of a block; hence `_partial`.
-/

set_option autoImplicit false

namespace Nbd
namespace Props
open Spec

/-- All sessions serve the export `ex`, a writable tree of block files, each with its own settings. -/
structure OneTree (ex : Export) (cls : Nat → Client) : Prop where
  same : ∀ sid, (cls sid).ex = ex
  tree : ∀ sid, Treefile (cls sid)
  writable : has ex.flags F_READONLY = false

theorem tree_history (e : Endian) (ex : Export) (cls : Nat → Client) (lgs : Nat → Bool)
    (hcl : OneTree ex cls) (S T : System World) (tr : List (Nat × Ext))
    (hf : ∀ s ∈ S.sessions, s.Fresh)
    (hx : Exec (fun sid => treeServer e (cls sid) (lgs sid)) S tr T) :
    ∃ h, Spec.visible h = tr ∧
      Hist (fun sid => CompleteT ex.exportsize (badWrite (cls sid)) [(cls sid).structured]) asked
        (view ex S.sh.st) (view ex T.sh.st) h ∧
      ∀ (sid : Nat) s, T.sessions[sid]? = some s → s.main = .over → ∀ j ∈ recvs sid h,
        CompleteT ex.exportsize (badWrite (cls sid)) [(cls sid).structured] (asked j)
          (mine sid j.id h) := by
  refine history_of (view := view ex) (fun sid => ?_) S T tr hf hx
  have := treeServer_meets e (cls sid) (hcl.tree sid) (by rw [hcl.same sid]; exact hcl.writable) (lgs sid)
  rw [hcl.same sid] at this
  exact this

/-- **C72** on tree exports. Any number of connections to one export, any number of worker threads each, any
interleaving: there is a history of single byte accesses and messages that looks from outside like
what happened; on an array that first holds the contents of the export, every access of the history
sees what was last stored, and the array ends up as the contents of the export. Nothing is done for
a request before it is received; what is done for it is what its command does (`CompleteT`: all its
accesses before its last message, and additional zero bytes stored at the ends of blocks it has bytes of), as far as it has got, and completely once the session is
over. -/
theorem C72_tree_interleaving_partial (e : Endian) (ex : Export) (cls : Nat → Client)
    (lgs : Nat → Bool) (hcl : OneTree ex cls) (S T : System World) (tr : List (Nat × Ext))
    (hf : ∀ s ∈ S.sessions, s.Fresh)
    (hx : Exec (fun sid => treeServer e (cls sid) (lgs sid)) S tr T) :
    ∃ h, Spec.visible h = tr ∧ Causal h ∧
      Legal (view ex S.sh.st) (acts h) (view ex T.sh.st) ∧
      ∀ (sid : Nat) s, T.sessions[sid]? = some s → ∀ j ∈ received sid tr,
        ∃ more, CompleteT ex.exportsize (badWrite (cls sid)) [(cls sid).structured] (asked j)
          (mine sid j.id h ++ more) ∧ (s.main = .over → more = []) := by
  obtain ⟨h, h1, h2, h3⟩ := tree_history e ex cls lgs hcl S T tr hf hx
  refine ⟨h, h1, h2.causal, h2.legal, ?_⟩
  intro sid s hs j hj
  rw [← h1, recvs_visible] at hj
  by_cases hov : s.main = .over
  · exact ⟨[], by rw [List.append_nil]; exact h3 sid s hs hov j hj, fun _ => rfl⟩
  · obtain ⟨more, hm⟩ := h2.does sid j hj
    exact ⟨more, hm, fun hh => absurd hh hov⟩

/-- **C72** on tree exports. A read that is received after the success of a write was sent, on the same connection
or another, returns the byte written, provided no other request that may change this byte is in
flight: every other one received before the read was answered had been answered before the write
was received. -/
theorem C72_tree_latest_write_partial (e : Endian) (ex : Export) (cls : Nat → Client)
    (lgs : Nat → Bool) (hcl : OneTree ex cls) (S T : System World)
    (hf : ∀ s ∈ S.sessions, s.Fresh) (a b b' c d : List (Nat × Ext)) (s1 s2 : Nat) (W R : Job)
    (ok last : Msg)
    (hx : Exec (fun sid => treeServer e (cls sid) (lgs sid)) S
      (a ++ (s1, .recv W) :: (b ++ (s1, .sent W.id ok) :: (b' ++ (s2, .recv R) ::
        (c ++ (s2, .sent R.id last) :: d)))) T)
    (i : Nat) (x y : Byte) (hi : i % 4096 ≠ 4095) (hW : Stores (asked W) i x)
    (hok : ok.bytes = (Reply.simple 0 (asked W).cookie []).encode)
    (hR : (asked R).code = 0) (hlast : Finishes last.bytes)
    (hothers : ∀ sid j, (sid, .recv j) ∈ a ++ b ++ b' ++ c → Touches (asked j) i →
      ∃ m, (sid, .sent j.id m) ∈ a)
    (m : Msg) (hm : (s2, .sent R.id m) ∈ c ++ [(s2, .sent R.id last)])
    (hy : Delivers (asked R) m.bytes i y) : y = x := by
  obtain ⟨h, h1, h2, h3⟩ := tree_history e ex cls lgs hcl S T _ hf hx
  obtain ⟨ha, ev, h4, rfl, ea, e1, v1⟩ := visible_split h1
  obtain rfl := visible_recv e1
  obtain ⟨hb, ev, h5, rfl, eb, e2, v2⟩ := visible_split v1
  obtain rfl := visible_sent e2
  obtain ⟨hb', ev, h6, rfl, eb', e3, v3⟩ := visible_split v2
  obtain rfl := visible_recv e3
  obtain ⟨hc, ev, h7, rfl, ec, e4, v4⟩ := visible_split v3
  obtain rfl := visible_sent e4
  have hsize : ex.exportsize ≤ 2 ^ 63 := by
    have := (hcl.tree 0).plain.good.size
    rwa [hcl.same 0] at this
  refine h2.latest (fun _ => CompleteT.law hsize _ _) hi rfl hW hok hR hlast ?_ (m := m) ?_ hy
  · intro sid j hj ht
    obtain ⟨m, hm⟩ := hothers sid j (by
      rw [← ea, ← eb, ← eb', ← ec, ← visible_append, ← visible_append, ← visible_append]
      exact mem_visible_recv.mpr hj) ht
    exact ⟨m, mem_visible_sent.mp (by rw [ea]; exact hm)⟩
  · rcases List.mem_append.mp hm with hm | hm
    · rw [← ec] at hm
      have := mem_visible_sent.mp hm
      simp [this]
    · simp only [List.mem_singleton, Prod.mk.injEq, Ext.sent.injEq, true_and] at hm
      simp [hm]

/-- **C72** on tree exports. What a byte of the export holds at the end: what the last acknowledged write stored
there, provided no other request that may change it was in flight then or came later. -/
theorem C72_tree_final_contents_partial (e : Endian) (ex : Export) (cls : Nat → Client)
    (lgs : Nat → Bool) (hcl : OneTree ex cls) (S T : System World)
    (hf : ∀ s ∈ S.sessions, s.Fresh) (a b c : List (Nat × Ext)) (s1 : Nat) (W : Job) (ok : Msg)
    (hx : Exec (fun sid => treeServer e (cls sid) (lgs sid)) S
      (a ++ (s1, .recv W) :: (b ++ (s1, .sent W.id ok) :: c)) T)
    (i : Nat) (x : Byte) (hi : i % 4096 ≠ 4095) (hW : Stores (asked W) i x)
    (hok : ok.bytes = (Reply.simple 0 (asked W).cookie []).encode)
    (hothers : ∀ sid j, (sid, .recv j) ∈ a ++ b ++ c → Touches (asked j) i →
      ∃ m, (sid, .sent j.id m) ∈ a) : view ex T.sh.st i = x := by
  obtain ⟨h, h1, h2, h3⟩ := tree_history e ex cls lgs hcl S T _ hf hx
  obtain ⟨ha, ev, h4, rfl, ea, e1, v1⟩ := visible_split h1
  obtain rfl := visible_recv e1
  obtain ⟨hb, ev, h5, rfl, eb, e2, v2⟩ := visible_split v1
  obtain rfl := visible_sent e2
  have hsize : ex.exportsize ≤ 2 ^ 63 := by
    have := (hcl.tree 0).plain.good.size
    rwa [hcl.same 0] at this
  refine h2.holds (fun _ => CompleteT.law hsize _ _) hi (hd := []) (by rw [List.append_nil]) hW hok ?_ h2.legal
  intro sid j hj ht
  obtain ⟨m, hm⟩ := hothers sid j (by
    rw [← ea, ← eb, ← v2, ← visible_append, ← visible_append]
    exact mem_visible_recv.mpr hj) ht
  exact ⟨m, mem_visible_sent.mp (by rw [ea]; exact hm)⟩

/-- **C72** on tree exports. Every byte a finished read returns was in the export at first, or is one that a
request received before the read was finished was to store there: reads never invent data, however
they overlap with writes. -/
theorem C72_tree_read_origin_partial (e : Endian) (ex : Export) (cls : Nat → Client)
    (lgs : Nat → Bool) (hcl : OneTree ex cls) (S T : System World)
    (hf : ∀ s ∈ S.sessions, s.Fresh) (a c d : List (Nat × Ext)) (sid : Nat) (R : Job) (last : Msg)
    (hx : Exec (fun sid => treeServer e (cls sid) (lgs sid)) S
      (a ++ (sid, .recv R) :: (c ++ (sid, .sent R.id last) :: d)) T)
    (i : Nat) (y : Byte) (hR : (asked R).code = 0) (hlast : Finishes last.bytes)
    (m : Msg) (hm : (sid, .sent R.id m) ∈ c ++ [(sid, .sent R.id last)])
    (hy : Delivers (asked R) m.bytes i y) :
    y = view ex S.sh.st i ∨
    (∃ s j, (s, .recv j) ∈ a ++ c ∧ MayStore (asked j) i y) ∨ (i % 4096 = 4095 ∧ y = 0) := by
  obtain ⟨h, h1, h2, h3⟩ := tree_history e ex cls lgs hcl S T _ hf hx
  obtain ⟨ha, ev, h4, rfl, ea, e1, v1⟩ := visible_split h1
  obtain rfl := visible_recv e1
  obtain ⟨hc, ev, h5, rfl, ec, e2, v2⟩ := visible_split v1
  obtain rfl := visible_sent e2
  have hsize : ex.exportsize ≤ 2 ^ 63 := by
    have := (hcl.tree 0).plain.good.size
    rwa [hcl.same 0] at this
  have hmem : .act sid R.id (.msg m) ∈ ha ++ .recv sid R :: (hc ++ .act sid R.id (.msg last) :: h5) := by
    rcases List.mem_append.mp hm with hm | hm
    · rw [← ec] at hm
      have := mem_visible_sent.mp hm
      simp [this]
    · simp only [List.mem_singleton, Prod.mk.injEq, Ext.sent.injEq, true_and] at hm
      simp [hm]
  rcases h2.origin (fun _ => CompleteT.law hsize _ _) rfl hR hlast hmem hy with h0 | ⟨s, j, h0, hmay⟩ | ⟨h0, h1⟩
  · exact .inl h0
  · refine .inr (.inl ⟨s, j, ?_, hmay⟩)
    rw [← ea, ← ec, ← visible_append]
    exact mem_visible_recv.mpr h0
  · exact .inr (.inr ⟨Classical.byContradiction h0, h1⟩)

/-! ### An example -/

theorem demoTree_one : OneTree demoTree.ex (fun _ => demoTree) where
  same _ := rfl
  tree _ := demoTree_treefile
  writable := by decide

/-- The execution of `C72_tree_false`, in which byte 4095 is lost, meets the hypotheses for byte 4094: whatever the second read says
that this byte is, it is 22. -/
example (y : Byte) (hy : Delivers (asked raceR2) raceBack.bytes 4094 y) : y = 22 := by
  obtain ⟨T, hT⟩ := race_exec
  refine C72_tree_latest_write_partial .little demoTree.ex (fun _ => demoTree) (fun _ => false) demoTree_one raceSys T race_fresh
    [(0, .recv raceR)] [] [(0, .sent 0 ⟨keptOk.hdr, [0, 0, 0, 0]⟩)] [] [] 1 2 raceW raceR2 keptOk raceBack hT 4094 22 y (by decide)
    (.inl ⟨rfl, by decide, rfl⟩) (by decide +kernel) rfl ⟨.simple 0 Demo.cookie [20, 21, 22, 0], by decide +kernel, rfl⟩ ?_ raceBack
    (by simp) hy
  intro sid j hj ht
  simp at hj
  obtain ⟨-, rfl⟩ := hj
  obtain ⟨-, -, h⟩ := ht
  exact absurd h (by decide)

/-- And it does say so. -/
example : Delivers (asked raceR2) raceBack.bytes 4094 22 := .inl ⟨[20, 21, 22, 0], by decide +kernel, by decide, rfl⟩

end Props
end Nbd
