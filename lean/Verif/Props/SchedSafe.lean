import Verif.SchedSpliceSafe
import Verif.Props.SpliceLinear
import Verif.Props.TreeLive
/-!
# C53 with several worker threads

Whatever bytes any number of clients send, in whatever order the threads of their sessions take their steps, and whatever the kernel
answers.
-/

set_option autoImplicit false

namespace Nbd
namespace Props
open Spec

theorem fetch_suffix (e : Endian) (cl : Client) (w w' : World) (stream rest : List Byte) (x : Fetched)
    (h : fetch e cl w stream = .val (w', x)) (hx : (∃ r p, x = .push r p rest) ∨ x = .disc rest) : rest <:+ stream := by
  unfold fetch at h
  by_cases h28 : stream.length < 28
  · rw [if_pos h28] at h
    cases h
    rcases hx with ⟨_, _, h⟩ | h <;> cases h
  · rw [if_neg h28] at h
    simp only [] at h
    by_cases hm : (!(loadReq e (stream.take 28)).magicOk e) = true
    · rw [if_pos hm] at h
      cases h
      rcases hx with ⟨_, _, h⟩ | h <;> cases h
    · rw [if_neg hm] at h
      by_cases hw : (loadReq e (stream.take 28)).type % 65536 = CMD_WRITE
      · rw [if_pos hw] at h
        generalize (if has cl.ex.flags F_SPLICE = true then _ else _ : World × Bool) = mp at h
        obtain ⟨w1, piped⟩ := mp
        dsimp only at h
        by_cases h1 : (piped && cl.tls && decide (0 < (loadReq e (stream.take 28)).len)) = true
        · rw [if_pos h1] at h; cases h
        · rw [if_neg h1] at h
          by_cases h2 : (stream.drop 28).length < (loadReq e (stream.take 28)).len
          · rw [if_pos h2] at h
            cases h
            rcases hx with ⟨_, _, h⟩ | h <;> cases h
          · rw [if_neg h2] at h
            cases h
            rcases hx with ⟨_, _, h⟩ | h
            · cases h
              exact (List.drop_suffix _ _).trans (List.drop_suffix _ _)
            · cases h
      · rw [if_neg hw] at h
        by_cases hd : (loadReq e (stream.take 28)).type = CMD_DISC
        · rw [if_pos hd] at h
          cases h
          rcases hx with ⟨_, _, h⟩ | h <;> cases h
          exact List.drop_suffix _ _
        · rw [if_neg hd] at h
          cases h
          rcases hx with ⟨_, _, h⟩ | h <;> cases h
          exact List.drop_suffix _ _

/-- What is left to read is the end of what the client sent, and a process that has exited did so because of what comes next. -/
def Reading (e : Endian) (sent : List Byte) (s : Session World) : Prop :=
  s.stream <:+ sent ∧ (s.main = .dead → 28 ≤ s.stream.length ∧ (loadReq e (s.stream.take 28)).magicOk e = false)

theorem reading_step {v : Server World} {cl : Client} (htake : ∀ st stream, v.take st stream = fetch v.e cl st stream) {sent : List Byte}
    {sid : Nat} {sh sh' : Shared World} {s s' : Session World} {evs : List Ext} (h : Step v sid sh s evs sh' s')
    (hdead : s'.main = .dead → s.main = .dead ∨ ((s.main = .reading ∨ s.main = .payload) ∧ v.badMagic s.stream = true))
    (hi : Reading v.e sent s) : Reading v.e sent s' := by
  obtain ⟨h1, h2⟩ := hi
  have same : s'.stream = s.stream → Reading v.e sent s' := by
    intro hst
    refine ⟨by rw [hst]; exact h1, fun hd => ?_⟩
    rw [hst]
    rcases hdead hd with h | ⟨_, hb⟩
    · exact h2 h
    · unfold Server.badMagic at hb
      rw [Bool.and_eq_true, decide_eq_true_eq, Bool.not_eq_true'] at hb
      exact hb
  cases h with
  | accept st r p rest hm hk hsem ht =>
    rw [htake] at ht
    exact ⟨(fetch_suffix _ cl _ _ _ _ _ ht (.inl ⟨_, _, rfl⟩)).trans h1, fun h => by rw [hm] at h; cases h⟩
  | acceptData st r bs rest hm ht =>
    rw [htake] at ht
    exact ⟨(fetch_suffix _ cl _ _ _ _ _ ht (.inl ⟨_, _, rfl⟩)).trans h1, fun h => by cases h⟩
  | disc st rest hm hk hsem ht =>
    rw [htake] at ht
    exact ⟨(fetch_suffix _ cl _ _ _ _ _ ht (.inr rfl)).trans h1, fun h => by cases h⟩
  | _ => exact same rfl

theorem reading_magic {e : Endian} {sent : List Byte} {s : Session World} (hi : Reading e sent s) (hd : s.main = .dead) :
    ∃ before hdr after, sent = before ++ hdr ++ after ∧ hdr.length = 28 ∧ (Request.decode hdr).magic ≠ 0x25609513 := by
  obtain ⟨⟨before, h3⟩, h4⟩ := hi
  obtain ⟨h5, h6⟩ := h4 hd
  refine ⟨before, s.stream.take 28, s.stream.drop 28, ?_, by simp; omega, ?_⟩
  · rw [List.append_assoc, List.take_append_drop, h3]
  · intro hm
    have : (loadReq e (s.stream.take 28)).magicOk e = true := by
      rw [magicOk_iff]
      apply UInt32.toNat_inj.mp
      have := ntohl_load32 e ((s.stream.take 28).take 4) (by simp; omega)
      have h3 : (ntohl e (loadReq e (s.stream.take 28)).magic).toNat = (Spec.Request.decode (s.stream.take 28)).magic := this
      rw [h3, hm]; rfl
    rw [h6] at this
    cases this

/-- **C53** with several worker threads (partial: exports of plain files, none of them empty, with or without splicing, but not splicing inside TLS, where
it is false). Any number of clients, of the same or of different exports, send any bytes at all; the threads take their steps, one system
call each, in any order; the kernel answers anything. No session ever runs into undefined behaviour, and if its process has
exited, then because the next 28 bytes of what the client sent do not begin with the magic number of a request. -/
theorem C53_threads_partial (e : Endian) (cls : Nat → Client) (hcl : ∀ sid, Spliced (cls sid))
    (htls : ∀ sid, (cls sid).tls = false ∨ has (cls sid).ex.flags F_SPLICE = false) (lgs : Nat → Bool)
    (w : World) (sem : Option Nat) (log : List Byte) (streams : List (List Byte)) (errnos : Nat → List Nat) (pos : Nat → Nat)
    (T : System World) (tr : List (Nat × Ext))
    (hx : Exec (fun sid => spliceServer e (cls sid) (lgs sid))
      ⟨⟨w, sem, log⟩, streams.mapIdx fun i stream => Session.fresh stream (errnos i) (pos i)⟩ tr T)
    (sid : Nat) (s : Session World) (hs : T.sessions[sid]? = some s) :
    s.main ≠ .broken ∧
    (s.main = .dead → ∃ before hdr after, streams[sid]? = some (before ++ hdr ++ after) ∧ hdr.length = 28 ∧
      (Request.decode hdr).magic ≠ 0x25609513) := by
  have hsafe := fun sid => spliceServer_safe e (cls sid) (hcl sid) (htls sid) (lgs sid)
  have hinv := hx.always (I := fun sid s => s.Sound Job.Fits ∧ ∃ sent, streams[sid]? = some sent ∧ Reading e sent s)
    (fun sid _ _ s s' _ h hi => by
      obtain ⟨h1, sent, h2, h3⟩ := hi
      exact ⟨h.sound (hsafe sid) h1, sent, h2, reading_step (cl := cls sid) (fun _ _ => rfl) h (h.dead (hsafe sid) h1) h3⟩)
    (fun sid s hs => by
      simp only [List.getElem?_mapIdx, Option.map_eq_some_iff] at hs
      obtain ⟨stream, h1, rfl⟩ := hs
      refine ⟨⟨by simp [Session.fresh], by simp [Session.fresh], ?_⟩, stream, h1, List.suffix_refl _, fun h => by cases h⟩
      intro x hx
      obtain ⟨en, _, rfl⟩ := List.mem_map.mp hx
      trivial)
  obtain ⟨h1, sent, h2, h3⟩ := hinv sid s hs
  refine ⟨h1.main, fun hd => ?_⟩
  obtain ⟨before, hdr, after, h4, h5⟩ := reading_magic h3 hd
  exact ⟨before, hdr, after, by rw [h2, h4], h5⟩

/-- Two clients: the one sends a write whose data goes through a pipe, the other a write and then 30 times the byte 7. -/
def wildStreams : List (List Byte) := [(Demo.write 0 [20, 21]).encode, (Demo.write 2 [30]).encode ++ List.replicate 30 7]

/-- An execution as in `C53_threads_partial`: the first session goes on, the process of the second has exited. -/
example : (∀ sid, Spliced (spliceCls sid)) ∧ (∀ sid, (spliceCls sid).tls = false ∨ has (spliceCls sid).ex.flags F_SPLICE = false) ∧
    has spliceEx.flags F_SPLICE = true ∧
    ∃ tr T, Exec (fun sid => spliceServer .little (spliceCls sid) false)
      ⟨⟨Demo.world, none, []⟩, wildStreams.mapIdx fun _ stream => Session.fresh stream [0, 0] 0⟩ tr T ∧
      T.sessions.map (fun s => s.main) = [.over, .dead] := by
  obtain ⟨tr, T, h1, h2⟩ := System.play_check (fun sid => spliceServer .little (spliceCls sid) false)
    ⟨⟨Demo.world, none, []⟩, wildStreams.mapIdx fun _ stream => Session.fresh stream [0, 0] 0⟩
    ([(1, .main), (0, .main), (1, .work 0 99), (1, .main)] ++ List.replicate 12 (0, .work 0 99) ++ [(0, .main), (0, .main)])
    (fun _ T => T.sessions.map (fun s => s.main) == [.over, .dead]) (by decide +kernel)
  exact ⟨spliceCls_one.flat, fun _ => .inl rfl, by decide, tr, T, h1, by simpa using h2⟩

/-- **C53** with several worker threads, on trees of block files (partial: the name of the tree is not too
long; no system call fails. If one does the process may exit, `C71_tree_false`). -/
theorem C53_threads_tree_partial (e : Endian) (cls : Nat → Client) (hcl : ∀ sid, Treefile (cls sid))
    (hn : ∀ sid, (cls sid).ex.name.length ≤ 4040) (lgs : Nat → Bool)
    (w : World) (hw : Working w) (sem : Option Nat) (log : List Byte) (streams : List (List Byte)) (errnos : Nat → List Nat) (pos : Nat → Nat)
    (T : System World) (tr : List (Nat × Ext))
    (hx : Exec (fun sid => treeServer e (cls sid) (lgs sid))
      ⟨⟨w, sem, log⟩, streams.mapIdx fun i stream => Session.fresh stream (errnos i) (pos i)⟩ tr T)
    (sid : Nat) (s : Session World) (hs : T.sessions[sid]? = some s) :
    s.main ≠ .broken ∧
    (s.main = .dead → ∃ before hdr after, streams[sid]? = some (before ++ hdr ++ after) ∧ hdr.length = 28 ∧
      (Request.decode hdr).magic ≠ 0x25609513) := by
  have hsafe := fun sid => treeServer_safeIn e (cls sid) (hcl sid) (hn sid) (lgs sid)
  have hfresh : ∀ s ∈ (⟨⟨w, sem, log⟩, streams.mapIdx fun i stream => Session.fresh stream (errnos i) (pos i)⟩ : System World).sessions, s.Fresh := by
    intro s hs
    obtain ⟨i, hi, rfl⟩ := List.mem_mapIdx.mp hs
    exact ⟨_, _, _, rfl⟩
  refine ⟨((hx.soundIn hsafe hfresh hw).2 s (List.mem_of_getElem? hs)).main, fun hd => ?_⟩
  have hinv : ∀ (sid : Nat) s, T.sessions[sid]? = some s → ∃ sent, streams[sid]? = some sent ∧ Reading e sent s := by
    clear hs hd
    induction hx with
    | nil =>
      intro sid s hs
      simp only [List.getElem?_mapIdx, Option.map_eq_some_iff] at hs
      obtain ⟨stream, h1, rfl⟩ := hs
      exact ⟨stream, h1, List.suffix_refl _, fun h => by cases h⟩
    | step tr T sid' t t' evs sh' hx ht h1 ih =>
      intro sid s hs
      rcases getElem?_set_cases hs with ⟨rfl, rfl⟩ | ⟨_, hs⟩
      · obtain ⟨sent, g1, g2⟩ := ih _ _ ht
        obtain ⟨k1, k2⟩ := hx.soundIn hsafe hfresh hw
        exact ⟨sent, g1, reading_step (v := treeServer e (cls _) (lgs _)) (cl := cls _) (fun _ _ => rfl) h1
          (h1.deadIn (hsafe _) k1 (k2 t (List.mem_of_getElem? ht))) g2⟩
      · exact ih _ _ hs
  obtain ⟨sent, h2, h3⟩ := hinv sid s hs
  obtain ⟨before, hdr, after, h4, h5⟩ := reading_magic h3 hd
  exact ⟨before, hdr, after, by rw [h2, h4], h5⟩

/-- An execution as in `C53_threads_tree_partial`, with the same two clients. -/
example : Treefile demoTree ∧ demoTree.ex.name.length ≤ 4040 ∧ Working raceSys.sh.st ∧
    ∃ tr T, Exec (fun _ => treeServer .little demoTree false)
      ⟨⟨raceSys.sh.st, none, []⟩, wildStreams.mapIdx fun _ stream => Session.fresh stream [0, 0] 0⟩ tr T ∧
      T.sessions.map (fun s => s.main) = [.over, .dead] := by
  obtain ⟨tr, T, h1, h2⟩ := System.play_check (fun _ => treeServer .little demoTree false)
    ⟨⟨raceSys.sh.st, none, []⟩, wildStreams.mapIdx fun _ stream => Session.fresh stream [0, 0] 0⟩
    ([(1, .main), (0, .main), (1, .work 0 99), (1, .main)] ++ List.replicate 30 (0, .work 0 4096) ++ [(0, .main), (0, .main)])
    (fun _ T => T.sessions.map (fun s => s.main) == [.over, .dead]) (by decide +kernel)
  exact ⟨demoTree_treefile, by decide, fun t => ⟨4095, rfl⟩, tr, T, h1, by simpa using h2⟩

end Props
end Nbd
