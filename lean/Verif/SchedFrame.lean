import Verif.SchedSpliceKept
import Verif.SchedKept
/-! # Bytes no request is about, with requests processed at the same time -/

set_option autoImplicit false

namespace Nbd
open Spec

/-- Where the programs of all requests received leave a byte alone, so does the execution. -/
theorem Exec.keeps {v : Nat → Server World} {U : FileId × Nat → Prop}
    (htake : ∀ sid st st' stream x, (v sid).take st stream = .val (st', x) → Keeps U st st')
    {S T : System World} {tr : List (Nat × Ext)} (hf : ∀ s ∈ S.sessions, s.Fresh) (hx : Exec v S tr T)
    (hgood : ∀ sid j, (sid, .recv j) ∈ tr → ∀ en, ((v sid).code en j.req j.payload).Keep U) :
    Keeps U S.sh.st T.sh.st ∧ ∀ (sid : Nat) (s : Session World), T.sessions[sid]? = some s →
      (∀ j ∈ s.queue, (sid, .recv j) ∈ tr) ∧ ∀ (i : Nat) y, s.workers[i]? = some y → y.Keep U := by
  induction hx with
  | nil =>
    refine ⟨.refl _ _, ?_⟩
    intro sid s hs
    obtain ⟨stream, errnos, pos, rfl⟩ := hf s (List.mem_of_getElem? hs)
    refine ⟨fun j hj => (by cases hj), ?_⟩
    intro i y hy
    obtain ⟨en, _, rfl⟩ := List.mem_map.mp (List.mem_of_getElem? hy)
    trivial
  | step tr T sid' s s' evs sh' h hs h1 ih =>
    obtain ⟨h2, h3⟩ := ih (fun sid j hj => hgood sid j (List.mem_append_left _ hj))
    obtain ⟨h4, h5⟩ := h3 _ _ hs
    have hset : ∀ {i : Nat} {z : Worker World}, z.Keep U → s'.workers = s.workers.set i z → ∀ (i : Nat) y, s'.workers[i]? = some y → y.Keep U := by
      intro i z hz hw i' y hy
      rw [hw] at hy
      rcases getElem?_set_cases hy with ⟨rfl, rfl⟩ | ⟨_, hy⟩
      · exact hz
      · exact h5 i' y hy
    have hold : ∀ {q : List Job}, (∀ j ∈ q, j ∈ s.queue) → ∀ j ∈ q, (sid', .recv j) ∈ tr ++ evs.map (fun x => (sid', x)) :=
      fun hq j hj => List.mem_append_left _ (h4 j (hq j hj))
    have hmain : Keeps U T.sh.st sh'.st ∧ (∀ j ∈ s'.queue, (sid', .recv j) ∈ tr ++ evs.map (fun x => (sid', x))) ∧
        ∀ (i : Nat) y, s'.workers[i]? = some y → y.Keep U := by
      have hd := h1.does
      generalize sh'.st = st' at hd
      cases hd with
      | main js st' s' hw hq hjs hst =>
        refine ⟨?_, ?_, by rw [hw]; exact h5⟩
        · rcases hst with rfl | ⟨x, hst⟩
          · exact .refl _ _
          · exact htake _ _ _ _ _ hst
        · intro j hj
          rw [hq] at hj
          rcases List.mem_append.mp hj with hj | hj
          · exact hold (fun _ h => h) j hj
          · exact List.mem_append_right _ (List.mem_map_of_mem (List.mem_map_of_mem hj))
      | start i en j s' hi hq hw =>
        refine ⟨.refl _ _, hold (fun j' hj' => by rw [hq]; exact List.mem_cons_of_mem _ hj'), hset (i := i) ?_ hw⟩
        exact hgood sid' j (List.mem_append_left _ (h4 j (by rw [hq]; exact List.mem_cons_self))) en
      | op i j f k st' a s' hi hf' hq hw =>
        obtain ⟨g1, g2⟩ := (show Prog.Keep U (.op f k) from h5 _ _ hi) _ _ _ hf'
        exact ⟨g1, hold (fun j hj => by rw [hq] at hj; exact hj), hset (i := i) (z := .busy j (k a)) g2 hw⟩
      | hidden i x x' s' hi hx' hq hw =>
        refine ⟨.refl _ _, hold (fun j hj => by rw [hq] at hj; exact hj), hset (i := i) ?_ hw⟩
        have := h5 _ _ hi
        cases hx' with
        | lock j m k => exact this
        | write j m xs ys k => exact this
        | log j bs k => exact this
        | finish j en => trivial
      | unlock i j m rest k s' hi hq hw =>
        exact ⟨.refl _ _, hold (fun j hj => by rw [hq] at hj; exact hj), hset (i := i) (z := .busy j k) (show Worker.Keep U (.sending j m rest k) from h5 _ _ hi) hw⟩
    refine ⟨h2.trans hmain.1, ?_⟩
    intro sid t ht
    rcases getElem?_set_cases ht with ⟨rfl, rfl⟩ | ⟨_, ht⟩
    · exact hmain.2
    · exact ⟨fun j hj => List.mem_append_left _ ((h3 _ _ ht).1 j hj), (h3 _ _ ht).2⟩

end Nbd
