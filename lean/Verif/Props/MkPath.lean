import Verif.MkPath
import Verif.TreeLemmas
/-!
# Blocks of a tree export can be made wherever directories are missing: C95
-/

set_option autoImplicit false

namespace Nbd

/-! ### Parts of paths -/

theorem pathParts_nosep (f part : List Char) (hf : '/' ∉ f) : pathParts f part = if part ++ f = [] then [] else [part ++ f] := by
  induction f generalizing part with
  | nil => simp [pathParts]
  | cons c cs ih =>
    rw [List.mem_cons, not_or] at hf
    rw [pathParts, if_neg (Ne.symm hf.1), ih _ hf.2]
    simp

theorem pathParts_append (a b part : List Char) : pathParts (a ++ '/' :: b) part = pathParts a part ++ pathParts b [] := by
  induction a generalizing part with
  | nil =>
    show (if '/' = '/' then (if part = [] then pathParts b [] else part :: pathParts b []) else _) = (if part = [] then [] else [part]) ++ _
    rw [if_pos rfl]
    by_cases h : part = []
    · rw [if_pos h, if_pos h]; rfl
    · rw [if_neg h, if_neg h]; rfl
  | cons c cs ih =>
    show pathParts (c :: (cs ++ '/' :: b)) part = _
    rw [pathParts, pathParts]
    by_cases h : c = '/'
    · rw [if_pos h, if_pos h]
      by_cases h2 : part = []
      · rw [if_pos h2, if_pos h2, ih]
      · rw [if_neg h2, if_neg h2, ih]; rfl
    · rw [if_neg h, if_neg h, ih]

theorem mkdirLoop_step (s : List Char) (hs : '/' ∉ s) (t : DirTree) (pre rest : List Char) :
    mkdirLoop t pre (s ++ '/' :: rest) = mkdirLoop t (pre ++ s) ('/' :: rest) := by
  induction s generalizing pre with
  | nil => rw [List.append_nil]; rfl
  | cons c cs ih =>
    rw [List.mem_cons, not_or] at hs
    show mkdirLoop t pre (c :: (cs ++ '/' :: rest)) = _
    rw [mkdirLoop, if_neg (Ne.symm hs.1), ih hs.2]
    simp

theorem mkdirLoop_end (f : List Char) (hf : '/' ∉ f) (t : DirTree) (pre : List Char) : mkdirLoop t pre f = (t, true) := by
  induction f generalizing pre with
  | nil => rfl
  | cons c cs ih =>
    rw [List.mem_cons, not_or] at hf
    rw [mkdirLoop, if_neg (Ne.symm hf.1), ih hf.2]

/-- The place is a directory, or one can be made there. -/
def CanBeDir (t : DirTree) (q : List (List Char)) : Prop := t.node q = some true ∨ t.node q = none ∧ t.may q = true

/-- One slash: the directory in front of it is there afterwards, and nothing else has changed. -/
theorem mkdirLoop_slash (t : DirTree) (pre rest : List Char) (hp : t.node (pathParts pre []).dropLast = some true)
    (hc : CanBeDir t (pathParts pre [])) :
    ∃ t', mkdirLoop t pre ('/' :: rest) = mkdirLoop t' (pre ++ ['/']) rest ∧ t'.may = t.may ∧
      ∀ x, t'.node x = if x = pathParts pre [] then some true else t.node x := by
  rw [mkdirLoop, if_pos rfl]
  rcases hc with hc | ⟨hc, hm⟩
  · have hk : t.mkdir pre = .exists := by unfold DirTree.mkdir; dsimp only; rw [hc]
    refine ⟨t, by rw [hk], rfl, fun x => ?_⟩
    by_cases hx : x = pathParts pre []
    · rw [if_pos hx, hx, hc]
    · rw [if_neg hx]
  · have hk : t.mkdir pre = .made (t.put (pathParts pre []) true) := by
      unfold DirTree.mkdir; dsimp only; rw [hc]; dsimp only; rw [if_pos ⟨hp, hm⟩]
    exact ⟨t.put (pathParts pre []) true, by rw [hk], rfl, fun x => rfl⟩

theorem split_slash_first (d : List Char) (h : '/' ∈ d) : ∃ s r, d = s ++ '/' :: r ∧ '/' ∉ s := by
  induction d with
  | nil => cases h
  | cons c cs ih =>
    by_cases hc : c = '/'
    · exact ⟨[], cs, by rw [hc]; rfl, by simp⟩
    · obtain ⟨s, r, h1, h2⟩ := ih (by rcases List.mem_cons.mp h with h | h; exact absurd h.symm hc; exact h)
      exact ⟨c :: s, r, by rw [h1]; rfl, by simp [Ne.symm hc, h2]⟩

theorem pathParts_two (p s : List Char) (hs : '/' ∉ s) :
    pathParts (p ++ '/' :: s) [] = pathParts p [] ++ (if s = [] then [] else [s]) := by
  rw [pathParts_append, pathParts_nosep s [] hs]; rfl

/-- Between what lies below `a` and what leads to `a ++ b`. -/
def Between (a b x : List (List Char)) : Prop := a <+: x ∧ x <+: a ++ b

theorem between_cons (a : List (List Char)) (s : List Char) (b x : List (List Char)) :
    Between a ([s] ++ b) x ↔ x = a ∨ Between (a ++ [s]) b x := by
  constructor
  · rintro ⟨⟨y, rfl⟩, h2⟩
    rw [List.prefix_append_right_inj] at h2
    rcases y with _ | ⟨z, y⟩
    · left; simp
    · right
      rw [List.cons_append, List.nil_append, List.cons_prefix_cons] at h2
      obtain ⟨rfl, h2⟩ := h2
      exact ⟨⟨y, by simp⟩, by rw [List.append_assoc, List.prefix_append_right_inj]; exact (List.cons_prefix_cons.mpr ⟨rfl, h2⟩)⟩
  · rintro (rfl | ⟨h1, h2⟩)
    · exact ⟨List.prefix_refl _, List.prefix_append _ _⟩
    · exact ⟨(List.prefix_append _ _).trans h1, by rw [← List.append_assoc]; exact h2⟩

theorem mkdirLoop_from (f : List Char) (hf : '/' ∉ f) (n : Nat) : ∀ (d : List Char), d.length ≤ n → ∀ (t : DirTree) (p : List Char),
    t.node (pathParts p []) = some true →
    (∀ q, Between (pathParts p []) (pathParts d []) q → CanBeDir t q) →
    ∃ t', mkdirLoop t (p ++ ['/']) (d ++ '/' :: f) = (t', true) ∧ t'.may = t.may ∧
      (∀ x, Between (pathParts p []) (pathParts d []) x → t'.node x = some true) ∧
      (∀ x, ¬ Between (pathParts p []) (pathParts d []) x → t'.node x = t.node x) := by
  induction n with
  | zero =>
    intro d hd t p hp hc
    have : d = [] := List.length_eq_zero_iff.mp (by omega)
    subst this
    have hpp : pathParts (p ++ ['/']) [] = pathParts p [] := by
      have := pathParts_two p [] (by simp); rw [this]; simp
    have hdl : CanBeDir t (pathParts (p ++ ['/']) []) := by rw [hpp]; exact .inl hp
    have hm : t.mkdir (p ++ ['/']) = .exists := by unfold DirTree.mkdir; dsimp only; rw [hpp, hp]
    refine ⟨t, ?_, rfl, ?_, fun _ _ => rfl⟩
    · show mkdirLoop t (p ++ ['/']) ('/' :: f) = _
      rw [mkdirLoop, if_pos rfl, hm]
      exact mkdirLoop_end f hf t _
    · rintro x ⟨h1, h2⟩
      have h2 : x <+: pathParts p [] := by simpa [pathParts] using h2
      have : x = pathParts p [] := h2.eq_of_length_le h1.length_le
      rw [this]; exact hp
  | succ n ih =>
    intro d hd t p hp hc
    -- one part and its slash
    have step : ∀ s rest : List Char, '/' ∉ s → (s = [] ∨ CanBeDir t (pathParts p [] ++ [s])) →
        ∃ t1, mkdirLoop t (p ++ ['/']) (s ++ '/' :: rest) = mkdirLoop t1 (p ++ '/' :: s ++ ['/']) rest ∧ t1.may = t.may ∧
          t1.node (pathParts (p ++ '/' :: s) []) = some true ∧
          ∀ x, x ≠ pathParts (p ++ '/' :: s) [] → t1.node x = t.node x := by
      intro s rest hs hok
      rw [mkdirLoop_step s hs]
      have hq : p ++ ['/'] ++ s = p ++ '/' :: s := by simp
      rw [hq]
      have hparts := pathParts_two p s hs
      by_cases hse : s = []
      · have hm : t.mkdir (p ++ '/' :: s) = .exists := by
          unfold DirTree.mkdir; dsimp only; rw [hparts, if_pos hse, List.append_nil, hp]
        refine ⟨t, ?_, rfl, ?_, fun _ _ => rfl⟩
        · rw [mkdirLoop, if_pos rfl, hm]
        · rw [hparts, if_pos hse, List.append_nil, hp]
      · have hok : CanBeDir t (pathParts (p ++ '/' :: s) []) := by
          rw [hparts, if_neg hse]; exact hok.resolve_left hse
        have hdl : t.node (pathParts (p ++ '/' :: s) []).dropLast = some true := by
          rw [hparts, if_neg hse, List.dropLast_concat]; exact hp
        obtain ⟨t1, h1, h2, h3⟩ := mkdirLoop_slash t (p ++ '/' :: s) rest hdl hok
        exact ⟨t1, h1, h2, by rw [h3, if_pos rfl], fun x hx => by rw [h3, if_neg hx]⟩
    by_cases hsl : '/' ∈ d
    · obtain ⟨s, r, rfl, hs⟩ := split_slash_first d hsl
      have hlen : r.length ≤ n := by simp only [List.length_append, List.length_cons] at hd; omega
      have hpd : pathParts (s ++ '/' :: r) [] = (if s = [] then [] else [s]) ++ pathParts r [] := by
        rw [pathParts_append, pathParts_nosep s [] hs]; rfl
      have hparts := pathParts_two p s hs
      have hok : s = [] ∨ CanBeDir t (pathParts p [] ++ [s]) := by
        by_cases hse : s = []
        · exact .inl hse
        · right
          apply hc
          rw [hpd, if_neg hse, between_cons]
          right
          exact ⟨List.prefix_refl _, List.prefix_append _ _⟩
      obtain ⟨t1, h1, h2, h3, h4⟩ := step s (r ++ '/' :: f) hs hok
      have hc1 : ∀ q, Between (pathParts (p ++ '/' :: s) []) (pathParts r []) q → CanBeDir t1 q := by
        intro q hq
        by_cases hqe : q = pathParts (p ++ '/' :: s) []
        · rw [hqe]; exact .inl h3
        · unfold CanBeDir
          rw [h4 q hqe, h2]
          apply hc
          rw [hpd]
          rw [hparts] at hq
          by_cases hse : s = []
          · simpa [hse] using hq
          · rw [if_neg hse] at hq ⊢
            rw [between_cons]
            exact .inr hq
      obtain ⟨t2, g1, g2, g3, g4⟩ := ih r hlen t1 (p ++ '/' :: s) h3 hc1
      refine ⟨t2, ?_, g2.trans h2, ?_, ?_⟩
      · rw [List.append_assoc, List.cons_append, h1, g1]
      · intro x hx
        rw [hpd] at hx
        by_cases hse : s = []
        · apply g3; rw [hparts]; simpa [hse] using hx
        · rw [if_neg hse, between_cons] at hx
          rcases hx with rfl | hx
          · by_cases hb : Between (pathParts (p ++ '/' :: s) []) (pathParts r []) (pathParts p [])
            · exact g3 _ hb
            · rw [g4 _ hb]
              by_cases he : pathParts p [] = pathParts (p ++ '/' :: s) []
              · rw [he]; exact h3
              · rw [h4 _ he]; exact hp
          · apply g3; rw [hparts, if_neg hse]; exact hx
      · intro x hx
        rw [hpd] at hx
        have hnb : ¬ Between (pathParts (p ++ '/' :: s) []) (pathParts r []) x := by
          intro hb
          apply hx
          rw [hparts] at hb
          by_cases hse : s = []
          · simpa [hse] using hb
          · rw [if_neg hse] at hb ⊢
            rw [between_cons]
            exact .inr hb
        rw [g4 x hnb]
        apply h4
        rintro rfl
        exact hnb ⟨List.prefix_refl _, List.prefix_append _ _⟩
    · have hpd : pathParts d [] = if d = [] then [] else [d] := by rw [pathParts_nosep d [] hsl]; rfl
      have hparts := pathParts_two p d hsl
      have hok : d = [] ∨ CanBeDir t (pathParts p [] ++ [d]) := by
        by_cases hde : d = []
        · exact .inl hde
        · right
          apply hc
          rw [hpd, if_neg hde]
          exact ⟨List.prefix_append _ _, List.prefix_refl _⟩
      obtain ⟨t1, h1, h2, h3, h4⟩ := step d f hsl hok
      refine ⟨t1, by rw [h1]; exact mkdirLoop_end f hf _ _, h2, ?_, ?_⟩
      · intro x hx
        rw [hpd] at hx
        by_cases hde : d = []
        · rw [if_pos hde, ] at hx
          obtain ⟨hx1, hx2⟩ := hx
          rw [List.append_nil] at hx2
          have : x = pathParts p [] := hx2.eq_of_length_le hx1.length_le
          rw [this]
          have he : pathParts p [] = pathParts (p ++ '/' :: d) [] := by rw [hparts, if_pos hde, List.append_nil]
          rw [he]; exact h3
        · rw [if_neg hde] at hx
          have hx : Between (pathParts p []) ([d] ++ []) x := hx
          rw [between_cons] at hx
          rcases hx with rfl | ⟨hx1, hx2⟩
          · rw [h4]
            · exact hp
            · rw [hparts, if_neg hde]
              intro h
              have := congrArg List.length h
              simp at this
          · rw [List.append_nil] at hx2
            have : x = pathParts p [] ++ [d] := hx2.eq_of_length_le hx1.length_le
            rw [this]
            rw [hparts, if_neg hde] at h3
            exact h3
      · intro x hx
        apply h4
        rintro rfl
        apply hx
        rw [hparts, hpd]
        exact ⟨List.prefix_append _ _, List.prefix_refl _⟩

/-- Whatever happens, all that `mkdir_path` does is to make directories, on the way to the file. -/
theorem mkdirLoop_only (rest : List Char) : ∀ (t : DirTree) (pre : List Char) (x : List (List Char)),
    (mkdirLoop t pre rest).1.node x = t.node x ∨
    t.node x = none ∧ (mkdirLoop t pre rest).1.node x = some true ∧ ∃ a b, pre ++ rest = a ++ '/' :: b ∧ x = pathParts a [] := by
  induction rest with
  | nil => intro t pre x; exact .inl rfl
  | cons c rest ih =>
    intro t pre x
    rw [mkdirLoop]
    have hassoc : pre ++ [c] ++ rest = pre ++ c :: rest := by simp
    by_cases hc : c = '/'
    · rw [if_pos hc]
      rcases hm : t.mkdir pre with t' | _ | _
      · dsimp only
        have ht' : ∀ y, t'.node y = t.node y ∨ t.node y = none ∧ t'.node y = some true ∧ y = pathParts pre [] := by
          intro y
          unfold DirTree.mkdir at hm
          dsimp only at hm
          split at hm
          · cases hm
          · rename_i hn
            split at hm
            · cases hm
              by_cases hy : y = pathParts pre []
              · right; subst hy; exact ⟨hn, if_pos rfl, rfl⟩
              · left; exact if_neg hy
            · cases hm
        have := ih t' (pre ++ [c]) x
        rw [hassoc] at this
        rcases this with h | ⟨h1, h2, h3⟩
        · rw [h]
          rcases ht' x with h' | ⟨h1, h2, rfl⟩
          · exact .inl h'
          · exact .inr ⟨h1, h2, pre, rest, by rw [hc], rfl⟩
        · right
          rcases ht' x with h' | ⟨g1, g2, -⟩
          · exact ⟨by rw [← h']; exact h1, h2, h3⟩
          · rw [h1] at g2; cases g2
      · have := ih t (pre ++ [c]) x
        rw [hassoc] at this
        exact this
      · exact .inl rfl
    · rw [if_neg hc]
      have := ih t (pre ++ [c]) x
      rw [hassoc] at this
      exact this

/-- The name of a block: the last slash is in front of "FILE". -/
theorem constructPath_last (lenmax : Int) (size pos : Nat) (p : List Char) (pp : Nat) (h : constructPath lenmax size pos = some (p, pp)) :
    ∃ d f, p = d ++ '/' :: f ∧ '/' ∉ f ∧ f ≠ [] := by
  have hhex : ∀ v, '/' ∉ hex4 v := by
    intro v hv
    have hd : ∀ v, hexDigit v ≠ '/' := by
      intro v
      unfold hexDigit
      intro h
      have hm : '/' ∈ ['0', '1', '2', '3', '4', '5', '6', '7', '8', '9', 'A', 'B', 'C', 'D', 'E', 'F'] := by
        rw [← h]; exact List.getElem_mem _
      exact absurd hm (by decide)
    simp only [hex4, List.mem_cons, List.not_mem_nil, or_false] at hv
    rcases hv with hv | hv | hv | hv <;> exact hd _ hv.symm
  fun_induction constructPath lenmax size pos generalizing p pp with
  | case1 => cases h
  | case2 lm s hl hs =>
    cases h
    refine ⟨[], "FILE".toList ++ hex4 (pos / TREEPAGESIZE % TREEDIRSIZE), rfl, ?_, by simp⟩
    rw [List.mem_append, not_or]
    exact ⟨by decide, hhex _⟩
  | case3 => cases h
  | case4 lm s hl hs rest ppos heq ih =>
    cases h
    obtain ⟨d, f, rfl, h2, h3⟩ := ih _ _ heq
    exact ⟨"/TREE".toList ++ hex4 (ppos % TREEDIRSIZE) ++ d, f, by simp, h2, h3⟩

namespace Props

/-- **C95**, the directories. Let the path of a file be `d/f`. If every directory on the way is there or can be made, they are all there after
`mkdir_path`, and nothing else has changed. -/
theorem C95_directories (t : DirTree) (d f : List Char) (hf : '/' ∉ f) (hroot : t.node [] = some true)
    (hok : ∀ q, q <+: pathParts d [] → CanBeDir t q) (hne : d ++ '/' :: f ≠ []) :
    ∃ t', mkdirPath t (d ++ '/' :: f) = .val (t', true) ∧ t'.may = t.may ∧
      (∀ q, q <+: pathParts d [] → t'.node q = some true) ∧ (∀ q, ¬ q <+: pathParts d [] → t'.node q = t.node q) := by
  have hb : ∀ b q : List (List Char), Between [] b q ↔ q <+: b := fun b q => ⟨fun h => h.2, fun h => ⟨List.nil_prefix, h⟩⟩
  rcases d with _ | ⟨c, d⟩
  · -- the file is in the root
    refine ⟨t, ?_, rfl, ?_, fun _ _ => rfl⟩
    · show Out.val (mkdirLoop t ['/'] f) = _
      rw [mkdirLoop_end f hf]
    · intro q hq
      rw [show pathParts [] [] = [] from rfl, List.prefix_nil] at hq
      rw [hq]; exact hroot
  · show ∃ t', Out.val (mkdirLoop t [c] (d ++ '/' :: f)) = _ ∧ _
    by_cases hc : c = '/'
    · subst hc
      have hpd : pathParts ('/' :: d) [] = pathParts d [] := by have := pathParts_append [] d []; exact this
      rw [hpd] at hok ⊢
      obtain ⟨t', h1, h2, h3, h4⟩ := mkdirLoop_from f hf d.length d (Nat.le_refl _) t [] hroot (fun q hq => hok q ((hb _ _).mp hq))
      exact ⟨t', congrArg Out.val h1, h2, fun q hq => h3 q ((hb _ _).mpr hq), fun q hq => h4 q (fun h => hq ((hb _ _).mp h))⟩
    · -- a relative path: as if it began with a slash
      have hpd : pathParts (c :: d) [] = pathParts (c :: d) [] := rfl
      -- the first part
      have key : ∀ s rest, '/' ∉ s → CanBeDir t [c :: s] → ∃ t1, mkdirLoop t [c] (s ++ '/' :: rest) = mkdirLoop t1 ((c :: s) ++ ['/']) rest ∧
          t1.may = t.may ∧ t1.node [c :: s] = some true ∧ ∀ x, x ≠ [c :: s] → t1.node x = t.node x := by
        intro s rest hs hcan
        rw [mkdirLoop_step s hs]
        have hp1 : pathParts ([c] ++ s) [] = [c :: s] := by
          rw [pathParts_nosep _ [] (by simp [Ne.symm hc, hs])]; rfl
        obtain ⟨t1, h1, h2, h3⟩ := mkdirLoop_slash t ([c] ++ s) rest (by rw [hp1]; exact hroot) (by rw [hp1]; exact hcan)
        rw [hp1] at h3
        exact ⟨t1, h1, h2, by rw [h3, if_pos rfl], fun x hx => by rw [h3, if_neg hx]⟩
      by_cases hsl : '/' ∈ d
      · obtain ⟨s, r, rfl, hs⟩ := split_slash_first d hsl
        have hcs : '/' ∉ c :: s := by simp [Ne.symm hc, hs]
        have hp0 : pathParts (c :: s) [] = [c :: s] := by rw [pathParts_nosep _ [] hcs]; rfl
        have hpd : pathParts (c :: (s ++ '/' :: r)) [] = [c :: s] ++ pathParts r [] := by
          have := pathParts_append (c :: s) r []
          rw [hp0] at this
          exact this
        rw [hpd] at hok ⊢
        obtain ⟨t1, h1, h2, h3, h4⟩ := key s (r ++ '/' :: f) hs (hok _ (List.prefix_append _ _))
        have hb2 : ∀ q, q <+: [c :: s] ++ pathParts r [] ↔ q = [] ∨ Between [c :: s] (pathParts r []) q := by
          intro q
          have := between_cons [] (c :: s) (pathParts r []) q
          rw [hb] at this
          exact this
        obtain ⟨t2, g1, g2, g3, g4⟩ := mkdirLoop_from f hf r.length r (Nat.le_refl _) t1 (c :: s) (by rw [hp0]; exact h3) (by
          rw [hp0]
          intro q hq
          by_cases hqe : q = [c :: s]
          · rw [hqe]; exact .inl h3
          · unfold CanBeDir
            rw [h4 q hqe, h2]
            exact hok q ((hb2 q).mpr (.inr hq)))
        rw [hp0] at g3 g4
        refine ⟨t2, ?_, g2.trans h2, ?_, ?_⟩
        · rw [List.append_assoc, List.cons_append, h1, g1]
        · intro q hq
          rcases (hb2 q).mp hq with rfl | hq
          · have hnb : ¬ Between [c :: s] (pathParts r []) [] := by rintro ⟨hh, -⟩; cases List.prefix_nil.mp hh
            rw [g4 _ hnb, h4 _ (by simp)]; exact hroot
          · exact g3 q hq
        · intro q hq
          have hnb : ¬ Between [c :: s] (pathParts r []) q := fun h => hq ((hb2 q).mpr (.inr h))
          rw [g4 q hnb]
          apply h4
          rintro rfl
          exact hnb ⟨List.prefix_refl _, List.prefix_append _ _⟩
      · have hcs : '/' ∉ c :: d := by simp [Ne.symm hc, hsl]
        have hpd : pathParts (c :: d) [] = [c :: d] := by rw [pathParts_nosep _ [] hcs]; rfl
        rw [hpd] at hok ⊢
        obtain ⟨t1, h1, h2, h3, h4⟩ := key d f hsl (hok _ (List.prefix_refl _))
        refine ⟨t1, by rw [h1, mkdirLoop_end f hf], h2, ?_, ?_⟩
        · intro q hq
          rcases q with _ | ⟨y, q⟩
          · rw [h4 _ (by simp)]; exact hroot
          · rw [List.cons_prefix_cons] at hq
            obtain ⟨rfl, hq⟩ := hq
            rw [List.prefix_nil] at hq
            subst hq
            exact h3
        · intro q hq
          apply h4
          rintro rfl
          exact hq (List.prefix_refl _)

/-- **C95.** A block of a tree export that is not there, and whose file name is `path`, gets made whatever is missing on the way to it: if every
directory on the way is there or can be made, and the file can, then afterwards they are there, and nothing else has changed. -/
theorem C95_block (t : DirTree) (name path : List Char) (size pos : Nat) (hpath : treeFilename name size pos = some path)
    (hroot : t.node [] = some true) (hok : ∀ q, q <+: (pathParts path []).dropLast → CanBeDir t q)
    (hnew : t.node (pathParts path []) = none) (hmay : t.may (pathParts path []) = true) :
    ∃ t', makeBlock t path = .val (t', true) ∧ t'.node (pathParts path []) = some false ∧
      (∀ q, q <+: (pathParts path []).dropLast → t'.node q = some true) ∧
      (∀ q, ¬ q <+: pathParts path [] → t'.node q = t.node q) := by
  obtain ⟨d, f, rfl, hf, hfe⟩ : ∃ d f, path = d ++ '/' :: f ∧ '/' ∉ f ∧ f ≠ [] := by
    unfold treeFilename at hpath
    split at hpath
    · cases hpath
    · rename_i p pp heq
      cases hpath
      obtain ⟨d, f, rfl, h2, h3⟩ := constructPath_last _ _ _ _ _ heq
      exact ⟨name ++ d, f, by simp, h2, h3⟩
  have hpp : pathParts (d ++ '/' :: f) [] = pathParts d [] ++ [f] := by rw [pathParts_two d f hf, if_neg hfe]
  rw [hpp] at hok hnew hmay ⊢
  rw [List.dropLast_concat] at hok ⊢
  obtain ⟨t1, h1, h2, h3, h4⟩ := C95_directories t d f hf hroot hok (by simp)
  have hnp : ¬ (pathParts d [] ++ [f]) <+: pathParts d [] := by
    intro h
    have := h.length_le
    simp only [List.length_append, List.length_singleton] at this
    omega
  have hn1 : t1.node (pathParts d [] ++ [f]) = none := by rw [h4 _ hnp]; exact hnew
  have hcr : t1.create (d ++ '/' :: f) = some (t1.put (pathParts d [] ++ [f]) false) := by
    unfold DirTree.create
    dsimp only
    rw [hpp, hn1]
    dsimp only
    rw [List.dropLast_concat, if_pos ⟨h3 _ (List.prefix_refl _), by rw [h2]; exact hmay⟩]
  refine ⟨t1.put (pathParts d [] ++ [f]) false, ?_, if_pos rfl, ?_, ?_⟩
  · unfold makeBlock
    rw [h1]
    dsimp only
    rw [hcr]
  · intro q hq
    have hqe : q ≠ pathParts d [] ++ [f] := by rintro rfl; exact hnp hq
    show (if q = _ then _ else _) = _
    rw [if_neg hqe]
    exact h3 q hq
  · intro q hq
    have hqe : q ≠ pathParts d [] ++ [f] := by rintro rfl; exact hq (List.prefix_refl _)
    show (if q = _ then _ else _) = _
    rw [if_neg hqe]
    exact h4 q (fun h => hq (h.trans (List.prefix_append _ _)))

/-- **C95, whatever is in the way**: nothing is overwritten or removed; all that can be new are directories in front of a slash of the path, and
the file. -/
theorem C95_only (t : DirTree) (path : List Char) (t' : DirTree) (b : Bool) (h : makeBlock t path = .val (t', b)) (x : List (List Char)) :
    t'.node x = t.node x ∨ t.node x = none ∧
      (t'.node x = some true ∧ (∃ a b, path = a ++ '/' :: b ∧ x = pathParts a []) ∨ t'.node x = some false ∧ x = pathParts path []) := by
  rcases path with _ | ⟨c, rest⟩
  · cases h
  have ho := mkdirLoop_only rest t [c] x
  unfold makeBlock at h
  rw [show mkdirPath t (c :: rest) = .val (mkdirLoop t [c] rest) from rfl] at h
  rcases hm : mkdirLoop t [c] rest with ⟨t1, ok⟩
  rw [hm] at h ho
  dsimp only at ho
  cases ok with
  | false =>
    cases h
    rcases ho with h | ⟨h1, h2, h3⟩
    · exact .inl h
    · exact .inr ⟨h1, .inl ⟨h2, h3⟩⟩
  | true =>
    dsimp only at h
    rcases hc : t1.create (c :: rest) with _ | t2
    · rw [hc] at h
      cases h
      rcases ho with h | ⟨h1, h2, h3⟩
      · exact .inl h
      · exact .inr ⟨h1, .inl ⟨h2, h3⟩⟩
    · rw [hc] at h
      cases h
      unfold DirTree.create at hc
      dsimp only at hc
      have hput : t'.node x = t1.node x ∨ x = pathParts (c :: rest) [] ∧ t1.node x = none ∧ t'.node x = some false := by
        split at hc
        · cases hc; exact .inl rfl
        · cases hc
        · rename_i hn
          split at hc
          · cases hc
            by_cases hx : x = pathParts (c :: rest) []
            · right; subst hx; exact ⟨rfl, hn, if_pos rfl⟩
            · left; exact if_neg hx
          · cases hc
      rcases hput with hp | ⟨hx, hn, hp⟩
      · rw [hp]
        rcases ho with h | ⟨h1, h2, h3⟩
        · exact .inl h
        · exact .inr ⟨h1, .inl ⟨h2, h3⟩⟩
      · right
        rcases ho with h | ⟨h1, h2, h3⟩
        · exact ⟨by rw [← h]; exact hn, .inr ⟨hp, hx⟩⟩
        · rw [hn] at h2; cases h2

/-- **The hypotheses.** An export of 16 MiB in "/srv/disk": only "/srv" is there, and the directory "disk" and the one for the block get made. -/
example : ∃ (t : DirTree) (path : List Char), treeFilename "/srv/disk".toList (16 * 2 ^ 20) 12345678 = some path ∧
    t.node [] = some true ∧ (∀ q, q <+: (pathParts path []).dropLast → CanBeDir t q) ∧ t.node (pathParts path []) = none ∧
    t.may (pathParts path []) = true ∧ t.node ["srv".toList, "disk".toList] = none ∧
    pathParts path [] = ["srv".toList, "disk".toList, "TREE0002".toList, "FILE03C6".toList] := by
  refine ⟨⟨fun q => if q = [] ∨ q = ["srv".toList] then some true else none, fun _ => true⟩, "/srv/disk/TREE0002/FILE03C6".toList,
    by decide +kernel, rfl, ?_, by decide, rfl, by decide,
    by decide⟩
  intro q _
  unfold CanBeDir
  dsimp only
  by_cases h : q = [] ∨ q = ["srv".toList]
  · exact .inl (if_pos h)
  · exact .inr ⟨if_neg h, rfl⟩

end Props
end Nbd
