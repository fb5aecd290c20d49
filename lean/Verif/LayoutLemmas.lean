import Verif.Layout
import Verif.TreeLemmas
/-! # Lemmas about the mapping from export offsets to file positions -/

namespace Nbd

/-- Specification: the file holding offset `a` is the one that starts at or before `a` while
the next one (if any) starts after it.  Linear scan, first match. -/
def locate : List FileInfo → Nat → Option (FileInfo × Option Nat)
  | [], _ => none
  | [f], a => if f.startoff ≤ a then some (f, none) else none
  | f :: g :: rest, a =>
    if f.startoff ≤ a ∧ a < g.startoff then some (f, some g.startoff) else locate (g :: rest) a

/-- Where an export byte lives: which file, at which position. -/
def home (ex : Export) (a : Nat) : Option (FileId × Nat) :=
  if has ex.flags F_TREEFILES then
    (treeFilename ex.name ex.exportsize a).map fun p => (.path p, a % TREEPAGESIZE)
  else
    (locate ex.files a).map fun (fi, _) => (.fd fi.fhandle, a - fi.startoff)

/-- A usable list of backing files: it starts at offset 0, start offsets strictly increase
(no empty file in the middle), and no file is listed twice. -/
structure GoodFiles (files : List FileInfo) : Prop where
  first : (files.head?).map FileInfo.startoff = some 0
  sorted : files.Pairwise (fun f g => f.startoff < g.startoff)
  distinct : files.Pairwise (fun f g => f.fhandle ≠ g.fhandle)

/-- An export whose layout `get_filepos` can work with. -/
structure GoodExport (ex : Export) : Prop where
  size : ex.exportsize ≤ 2 ^ 63
  files : has ex.flags F_TREEFILES = false → GoodFiles ex.files

theorem pairwise_getElem? {α} {R : α → α → Prop} {l : List α} (h : l.Pairwise R) {i j : Nat}
    {x y : α} (hij : i < j) (hi : l[i]? = some x) (hj : l[j]? = some y) : R x y := by
  rw [List.getElem?_eq_some_iff] at hi hj
  obtain ⟨h1, rfl⟩ := hi
  obtain ⟨h2, rfl⟩ := hj
  exact List.pairwise_iff_getElem.mp h i j h1 h2 hij

theorem bsearch_spec (files : List FileInfo) (a : Nat)
    (hs : files.Pairwise (fun f g => f.startoff < g.startoff)) (start fin : Int)
    (h0 : 0 ≤ start) (h1 : fin < files.length) (h2 : start ≤ fin + 1)
    (hlo : ∀ (i : Nat) (fi : FileInfo), files[i]? = some fi → (i : Int) < start → fi.startoff ≤ a)
    (hhi : ∀ (i : Nat) (fi : FileInfo), files[i]? = some fi → fin < (i : Int) → a < fi.startoff) :
    ∃ e, bsearch files a start fin = some e ∧ -1 ≤ e ∧ e < files.length ∧
      (∀ (i : Nat) (fi : FileInfo), files[i]? = some fi → (i : Int) ≤ e → fi.startoff ≤ a) ∧
      (∀ (i : Nat) (fi : FileInfo), files[i]? = some fi → e < (i : Int) → a < fi.startoff) := by
  fun_induction bsearch files a start fin with
  | case1 start fin hle mid hneg => omega
  | case2 start fin hle mid hneg hnone =>
    rw [List.getElem?_eq_none_iff] at hnone
    omega
  | case3 start fin hle mid hneg fi hfi hlt ih =>
    apply ih (by omega) h1 (by omega) _ hhi
    intro i fj hj hij
    by_cases hcase : i = mid.toNat
    · subst hcase; rw [hfi] at hj; cases hj; omega
    · have := pairwise_getElem? hs (show i < mid.toNat by omega) hj hfi
      omega
  | case4 start fin hle mid hneg fi hfi hlt hgt ih =>
    apply ih h0 (by omega) (by omega) hlo
    intro i fj hj hij
    by_cases hcase : i = mid.toNat
    · subst hcase; rw [hfi] at hj; cases hj; omega
    · have := pairwise_getElem? hs (show mid.toNat < i by omega) hfi hj
      omega
  | case5 start fin hle mid hneg fi hfi hlt hgt =>
    refine ⟨mid, rfl, by omega, by omega, ?_, ?_⟩
    · intro i fj hj hij
      by_cases hcase : i = mid.toNat
      · subst hcase; rw [hfi] at hj; cases hj; omega
      · have := pairwise_getElem? hs (show i < mid.toNat by omega) hj hfi
        omega
    · intro i fj hj hij
      have := pairwise_getElem? hs (show mid.toNat < i by omega) hfi hj
      omega
  | case6 start fin hle =>
    refine ⟨fin, rfl, by omega, h1, ?_, hhi⟩
    intro i fj hj hij
    exact hlo i fj hj (by omega)

/-- `locate` finds the unique entry with the bracketing property. -/
theorem locate_of_index (files : List FileInfo) (a : Nat)
    (hs : files.Pairwise (fun f g => f.startoff < g.startoff)) (i : Nat) (fi : FileInfo)
    (hi : files[i]? = some fi) (hle : fi.startoff ≤ a)
    (hnext : ∀ g, files[i + 1]? = some g → a < g.startoff) :
    locate files a = some (fi, (files[i + 1]?).map FileInfo.startoff) := by
  induction files generalizing i with
  | nil => simp at hi
  | cons f rest ih =>
    cases i with
    | zero =>
      simp only [List.getElem?_cons_zero, Option.some.injEq] at hi
      subst hi
      cases rest with
      | nil => simp [locate, hle]
      | cons g rest =>
        have := hnext g (by simp)
        simp [locate, hle, this]
    | succ i =>
      rw [List.getElem?_cons_succ] at hi
      cases rest with
      | nil => simp at hi
      | cons g rest =>
        rw [List.pairwise_cons] at hs
        have hg : ¬ a < g.startoff := by
          cases i with
          | zero => simp at hi; subst hi; omega
          | succ i =>
            have := pairwise_getElem? hs.2 (Nat.succ_pos i) (x := g) (by simp) hi
            omega
        have := ih hs.2 i hi (fun g' h' => hnext g' (by simpa using h'))
        simp only [locate, hg, and_false, if_false]
        simpa using this

theorem locate_index (files : List FileInfo) (a : Nat) (fi : FileInfo) (nx : Option Nat)
    (h : locate files a = some (fi, nx)) :
    ∃ i, files[i]? = some fi ∧ fi.startoff ≤ a ∧ nx = (files[i + 1]?).map FileInfo.startoff ∧
      ∀ n, nx = some n → a < n := by
  fun_induction locate files a with
  | case1 => cases h
  | case2 a f hf =>
    simp only [Option.some.injEq, Prod.mk.injEq] at h
    obtain ⟨rfl, rfl⟩ := h
    exact ⟨0, by simp [hf]⟩
  | case3 => cases h
  | case4 a f g rest hf =>
    simp only [Option.some.injEq, Prod.mk.injEq] at h
    obtain ⟨rfl, rfl⟩ := h
    exact ⟨0, by simp [hf]⟩
  | case5 a f g rest hf ih =>
    obtain ⟨i, h1, h2, h3, h4⟩ := ih h
    exact ⟨i + 1, by simpa using h1, h2, by simpa using h3, h4⟩

theorem locate_isSome (files : List FileInfo) (hg : GoodFiles files) (a : Nat) :
    ∃ fi nx, locate files a = some (fi, nx) := by
  obtain ⟨e, _, h1, h2, h3, h4⟩ := bsearch_spec files a hg.sorted 0 (files.length - 1) (by omega)
    (by omega) (by omega) (by intro i _ _ h; omega)
    (by intro i fi hi h; rw [List.getElem?_eq_some_iff] at hi; obtain ⟨h', _⟩ := hi; omega)
  have hf := hg.first
  cases files with
  | nil => simp at hf
  | cons f rest =>
    simp at hf
    have he : 0 ≤ e := by
      have : ¬ e < 0 := by
        intro hneg
        have := h4 0 f (by simp) (by omega)
        omega
      omega
    obtain ⟨n, rfl⟩ := Int.eq_ofNat_of_zero_le he
    have hn : n < (f :: rest).length := by omega
    refine ⟨_, _, locate_of_index _ a hg.sorted n ((f :: rest)[n]) (List.getElem?_eq_getElem hn)
      (h3 n _ (List.getElem?_eq_getElem hn) (by omega)) ?_⟩
    intro g hg'
    exact h4 (n + 1) g hg' (by omega)

/-- In a good layout the binary search is the linear-scan specification. -/
theorem getFilepos_files (ex : Export) (w : World) (a : Nat) (ha : a < 2 ^ 63)
    (ht : has ex.flags F_TREEFILES = false) (hg : GoodFiles ex.files) :
    ∃ fi nx, locate ex.files a = some (fi, nx) ∧
      getFilepos ex w a = .val (w, some (.file (.fd fi.fhandle), a - fi.startoff,
        match nx with | none => 0 | some n => n - a)) := by
  obtain ⟨e, hb, h1, h2, h3, h4⟩ := bsearch_spec ex.files a hg.sorted 0 (ex.files.length - 1)
    (by omega) (by omega) (by omega) (by intro i _ _ h; omega)
    (by intro i fi hi h; rw [List.getElem?_eq_some_iff] at hi; obtain ⟨h', _⟩ := hi; omega)
  have hf := hg.first
  have he : 0 ≤ e := by
    have : ¬ e < 0 := by
      intro hneg
      cases hfs : ex.files with
      | nil => rw [hfs] at hf; simp at hf
      | cons f rest =>
        rw [hfs] at hf
        simp at hf
        have := h4 0 f (by simp [hfs]) (by omega)
        omega
    omega
  obtain ⟨n, rfl⟩ := Int.eq_ofNat_of_zero_le he
  have hn : n < ex.files.length := by omega
  have hfi := List.getElem?_eq_getElem hn
  have hl := locate_of_index ex.files a hg.sorted n (ex.files[n]) hfi
    (h3 n _ hfi (by omega)) (fun g hg' => h4 (n + 1) g hg' (by omega))
  refine ⟨_, _, hl, ?_⟩
  have hneg : ¬ ((n : Int) < 0) := by omega
  have htn : (n : Int).toNat = n := rfl
  unfold getFilepos
  rw [if_neg (by omega), ht]
  simp only [Bool.false_eq_true, if_false]
  rw [hb]
  dsimp only
  rw [if_neg hneg, htn, hfi]
  cases hx : ex.files[n + 1]? <;> rfl

/-- Different in-range offsets live at different places. -/
theorem home_inj (ex : Export) (hg : GoodExport ex) (a b : Nat)
    (ha : a < ex.exportsize) (hb : b < ex.exportsize) (x : FileId × Nat)
    (h1 : home ex a = some x) (h2 : home ex b = some x) : a = b := by
  unfold home at h1 h2
  split at h1
  · rename_i ht
    rw [if_pos ht] at h2
    cases hfa : treeFilename ex.name ex.exportsize a with
    | none => simp [hfa] at h1
    | some p =>
      cases hfb : treeFilename ex.name ex.exportsize b with
      | none => simp [hfb] at h2
      | some q =>
        simp only [hfa, hfb, Option.map_some, Option.some.injEq] at h1 h2
        have h3 := h1.trans h2.symm
        simp only [Prod.mk.injEq, FileId.path.injEq] at h3
        obtain ⟨rfl, h4⟩ := h3
        have h5 := (treeFilename_eq_iff _ _ _ _ ha hb _ hfa).mp hfb
        simp only [TREEPAGESIZE] at h4
        omega
  · rename_i ht
    rw [if_neg ht] at h2
    have hgf := hg.files (by simpa using ht)
    cases hla : locate ex.files a with
    | none => simp [hla] at h1
    | some r1 =>
      obtain ⟨f, nx⟩ := r1
      cases hlb : locate ex.files b with
      | none => simp [hlb] at h2
      | some r2 =>
        obtain ⟨g, ny⟩ := r2
        simp only [hla, hlb, Option.map_some, Option.some.injEq] at h1 h2
        have h3 := h1.trans h2.symm
        simp only [Prod.mk.injEq, FileId.fd.injEq] at h3
        obtain ⟨hfd, hoff⟩ := h3
        obtain ⟨i, hi, hle, _, _⟩ := locate_index _ _ _ _ hla
        obtain ⟨j, hj, hle', _, _⟩ := locate_index _ _ _ _ hlb
        have hij : i = j := by
          rcases Nat.lt_trichotomy i j with h | h | h
          · exact absurd hfd (pairwise_getElem? hgf.distinct h hi hj)
          · exact h
          · exact absurd hfd.symm (pairwise_getElem? hgf.distinct h hj hi)
        subst hij
        rw [hi] at hj
        cases hj
        omega

end Nbd
