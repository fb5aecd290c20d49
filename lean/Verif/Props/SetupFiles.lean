import Verif.SetupFsLemmas
import Verif.Config
/-! # C103: what choosing an export does to the files of the server -/
set_option autoImplicit false

namespace Nbd.Spec
open Nbd

/-- Names stand for files that are there. -/
def FsOk (fs : Fs) : Prop := ∀ p i, fs.names p = some i → i < fs.inodes.length

/-- An export for which the server may create its file: it has a size, may be written, and is one file that is not temporary. -/
structure MayCreate (flags expected : Nat) : Prop where
  size : expected ≠ 0
  writable : has flags F_READONLY = false
  one : has flags F_MULTIFILE = false
  lasting : has flags F_TEMPORARY = false
  files : has flags F_TREEFILES = false ∧ has flags F_WAIT = false

/-- A temporary export: `temporary`, and none of the options that make the server ignore it. -/
structure Temporary (flags : Nat) : Prop where
  temporary : has flags F_TEMPORARY = true
  one : has flags F_MULTIFILE = false
  files : has flags F_TREEFILES = false ∧ has flags F_WAIT = false

/-- `n` became `n'` because it was the empty file of an export with a size: it is now as long as the export and all zero. -/
structure Filled (expected : Nat) (n n' : Inode) : Prop where
  regular : n.regular = true
  empty : n.data = []
  now : n' = { n with data := List.replicate expected 0 }

/-- The server (which does not fork) after `m` clients have chosen this export, or one client has chosen it `m` times. -/
def afterAsking (k : Kern) (flags expected : Nat) (name : List Char) : Nat → Fs → Fs
  | 0, fs => fs
  | m + 1, fs => afterAsking k flags expected name m (setupFs k flags expected name fs).1

/-- The file of the export is there and can be read and written, but it is shorter than the export. -/
structure TooShort (fs : Fs) (name : List Char) (expected : Nat) : Prop where
  there : ∃ j n, fs.names name = some j ∧ fs.inodes[j]? = some n ∧ n.regular = true ∧ n.readable = true ∧ n.writable = true ∧
    0 < n.data.length ∧ n.data.length < expected

end Nbd.Spec

namespace Nbd.Props
open Nbd Nbd.Spec

/-- What the loop does when there is one file. -/
theorem single_cases (k : Kern) (temporary : Bool) (expected : Nat) (name : List Char) (flags : Nat) (fs : Fs) :
    let r := openFiles k false temporary expected name 0 flags [] 0 0 fs
    (r.1 = fs ∧ r.2 = none) ∨
    (∃ j n f w, temporary = false ∧ fs.names name = some j ∧ fs.inodes[j]? = some n ∧ n.readable = true ∧
      r.1.names = fs.names ∧ r.1.fds = fs.fds ++ [⟨j, w⟩] ∧ f = fs.fds.length ∧
      ((r.1.inodes = fs.inodes ∧ (∀ q, r.2 = some q → ∃ fl, q = (fl, [⟨f, 0⟩], 0, sizeAutodetect (probeOf r.1 f true true))) ∧
          (r.2 = none → expected ≠ 0 ∧ sizeAutodetect (probeOf r.1 f true true) = 0)) ∨
        (expected ≠ 0 ∧ n.regular = true ∧ n.data = [] ∧ n.writable = true ∧ has flags F_READONLY = false ∧
          r.1.inodes = fs.inodes.set j { n with data := List.replicate expected 0 } ∧ r.2 = some (flags, [⟨f, 0⟩], 0, expected)))) ∨
    (∃ p, fs.names p = none ∧ r.1.fds = fs.fds ++ [⟨fs.inodes.length, true⟩] ∧
      (temporary = false → p = name ∧ expected ≠ 0 ∧ has flags F_READONLY = false) ∧
      r.1.names = (if temporary && k.unlinks then fs.names else setName fs.names p (some fs.inodes.length)) ∧
      ((r.1.inodes = fs.inodes ++ [⟨true, [], true, true⟩] ∧ r.2 = none ∧ expected ≠ 0 ∧ k.grow expected = false) ∨
        (r.1.inodes = fs.inodes ++ [⟨true, List.replicate expected 0, true, true⟩] ∧
          r.2 = some (flags, [⟨fs.fds.length, 0⟩], 0, expected)))) := by
  have hset : ∀ p, fs.names p = none → setName (setName fs.names p (some fs.inodes.length)) p none = fs.names := by
    intro p hp
    funext q
    unfold setName
    by_cases hq : q = p
    · rw [if_pos hq, hq, hp]
    · rw [if_neg hq, if_neg hq]
  dsimp only
  rw [openFiles_eq]
  have hcc : (expected != 0 && !false && (0 : Nat) == 0) = (expected != 0) := by simp
  rw [hcc]
  have ho := openNth_opened k flags false temporary (expected != 0) name 0 fs
  generalize openNth k flags false temporary (expected != 0) name 0 fs = q at ho
  have fresh : ∀ fs1 : Fs, fs1.fds = fs.fds ++ [⟨fs.inodes.length, true⟩] → fs1.inodes = fs.inodes ++ [⟨true, [], true, true⟩] →
      sizeAutodetect (probeOf fs1 fs.fds.length true true) = 0 ∧
      growTo k fs.fds.length expected fs1 = if k.grow expected then
        ({ fs1 with inodes := fs.inodes ++ [⟨true, List.replicate expected 0, true, true⟩] }, true) else (fs1, false) := by
    intro fs1 h1 h2
    have e1 : fs1.fds[fs.fds.length]? = some ⟨fs.inodes.length, true⟩ := by rw [h1]; simp
    have e2 : fs1.inodes[fs.inodes.length]? = some ⟨true, [], true, true⟩ := by rw [h2]; simp
    constructor
    · unfold probeOf
      simp only [e1, e2]
      rfl
    · unfold growTo
      simp only [e1, e2, Bool.and_self, Bool.true_and]
      have e3 : fs1.inodes.set fs.inodes.length ⟨true, List.replicate expected 0, true, true⟩ =
          fs.inodes ++ [⟨true, List.replicate expected 0, true, true⟩] := by
        rw [h2, List.set_append_right _ _ (Nat.le_refl _), Nat.sub_self]; rfl
      rw [e3]
  cases ho with
  | failed => exact .inl ⟨rfl, by simp⟩
  | found p j n f w ht hp hn hj hr hw hl hf =>
    have hp' : p = name := hp
    subst hp'
    refine .inr (.inl ⟨j, n, fs.fds.length, w, ht, hn, hj, hr, ?_⟩)
    generalize hfs1 : ({ fs with fds := fs.fds ++ [⟨j, w⟩] } : Fs) = fs1
    have e0 : fs1.names = fs.names ∧ fs1.inodes = fs.inodes ∧ fs1.fds = fs.fds ++ [⟨j, w⟩] := by rw [← hfs1]; exact ⟨rfl, rfl, rfl⟩
    have e1 : fs1.fds[fs.fds.length]? = some ⟨j, w⟩ := by rw [e0.2.2]; simp
    have e2 : fs1.inodes[j]? = some n := by rw [e0.2.1]; exact hj
    simp only []
    by_cases hz : (sizeAutodetect (probeOf fs1 fs.fds.length true true) == 0 && expected != 0) = true
    · rw [if_pos hz]
      simp only [Bool.and_eq_true, beq_iff_eq, bne_iff_ne] at hz
      have hg : growTo k fs.fds.length expected fs1 = if w && n.regular && k.grow expected then
          ({ fs1 with inodes := fs1.inodes.set j { n with data := List.replicate expected 0 } }, true) else (fs1, false) := by
        unfold growTo
        simp only [e1, e2]
      rw [hg]
      by_cases hc : (w && n.regular && k.grow expected) = true
      · rw [if_pos hc]
        simp only [Bool.and_eq_true] at hc
        have hd : n.data = [] := by
          have := hz.1
          unfold probeOf at this
          simp only [e1, e2, hc.1.2, if_true, sizeAutodetect] at this
          exact List.length_eq_zero_iff.mp this
        have hfl : f = flags ∧ has flags F_READONLY = false := by
          rcases hf with ⟨h1, h2⟩ | ⟨h1, _⟩
          · refine ⟨h1, ?_⟩
            rw [hc.1.1] at h2
            simpa using h2.symm
          · rw [hc.1.1] at h1; cases h1
        refine ⟨e0.1, e0.2.2, trivial, .inr ⟨hz.2, hc.1.2, hd, hw hc.1.1, hfl.2, ?_, ?_⟩⟩
        · show fs1.inodes.set j _ = _
          rw [e0.2.1]
        · rw [hfl.1]; rfl
      · rw [if_neg hc]
        exact ⟨e0.1, e0.2.2, trivial, .inl ⟨e0.2.1, fun q hq => (nomatch hq), fun _ => ⟨hz.2, hz.1⟩⟩⟩
    · rw [if_neg hz]
      simp only [Bool.not_false, Bool.true_or, if_true]
      exact ⟨e0.1, e0.2.2, trivial, .inl ⟨e0.2.1, fun q hq => ⟨f, by cases hq; rfl⟩, fun h => nomatch h⟩⟩
  | created p ht hp hn hc hro hk hl =>
    have hp' : p = name := hp
    subst hp'
    have hx : expected ≠ 0 := by simpa using hc
    obtain ⟨h1, h2⟩ := fresh (fs.made p) rfl rfl
    refine .inr (.inr ⟨p, hn, ?_⟩)
    simp only [h1, hc, beq_self_eq_true, Bool.and_self, if_true, h2]
    cases hg : k.grow expected with
    | true =>
      simp only [if_true]
      refine ⟨rfl, fun _ => ⟨trivial, hx, hro⟩, ?_, .inr ⟨trivial, rfl⟩⟩
      rw [ht]; rfl
    | false =>
      simp only [Bool.false_eq_true, if_false]
      refine ⟨rfl, fun _ => ⟨trivial, hx, hro⟩, ?_, .inl ⟨rfl, trivial, hx, trivial⟩⟩
      rw [ht]; rfl
  | temp p ht hp hn hk hl =>
    refine .inr (.inr ⟨p, hn, ?_⟩)
    have hu : (unlinkAt k p (fs.made p)).fds = fs.fds ++ [⟨fs.inodes.length, true⟩] ∧
        (unlinkAt k p (fs.made p)).inodes = fs.inodes ++ [⟨true, [], true, true⟩] ∧
        (unlinkAt k p (fs.made p)).names = (if temporary && k.unlinks then fs.names else setName fs.names p (some fs.inodes.length)) := by
      unfold unlinkAt
      cases hul : k.unlinks with
      | true =>
        rw [if_pos rfl, ht]
        exact ⟨rfl, rfl, by simp only [Bool.and_self, if_true]; exact hset p hn⟩
      | false =>
        rw [if_neg (by decide), ht]
        exact ⟨rfl, rfl, rfl⟩
    generalize unlinkAt k p (fs.made p) = fs1 at hu
    obtain ⟨h1, h2⟩ := fresh fs1 hu.1 hu.2.1
    by_cases hx : expected = 0
    · subst hx
      simp only [h1, bne_self_eq_false, Bool.and_false, Bool.false_eq_true, if_false, Bool.not_false, Bool.true_or, if_true]
      exact ⟨hu.1, fun h => absurd h (by rw [ht]; decide), hu.2.2, .inr ⟨hu.2.1, rfl⟩⟩
    · have hc : (expected != 0) = true := by simpa using hx
      simp only [h1, hc, beq_self_eq_true, Bool.and_self, if_true, h2]
      cases hg : k.grow expected with
      | true =>
        simp only [if_true]
        exact ⟨hu.1, fun h => absurd h (by rw [ht]; decide), hu.2.2, .inr ⟨trivial, rfl⟩⟩
      | false =>
        simp only [Bool.false_eq_true, if_false]
        exact ⟨hu.1, fun h => absurd h (by rw [ht]; decide), hu.2.2, .inl ⟨hu.2.1, trivial, hx, trivial⟩⟩

theorem setupFs_fst {k : Kern} {flags expected : Nat} {name : List Char} {fs : Fs}
    (h : (has flags F_TREEFILES || has flags F_WAIT) = false) : (setupFs k flags expected name fs).1 =
      (openFiles k (has flags F_MULTIFILE) (has flags F_TEMPORARY && !has flags F_MULTIFILE) expected name 0 flags [] 0 0 fs).1 := by
  unfold setupFs
  rw [if_neg (by simp [h])]
  rcases hr : openFiles k (has flags F_MULTIFILE) (has flags F_TEMPORARY && !has flags F_MULTIFILE) expected name 0 flags [] 0 0 fs
    with ⟨fs1, _ | ⟨f, files, lso, ls⟩⟩
  · rfl
  · simp only []
    by_cases he : (expected != 0) = true
    · rw [if_pos he]
      by_cases hg : expected > (lso + ls) % 2 ^ 64
      · rw [if_pos hg]
      · rw [if_neg hg]
    · rw [if_neg he]

/-- **C103**, what is left alone. Whatever export a client chooses and however that ends: every file that had a name keeps it and is the
same file; every file keeps its contents, except that the export's own file, if it was empty and the export has a size, is now that
long and all zero; and no name is new except the export's own, and that only if the export has a size and is a single, writable file that
is not temporary. (For temporary exports: if the server can remove the file it has just made.) -/
theorem C103_frame (k : Kern) (flags expected : Nat) (name : List Char) (fs : Fs)
    (hu : has flags F_TEMPORARY = true → k.unlinks = true) :
    (∀ p i, fs.names p = some i → (setupFs k flags expected name fs).1.names p = some i) ∧
    (∀ p, fs.names p = none → (setupFs k flags expected name fs).1.names p ≠ none → p = name ∧ MayCreate flags expected) ∧
    (∀ i n, fs.inodes[i]? = some n → (setupFs k flags expected name fs).1.inodes[i]? = some n ∨
      ∃ n', (setupFs k flags expected name fs).1.inodes[i]? = some n' ∧ Filled expected n n' ∧ n.writable = true ∧
        fs.names name = some i ∧ MayCreate flags expected) := by
  by_cases ht : (has flags F_TREEFILES || has flags F_WAIT) = true
  · have : (setupFs k flags expected name fs).1 = fs := by unfold setupFs; rw [if_pos ht]
    rw [this]
    exact ⟨fun p i h => h, fun p h h' => absurd h h', fun i n h => .inl h⟩
  · have ht : (has flags F_TREEFILES || has flags F_WAIT) = false := by simpa using ht
    have hfiles : has flags F_TREEFILES = false ∧ has flags F_WAIT = false := by simpa using ht
    rw [setupFs_fst ht]
    cases hm : has flags F_MULTIFILE with
    | true =>
      rw [Bool.not_true, Bool.and_false]
      obtain ⟨h1, h2⟩ := openFiles_multi k expected name _ 0 flags [] 0 0 fs (Nat.le_refl _)
      rw [h1, h2]
      exact ⟨fun p i h => h, fun p h h' => absurd h h', fun i n h => .inl h⟩
    | false =>
      rw [Bool.not_false, Bool.and_true]
      have hs := single_cases k (has flags F_TEMPORARY) expected name flags fs
      dsimp only at hs
      generalize openFiles k false (has flags F_TEMPORARY) expected name 0 flags [] 0 0 fs = r at hs
      have grown : ∀ (x : Inode) (i : Nat) (n : Inode), fs.inodes[i]? = some n → (fs.inodes ++ [x])[i]? = some n := by
        intro x i n h
        rw [List.getElem?_append_left (List.getElem?_eq_some_iff.mp h).1]
        exact h
      rcases hs with ⟨h1, _⟩ | ⟨j, n, f, w, hte, hn, hj, hr, h1, _, _, h2⟩ | ⟨p, hn, _, hp, h1, h2⟩
      · rw [h1]
        exact ⟨fun p i h => h, fun p h h' => absurd h h', fun i n h => .inl h⟩
      · rw [h1]
        refine ⟨fun p i h => h, fun p h h' => absurd h h', fun i m h => ?_⟩
        rcases h2 with ⟨h2, _⟩ | ⟨hx, hreg, hd, hw, hro, h2, _⟩
        · rw [h2]; exact .inl h
        · rw [h2]
          by_cases hij : j = i
          · subst hij
            rw [hj] at h
            cases h
            refine .inr ⟨_, ?_, ⟨hreg, hd, rfl⟩, hw, hn, ⟨hx, hro, hm, hte, hfiles⟩⟩
            rw [List.getElem?_set_self (List.getElem?_eq_some_iff.mp hj).1]
          · rw [List.getElem?_set_ne hij]
            exact .inl h
      · refine ⟨?_, ?_, ?_⟩
        · intro q i hq
          rw [h1]
          by_cases hc : (has flags F_TEMPORARY && k.unlinks) = true
          · rw [if_pos hc]; exact hq
          · rw [if_neg hc]
            unfold setName
            rw [if_neg (by intro h; rw [h, hn] at hq; cases hq)]
            exact hq
        · intro q hq hq'
          rw [h1] at hq'
          cases hte : has flags F_TEMPORARY with
          | true =>
            rw [hte, hu hte] at hq'
            exact absurd hq hq'
          | false =>
            obtain ⟨h3, h4, h5⟩ := hp hte
            rw [hte] at hq'
            refine ⟨?_, h4, h5, hm, hte, hfiles⟩
            by_cases hqp : q = p
            · rw [hqp, h3]
            · exfalso
              apply hq'
              show setName fs.names p _ q = none
              unfold setName
              rw [if_neg hqp]
              exact hq
        · intro i m h
          rcases h2 with ⟨h2, _⟩ | ⟨h2, _⟩ <;> rw [h2] <;> exact .inl (grown _ _ _ h)

/-- **C103**, temporary exports (partial: not trees, `C103_false_tree`, and not exports that wait for a file). A client that is given a temporary export is given a file of its own: one that was not there before,
which no name leads to, as long as the configuration says and all zero; the names and all other files are as they were. Any two
clients are therefore given different files. -/
theorem C103_temporary_partial (k : Kern) (flags expected : Nat) (name : List Char) (fs fs' : Fs) (ex : Export) (hok : FsOk fs)
    (hx : expected < 2 ^ 64) (ht : Temporary flags) (hu : k.unlinks = true) (h : setupFs k flags expected name fs = (fs', some ex)) :
    fs'.names = fs.names ∧ fs'.inodes = fs.inodes ++ [⟨true, List.replicate expected 0, true, true⟩] ∧
    ex.files = [⟨fs.fds.length, 0⟩] ∧ fs'.fds[fs.fds.length]? = some ⟨fs.inodes.length, true⟩ ∧ ex.exportsize = expected ∧
    (∀ p, fs'.names p ≠ some fs.inodes.length) ∧ ex.flags = flags := by
  have htw : (has flags F_TREEFILES || has flags F_WAIT) = false := by rw [ht.files.1, ht.files.2]; rfl
  have h1 := setupFs_fst (k := k) (expected := expected) (name := name) (fs := fs) htw
  have hs := single_cases k (has flags F_TEMPORARY) expected name flags fs
  dsimp only at hs
  unfold setupFs at h
  rw [if_neg (by simp [htw])] at h
  simp only [ht.one, ht.temporary, Bool.not_false, Bool.and_true] at h hs
  rcases hr : openFiles k false true expected name 0 flags [] 0 0 fs with ⟨fs1, _ | ⟨f, files, lso, ls⟩⟩
  · rw [hr] at h; cases h
  · rw [hr] at h hs
    simp only [] at h hs
    rcases hs with ⟨_, h2⟩ | ⟨_, _, _, _, h2, _⟩ | ⟨p, hn, hfd, _, hnm, h2⟩
    · cases h2
    · cases h2
    · rcases h2 with ⟨_, h2, _⟩ | ⟨h2, h3⟩
      · cases h2
      · cases h3
        rw [hu] at hnm
        have hnm : fs1.names = fs.names := hnm
        have hex : fs' = fs1 ∧ ex = ⟨flags, expected, [⟨fs.fds.length, 0⟩], name⟩ := by
          have hmod : (0 + expected) % 2 ^ 64 = expected := by omega
          rw [hmod] at h
          by_cases he : (expected != 0) = true
          · rw [if_pos he, if_neg (by omega)] at h
            cases h; exact ⟨rfl, rfl⟩
          · rw [if_neg he] at h
            cases h; exact ⟨rfl, rfl⟩
        obtain ⟨rfl, rfl⟩ := hex
        refine ⟨hnm, h2, rfl, ?_, rfl, ?_, rfl⟩
        · rw [hfd]; simp
        · intro q hq
          rw [hnm] at hq
          exact absurd (hok q _ hq) (Nat.lt_irrefl _)

/-- **C103**, created exports. If the file is not there, the export has a size and is one writable file that is not temporary, then a client
that is given it is given a new file of that name, as long as the configuration says and all zero. -/
theorem C103_created (k : Kern) (flags expected : Nat) (name : List Char) (fs fs' : Fs) (ex : Export)
    (hx : expected < 2 ^ 64) (hc : MayCreate flags expected) (hn : fs.names name = none)
    (h : setupFs k flags expected name fs = (fs', some ex)) :
    fs'.names name = some fs.inodes.length ∧ fs'.inodes[fs.inodes.length]? = some ⟨true, List.replicate expected 0, true, true⟩ ∧
    ex.files = [⟨fs.fds.length, 0⟩] ∧ fs'.fds[fs.fds.length]? = some ⟨fs.inodes.length, true⟩ ∧ ex.exportsize = expected := by
  have htw : (has flags F_TREEFILES || has flags F_WAIT) = false := by rw [hc.files.1, hc.files.2]; rfl
  have hs := single_cases k (has flags F_TEMPORARY) expected name flags fs
  dsimp only at hs
  unfold setupFs at h
  rw [if_neg (by simp [htw])] at h
  simp only [hc.one, hc.lasting, Bool.not_false, Bool.and_true] at h hs
  rcases hr : openFiles k false false expected name 0 flags [] 0 0 fs with ⟨fs1, _ | ⟨f, files, lso, ls⟩⟩
  · rw [hr] at h; cases h
  · rw [hr] at h hs
    simp only [] at h hs
    rcases hs with ⟨_, h2⟩ | ⟨j, _, _, _, _, h2, _⟩ | ⟨p, hnp, hfd, hp, hnm, h2⟩
    · cases h2
    · rw [hn] at h2; cases h2
    · rcases h2 with ⟨_, h2, _⟩ | ⟨h2, h3⟩
      · cases h2
      · cases h3
        obtain ⟨rfl, _⟩ := hp trivial
        have hmod : (0 + expected) % 2 ^ 64 = expected := by omega
        rw [hmod, if_pos (by simpa using hc.size), if_neg (by omega)] at h
        cases h
        refine ⟨?_, ?_, rfl, ?_, rfl⟩
        · rw [hnm]; simp [setName]
        · rw [h2]; simp
        · rw [hfd]; simp

/-- **C103**, missing files. Without a size nothing is created, so a client that asks for an export whose file is missing is refused,
and names and files are as they were. -/
theorem C103_missing (k : Kern) (flags : Nat) (name : List Char) (fs : Fs)
    (hm : has flags F_MULTIFILE = false) (htmp : has flags F_TEMPORARY = false)
    (ht : has flags F_TREEFILES = false ∧ has flags F_WAIT = false) (hn : fs.names name = none) :
    setupFs k flags 0 name fs = (fs, none) := by
  unfold setupFs
  rw [if_neg (by rw [ht.1, ht.2]; decide)]
  simp only [hm, htmp, Bool.false_and]
  rw [openFiles_eq]
  have ho := openNth_opened k flags false false ((0 : Nat) != 0 && !false && (0 : Nat) == 0) name 0 fs
  generalize openNth k flags false false ((0 : Nat) != 0 && !false && (0 : Nat) == 0) name 0 fs = q at ho
  cases ho with
  | failed => rfl
  | found p j n f w h1 hp hn' =>
    have hp' : p = name := hp
    rw [hp', hn] at hn'
    cases hn'
  | created p h1 hp h2 hc => exact absurd hc (by decide)
  | temp p h1 => cases h1

/-- **C103**, files that are there. A client that is given an export of one file that is there and that is not temporary is given that
file, and no name has changed. -/
theorem C103_served (k : Kern) (flags expected : Nat) (name : List Char) (fs fs' : Fs) (ex : Export) (j : Nat)
    (hm : has flags F_MULTIFILE = false) (htmp : has flags F_TEMPORARY = false)
    (ht : has flags F_TREEFILES = false ∧ has flags F_WAIT = false) (hn : fs.names name = some j)
    (h : setupFs k flags expected name fs = (fs', some ex)) :
    fs'.names = fs.names ∧ ex.files = [⟨fs.fds.length, 0⟩] ∧ ∃ w, fs'.fds[fs.fds.length]? = some ⟨j, w⟩ := by
  have htw : (has flags F_TREEFILES || has flags F_WAIT) = false := by rw [ht.1, ht.2]; rfl
  have hs := single_cases k (has flags F_TEMPORARY) expected name flags fs
  dsimp only at hs
  unfold setupFs at h
  rw [if_neg (by simp [htw])] at h
  simp only [hm, htmp, Bool.not_false, Bool.and_true] at h hs
  rcases hr : openFiles k false false expected name 0 flags [] 0 0 fs with ⟨fs1, _ | ⟨f, files, lso, ls⟩⟩
  · rw [hr] at h; cases h
  · rw [hr] at h hs
    simp only [] at h hs
    have hex : fs' = fs1 ∧ ex.files = files := by
      by_cases he : (expected != 0) = true
      · rw [if_pos he] at h
        by_cases hg : expected > (lso + ls) % 2 ^ 64
        · rw [if_pos hg] at h; cases h
        · rw [if_neg hg] at h; cases h; exact ⟨rfl, rfl⟩
      · rw [if_neg he] at h
        cases h; exact ⟨rfl, rfl⟩
    obtain ⟨rfl, hf⟩ := hex
    rw [hf]
    rcases hs with ⟨_, h2⟩ | ⟨j', n, g, w, _, hn', _, _, h1, hfd, hg, h2⟩ | ⟨p, hnp, _, hp, _⟩
    · cases h2
    · rw [hn] at hn'
      cases hn'
      refine ⟨h1, ?_, w, by rw [hfd]; simp⟩
      rcases h2 with ⟨_, h2, _⟩ | ⟨_, _, _, _, _, _, h2⟩
      · obtain ⟨fl, h3⟩ := h2 _ rfl
        cases h3; rw [hg]
      · cases h2; rw [hg]
    · rw [(hp trivial).1, hn] at hnp
      cases hnp

theorem openFiles_named (k : Kern) (expected : Nat) (name : List Char) : ∀ (m i flags : Nat) (acc : List FileInfo) (lso ls : Nat)
    (fs fs' : Fs) (r : Nat × List FileInfo × Nat × Nat), k.limit - fs.fds.length ≤ m →
    openFiles k true false expected name i flags acc lso ls fs = (fs', some r) →
    ∃ new, r.2.1 = acc ++ new ∧ fs.fds <+: fs'.fds ∧ ∀ (m : Nat) (g : FileInfo), new[m]? = some g → ∃ j w,
      fs.names (name ++ ['.'] ++ (Nat.repr (i + m)).toList) = some j ∧ fs'.fds[g.fhandle]? = some ⟨j, w⟩ := by
  intro m
  induction m with
  | zero =>
    intro i flags acc lso ls fs fs' r hm h
    rw [openFiles_eq] at h
    have ho := openNth_opened k flags true false (expected != 0 && !true && i == 0) name i fs
    rcases hr : openNth k flags true false (expected != 0 && !true && i == 0) name i fs with ⟨fs1, _ | ⟨f', fd⟩⟩
    · rw [hr] at ho
      cases ho
      simp only [hr] at h
      by_cases hc : (true && decide (i > 0)) = true
      · rw [if_pos hc] at h
        cases h
        exact ⟨[], by simp, List.prefix_refl _, fun m g hg => by simp at hg⟩
      · rw [if_neg hc] at h; cases h
    · have := (openNth_fds hr).2
      omega
  | succ m ih =>
    intro i flags acc lso ls fs fs' r hm h
    rw [openFiles_eq] at h
    have hcc : (expected != 0 && !true && i == 0) = false := by simp
    rw [hcc] at h
    have ho := openNth_opened k flags true false false name i fs
    rcases hr : openNth k flags true false false name i fs with ⟨fs1, _ | ⟨f', fd⟩⟩
    · rw [hr] at ho
      cases ho
      simp only [hr] at h
      by_cases hc : (true && decide (i > 0)) = true
      · rw [if_pos hc] at h
        cases h
        exact ⟨[], by simp, List.prefix_refl _, fun m g hg => by simp at hg⟩
      · rw [if_neg hc] at h; cases h
    · have hlt := openNth_fds hr
      rw [hr] at ho
      simp only [hr, Bool.and_false, Bool.false_eq_true, if_false, Bool.not_true, Bool.or_false] at h
      obtain ⟨new, h1, h2, h3⟩ := ih (i + 1) f' _ _ _ fs1 fs' r (by omega) h
      have hfs : fs1.names = fs.names ∧ ∃ j w, fs1.fds = fs.fds ++ [⟨j, w⟩] ∧ fd = fs.fds.length ∧
          fs.names (name ++ ['.'] ++ (Nat.repr i).toList) = some j := by
        cases ho with
        | found p j n f w ht hp hn => exact ⟨rfl, j, w, rfl, rfl, by rw [hp] at hn; exact hn⟩
        | created p ht hp hn hc => cases hc
        | temp p ht => cases ht
      obtain ⟨hnm, j, w, hfd, hfe, hj⟩ := hfs
      refine ⟨⟨fd, (lso + ls) % 2 ^ 64⟩ :: new, by rw [h1, List.append_assoc]; rfl,
        List.IsPrefix.trans (by rw [hfd]; exact List.prefix_append _ _) h2, fun q g hg => ?_⟩
      cases q with
      | zero =>
        simp only [List.getElem?_cons_zero, Option.some.injEq] at hg
        subst hg
        refine ⟨j, w, hj, ?_⟩
        obtain ⟨t, ht⟩ := h2
        rw [← ht, hfd, hfe]
        simp
      | succ q =>
        rw [List.getElem?_cons_succ] at hg
        obtain ⟨j', w', h4, h5⟩ := h3 q g hg
        rw [hnm, show i + 1 + q = i + (q + 1) by omega] at h4
        exact ⟨j', w', h4, h5⟩

/-- **C103**, several files. The `m`-th file of a multi-file export is the one that is called like the export with `.m` after it; no file
or name has changed. -/
theorem C103_served_multi (k : Kern) (flags expected : Nat) (name : List Char) (fs fs' : Fs) (ex : Export)
    (hm : has flags F_MULTIFILE = true) (ht : has flags F_TREEFILES = false ∧ has flags F_WAIT = false)
    (h : setupFs k flags expected name fs = (fs', some ex)) :
    fs'.names = fs.names ∧ fs'.inodes = fs.inodes ∧
    ∀ (m : Nat) (g : FileInfo), ex.files[m]? = some g → ∃ j w,
      fs.names (name ++ ['.'] ++ (Nat.repr m).toList) = some j ∧ fs'.fds[g.fhandle]? = some ⟨j, w⟩ := by
  have htw : (has flags F_TREEFILES || has flags F_WAIT) = false := by rw [ht.1, ht.2]; rfl
  have h1 := setupFs_fst (k := k) (expected := expected) (name := name) (fs := fs) htw
  rw [h, hm, Bool.not_true, Bool.and_false] at h1
  have h1 : fs' = (openFiles k true false expected name 0 flags [] 0 0 fs).1 := h1
  obtain ⟨h2, h3⟩ := openFiles_multi k expected name _ 0 flags [] 0 0 fs (Nat.le_refl _)
  refine ⟨by rw [h1]; exact h2, by rw [h1]; exact h3, ?_⟩
  unfold setupFs at h
  rw [if_neg (by simp [htw])] at h
  simp only [hm, Bool.not_true, Bool.and_false] at h
  rcases hr : openFiles k true false expected name 0 flags [] 0 0 fs with ⟨fs1, _ | ⟨f, files, lso, ls⟩⟩
  · rw [hr] at h; cases h
  · rw [hr] at h
    simp only [] at h
    have hex : fs' = fs1 ∧ ex.files = files := by
      by_cases he : (expected != 0) = true
      · rw [if_pos he] at h
        by_cases hg : expected > (lso + ls) % 2 ^ 64
        · rw [if_pos hg] at h; cases h
        · rw [if_neg hg] at h; cases h; exact ⟨rfl, rfl⟩
      · rw [if_neg he] at h
        cases h; exact ⟨rfl, rfl⟩
    obtain ⟨rfl, hf⟩ := hex
    obtain ⟨new, h4, _, h5⟩ := openFiles_named k expected name _ 0 flags [] 0 0 fs fs' _ (Nat.le_refl _) hr
    have h4 : files = new := by simpa using h4
    rw [hf, h4]
    intro q g hg
    obtain ⟨j, w, h6, h7⟩ := h5 q g hg
    rw [Nat.zero_add] at h6
    exact ⟨j, w, h6, h7⟩

/-- **C103**, the bridge: what is served is an export as `setupExport` describes it, so that everything proved about those (C07-C09,
C13, C49) holds of it. -/
theorem C103_described (k : Kern) (flags expected : Nat) (name : List Char) (fs fs' : Fs) (ex : Export)
    (h : setupFs k flags expected name fs = (fs', some ex)) : ∃ probes, setupExport flags expected name probes = some ex :=
  setupFs_setup h

/-! ### What is false -/

/-- A kernel that says yes. -/
def kindKern : Kern := ⟨fun _ => true, 1024, fun _ => true, ['a', 'b', 'c', 'd', 'e', 'f'], true⟩

/-- A file system with one file, `/x`, of 3 bytes. -/
def smallFs : Fs := ⟨fun p => if p = ['/', 'x'] then some 0 else none, [⟨true, [1, 2, 3], true, true⟩], []⟩

/-- The hypotheses of `C103_frame`, `C103_temporary_partial`, `C103_created` and `C103_missing` are met, and the exports are set up. -/
example : FsOk smallFs ∧ Temporary F_TEMPORARY ∧ MayCreate 0 4 ∧ smallFs.names ['/', 'y'] = none ∧
    (setupFs kindKern F_TEMPORARY 4 ['/', 'x'] smallFs).2 = some ⟨F_TEMPORARY, 4, [⟨0, 0⟩], ['/', 'x']⟩ ∧
    (setupFs kindKern 0 4 ['/', 'y'] smallFs).2 = some ⟨0, 4, [⟨0, 0⟩], ['/', 'y']⟩ ∧
    (setupFs kindKern 0 0 ['/', 'x'] smallFs).2 = some ⟨0, 3, [⟨0, 0⟩], ['/', 'x']⟩ ∧
    (setupFs kindKern 0 4 ['/', 'y'] smallFs).1.inodes = [⟨true, [1, 2, 3], true, true⟩, ⟨true, [0, 0, 0, 0], true, true⟩] := by
  refine ⟨?_, ⟨by decide, by decide, by decide, by decide⟩, ⟨by decide, by decide, by decide, by decide, by decide, by decide⟩, by decide,
    by decide +kernel, by decide +kernel, by decide +kernel, by decide +kernel⟩
  intro p i h
  unfold smallFs at h
  dsimp only at h
  by_cases hp : p = ['/', 'x']
  · rw [if_pos hp] at h; cases h; decide
  · rw [if_neg hp] at h; cases h

/-- Two files `/x.0` and `/x.1`. -/
def pairFs : Fs :=
  ⟨fun p => if p = ['/', 'x', '.', '0'] then some 0 else if p = ['/', 'x', '.', '1'] then some 1 else none,
    [⟨true, [1, 2, 3], true, true⟩, ⟨true, [4], true, true⟩], []⟩

example : (setupFs kindKern F_MULTIFILE 0 ['/', 'x'] pairFs).2 = some ⟨F_MULTIFILE, 4, [⟨0, 0⟩, ⟨1, 3⟩], ['/', 'x']⟩ := by decide +kernel

/-- **C103 is false** of refused clients: when the file could be created but not be made long enough, the client is refused and an empty
file of that name stays. -/
theorem C103_false_left : ∃ (k : Kern) (fs : Fs) (name : List Char), fs.names name = none ∧
    (setupFs k 0 4 name fs).2 = none ∧ (setupFs k 0 4 name fs).1.names name = some fs.inodes.length ∧
    (setupFs k 0 4 name fs).1.inodes = fs.inodes ++ [⟨true, [], true, true⟩] :=
  ⟨{ kindKern with grow := fun _ => false }, smallFs, ['/', 'y'], by decide, by decide +kernel, by decide +kernel, by decide +kernel⟩

/-- A section with `temporary` and `treefiles`. -/
def tempTree : KGroup where
  name := ascii "x"
  str := fun k => if k = ascii "exportname" then .ok (ascii "/x") else .missing
  int := fun _ => .missing
  int64 := fun k => if k = ascii "filesize" then .ok 8192 else .missing
  bool := fun k => if k = ascii "temporary" ∨ k = ascii "treefiles" then .ok true else .missing

/-- **C103 is false** of temporary exports that are trees: the configuration is accepted, and `temporary` has no effect: every
client, now and later, is given the same tree of files under the name of the export, whatever the kernel says and whatever is there. -/
theorem C103_false_tree : ∃ s, parseExport ⟨false, false⟩ tempTree = some s ∧ has s.flags F_TEMPORARY = true ∧ s.expected = 8192 ∧
    ∀ k name fs, setupFs k s.flags s.expected name fs = (fs, some ⟨s.flags, s.expected, [], name⟩) := by
  have h : ∃ s, parseExport ⟨false, false⟩ tempTree = some s ∧ s.flags = F_TEMPORARY ||| F_TREEFILES ∧ s.expected = 8192 := by
    refine ⟨_, rfl, ?_, ?_⟩ <;> decide +kernel
  obtain ⟨s, h1, h2, h3⟩ := h
  refine ⟨s, h1, by rw [h2]; decide, h3, fun k name fs => ?_⟩
  unfold setupFs
  rw [if_pos (by rw [h2]; decide)]

/-! ### Descriptors -/

theorem openNth_full {k : Kern} (flags : Nat) (multi temporary cancreate : Bool) (name : List Char) (i : Nat) {fs : Fs}
    (h : k.limit ≤ fs.fds.length) : openNth k flags multi temporary cancreate name i fs = (fs, none) := by
  have ho := openNth_opened k flags multi temporary cancreate name i fs
  generalize openNth k flags multi temporary cancreate name i fs = q at ho
  cases ho with
  | failed => rfl
  | found => omega
  | created => omega
  | temp => omega

/-- Choosing an export whose file is too short: the client is refused, and a descriptor stays open. -/
theorem tooShort_step {k : Kern} {flags expected : Nat} {name : List Char} {fs : Fs} (hm : has flags F_MULTIFILE = false)
    (htmp : has flags F_TEMPORARY = false) (ht : has flags F_TREEFILES = false ∧ has flags F_WAIT = false)
    (hx : expected < 2 ^ 64) (h : TooShort fs name expected) (hl : fs.fds.length < k.limit) :
    (setupFs k flags expected name fs).2 = none ∧ TooShort (setupFs k flags expected name fs).1 name expected ∧
    (setupFs k flags expected name fs).1.fds.length = fs.fds.length + 1 := by
  obtain ⟨j, n, hn, hj, hreg, hr, hw, h0, hlt⟩ := h
  have hopen : ∃ w, openAt k (!has flags F_READONLY) (!has flags F_READONLY && (expected != 0 && !false && (0 : Nat) == 0)) name fs =
      ({ fs with fds := fs.fds ++ [⟨j, w⟩] }, some fs.fds.length) := by
    refine ⟨!has flags F_READONLY, ?_⟩
    unfold openAt
    rw [if_neg (by omega)]
    simp only [hn, hj, hr, hw]
    rw [if_pos (by simp)]
  obtain ⟨w, hopen⟩ := hopen
  have hnth : openNth k flags false false (expected != 0 && !false && (0 : Nat) == 0) name 0 fs =
      ({ fs with fds := fs.fds ++ [⟨j, w⟩] }, some (flags, fs.fds.length)) := by
    unfold openNth
    rw [if_neg (by decide), if_neg (by decide)]
    dsimp only
    rw [hopen]
  have hsize : sizeAutodetect (probeOf { fs with fds := fs.fds ++ [⟨j, w⟩] } fs.fds.length true true) = n.data.length := by
    unfold probeOf
    have e1 : (fs.fds ++ [(⟨j, w⟩ : OpenFile)])[fs.fds.length]? = some ⟨j, w⟩ := by simp
    simp only [e1, hj, hreg, if_true]
    rfl
  have hs : setupFs k flags expected name fs = ({ fs with fds := fs.fds ++ [⟨j, w⟩] }, none) := by
    unfold setupFs
    rw [if_neg (by rw [ht.1, ht.2]; decide)]
    simp only [hm, htmp, Bool.false_and]
    rw [openFiles_eq, hnth]
    simp only [hsize]
    have hz : ¬ ((n.data.length == 0 && (expected != 0 && !false && (0 : Nat) == 0)) = true) := by
      have : (n.data.length == 0) = false := by simpa using (by omega : n.data.length ≠ 0)
      rw [this, Bool.false_and]
      decide
    rw [if_neg hz, if_pos (by decide)]
    simp only []
    rw [if_pos (by simpa using (by omega : expected ≠ 0)), if_pos (by omega)]
  rw [hs]
  exact ⟨rfl, ⟨j, n, hn, hj, hreg, hr, hw, h0, hlt⟩, by simp⟩

/-- **C98 is false** (descriptors): nothing closes the files opened for a client that is refused. In a server that does not fork, each
attempt to choose an export whose file is too short takes a descriptor for good, whatever number of descriptors the process may have; when they are used up, nobody can choose any export
made of files any more, in whatever state its files are by then. -/
theorem C98_false_descriptors (k : Kern) (flags expected : Nat) (name : List Char) (fs : Fs) (hm : has flags F_MULTIFILE = false)
    (htmp : has flags F_TEMPORARY = false) (ht : has flags F_TREEFILES = false ∧ has flags F_WAIT = false) (hx : expected < 2 ^ 64)
    (h : TooShort fs name expected) (hl : fs.fds.length ≤ k.limit) :
    (∀ m, m ≤ k.limit - fs.fds.length → (afterAsking k flags expected name m fs).fds.length = fs.fds.length + m) ∧
    ∀ flags' expected' name' fs', fs'.fds = (afterAsking k flags expected name (k.limit - fs.fds.length) fs).fds →
      has flags' F_TREEFILES = false → has flags' F_WAIT = false → setupFs k flags' expected' name' fs' = (fs', none) := by
  have key : ∀ (m : Nat) (fs : Fs), TooShort fs name expected → fs.fds.length + m ≤ k.limit →
      (afterAsking k flags expected name m fs).fds.length = fs.fds.length + m := by
    intro m
    induction m with
    | zero => intro fs _ _; rfl
    | succ m ih =>
      intro fs hs hle
      obtain ⟨_, h2, h3⟩ := tooShort_step (k := k) hm htmp ht hx hs (by omega)
      unfold afterAsking
      rw [ih _ h2 (by omega), h3]
      omega
  refine ⟨fun m hml => key m fs h (by omega), ?_⟩
  intro flags' expected' name' fs' hfd h1 h2
  have hfull : k.limit ≤ fs'.fds.length := by rw [hfd, key _ fs h (by omega)]; omega
  unfold setupFs
  rw [if_neg (by rw [h1, h2]; decide), openFiles_eq, openNth_full _ _ _ _ _ _ hfull]
  simp

/-- Such a file: `/x` has 3 bytes, the export 4. -/
example : TooShort smallFs ['/', 'x'] 4 ∧ smallFs.fds.length ≤ kindKern.limit :=
  ⟨⟨0, _, rfl, rfl, rfl, rfl, rfl, by decide, by decide⟩, by decide⟩

end Nbd.Props
