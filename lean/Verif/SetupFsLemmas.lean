import Verif.Setup
/-! # Lemmas about setting up an export on a file system -/
set_option autoImplicit false

namespace Nbd

theorem openFiles_eq (k : Kern) (multi temporary : Bool) (expected : Nat) (name : List Char) (i flags : Nat) (acc : List FileInfo)
    (lso ls : Nat) (fs : Fs) : openFiles k multi temporary expected name i flags acc lso ls fs =
    match openNth k flags multi temporary (expected != 0 && !multi && i == 0) name i fs with
    | (fs', none) => (fs', if multi && i > 0 then some (flags, acc, lso, ls) else none)
    | (fs', some (flags', fd)) =>
      if sizeAutodetect (probeOf fs' fd true true) == 0 && (expected != 0 && !multi && i == 0) then
        match growTo k fd expected fs' with
        | (fs'', true) => (fs'', some (flags', acc ++ [⟨fd, (lso + ls) % 2 ^ 64⟩], (lso + ls) % 2 ^ 64, expected))
        | (fs'', false) => (fs'', none)
      else if !multi || temporary then
        (fs', some (flags', acc ++ [⟨fd, (lso + ls) % 2 ^ 64⟩], (lso + ls) % 2 ^ 64, sizeAutodetect (probeOf fs' fd true true)))
      else openFiles k multi temporary expected name (i + 1) flags' (acc ++ [⟨fd, (lso + ls) % 2 ^ 64⟩]) ((lso + ls) % 2 ^ 64)
        (sizeAutodetect (probeOf fs' fd true true)) fs' := by
  rw [openFiles]
  split <;> rename_i h <;> simp only [h] <;> rfl

/-- What opening one file can do. -/
inductive Opened (k : Kern) (flags : Nat) (multi temporary cancreate : Bool) (name : List Char) (i : Nat) (fs : Fs) :
    Fs × Option (Nat × Nat) → Prop where
  | failed : Opened k flags multi temporary cancreate name i fs (fs, none)
  | found (p : List Char) (j : Nat) (n : Inode) (flags' : Nat) (w : Bool) (ht : temporary = false)
      (hp : p = if multi then name ++ ['.'] ++ (Nat.repr i).toList else name) (hn : fs.names p = some j)
      (hj : fs.inodes[j]? = some n) (hr : n.readable = true) (hw : w = true → n.writable = true)
      (hl : fs.fds.length < k.limit)
      (hf : flags' = flags ∧ w = !has flags F_READONLY ∨
        w = false ∧ n.writable = false ∧ has flags F_READONLY = false ∧ cancreate = false ∧
        flags' = if has flags F_COPYONWRITE then flags else flags ||| F_AUTOREADONLY ||| F_READONLY) :
      Opened k flags multi temporary cancreate name i fs ({ fs with fds := fs.fds ++ [⟨j, w⟩] }, some (flags', fs.fds.length))
  | created (p : List Char) (ht : temporary = false) (hp : p = if multi then name ++ ['.'] ++ (Nat.repr i).toList else name)
      (hn : fs.names p = none) (hc : cancreate = true) (hro : has flags F_READONLY = false) (hk : k.create p = true) (hl : fs.fds.length < k.limit) :
      Opened k flags multi temporary cancreate name i fs (fs.made p, some (flags, fs.fds.length))
  | temp (p : List Char) (ht : temporary = true) (hp : p = name ++ ['.'] ++ (Nat.repr i).toList ++ ['-'] ++ k.letters)
      (hn : fs.names p = none) (hk : k.create p = true) (hl : fs.fds.length < k.limit) :
      Opened k flags multi temporary cancreate name i fs (unlinkAt k p (fs.made p), some (flags, fs.fds.length))

/-- What `open` does. -/
theorem openAt_cases (k : Kern) (rw creat : Bool) (p : List Char) (fs : Fs) :
    (openAt k rw creat p fs = (fs, none) ∧ (k.limit ≤ fs.fds.length ∨ (fs.names p = none ∧ (creat && k.create p) = false) ∨
      ∃ j, fs.names p = some j ∧ (fs.inodes[j]? = none ∨ ∃ n, fs.inodes[j]? = some n ∧ (n.readable && (!rw || n.writable)) = false))) ∨
    (∃ j n, openAt k rw creat p fs = ({ fs with fds := fs.fds ++ [⟨j, rw⟩] }, some fs.fds.length) ∧ fs.fds.length < k.limit ∧
      fs.names p = some j ∧ fs.inodes[j]? = some n ∧ n.readable = true ∧ (rw = true → n.writable = true)) ∨
    (openAt k rw creat p fs = (fs.made p, some fs.fds.length) ∧ fs.fds.length < k.limit ∧ fs.names p = none ∧ creat = true ∧
      k.create p = true) := by
  unfold openAt
  by_cases hl : k.limit ≤ fs.fds.length
  · rw [if_pos hl]; exact .inl ⟨rfl, .inl hl⟩
  · rw [if_neg hl]
    cases hn : fs.names p with
    | some j =>
      simp only []
      cases hi : fs.inodes[j]? with
      | none => exact .inl ⟨rfl, .inr (.inr ⟨j, rfl, .inl hi⟩)⟩
      | some n =>
        simp only []
        by_cases hc : (n.readable && (!rw || n.writable)) = true
        · rw [if_pos hc]
          refine .inr (.inl ⟨j, n, rfl, by omega, rfl, hi, ?_, ?_⟩)
          · cases hr : n.readable with
            | true => rfl
            | false => rw [hr] at hc; cases hc
          · intro h; subst h
            cases hr : n.writable with
            | true => rfl
            | false => rw [hr] at hc; simp at hc
        · rw [if_neg hc]
          exact .inl ⟨rfl, .inr (.inr ⟨j, rfl, .inr ⟨n, hi, by simpa using hc⟩⟩)⟩
    | none =>
      simp only []
      by_cases hc : (creat && k.create p) = true
      · rw [if_pos hc]
        simp only [Bool.and_eq_true] at hc
        exact .inr (.inr ⟨by simp, by omega, trivial, hc.1, hc.2⟩)
      · rw [if_neg hc]
        exact .inl ⟨rfl, .inr (.inl ⟨by simp, by simpa using hc⟩)⟩

theorem openNth_opened (k : Kern) (flags : Nat) (multi temporary cancreate : Bool) (name : List Char) (i : Nat) (fs : Fs) :
    Opened k flags multi temporary cancreate name i fs (openNth k flags multi temporary cancreate name i fs) := by
  unfold openNth
  cases temporary with
  | true =>
    rw [if_pos rfl]
    unfold mkstempAt
    by_cases hl : k.limit ≤ fs.fds.length
    · rw [if_pos hl]; exact .failed
    · rw [if_neg hl]
      cases hn : fs.names (name ++ ['.'] ++ (Nat.repr i).toList ++ ['-'] ++ k.letters) with
      | some _ => simp only []; exact .failed
      | none =>
        simp only []
        by_cases hc : k.create (name ++ ['.'] ++ (Nat.repr i).toList ++ ['-'] ++ k.letters) = true
        · rw [if_pos hc]
          exact .temp _ rfl rfl hn hc (by omega)
        · rw [if_neg hc]; exact .failed
  | false =>
    rw [if_neg (by decide)]
    generalize hp : (if multi = true then name ++ ['.'] ++ (Nat.repr i).toList else name) = p
    dsimp only
    rcases openAt_cases k (!has flags F_READONLY) (!has flags F_READONLY && cancreate) p fs with
      ⟨h, hw⟩ | ⟨j, n, h, hl, hn, hj, hr, hw⟩ | ⟨h, hl, hn, hc, hk⟩
    · rw [h]
      simp only []
      by_cases hc : (!has flags F_READONLY && !cancreate) = true
      · rw [if_pos hc]
        simp only [Bool.and_eq_true, Bool.not_eq_true'] at hc
        rcases openAt_cases k false false p fs with ⟨h2, _⟩ | ⟨j, n, h2, hl, hn, hj, hr, _⟩ | ⟨_, _, _, h2, _⟩
        · rw [h2]; exact .failed
        · rw [h2]
          refine .found p j n _ false rfl hp.symm hn hj hr (fun h => nomatch h) hl (.inr ⟨rfl, ?_, hc.1, hc.2, rfl⟩)
          rcases hw with h3 | ⟨h3, _⟩ | ⟨j', h3, h4 | ⟨n', h4, h5⟩⟩
          · omega
          · rw [hn] at h3; cases h3
          · rw [hn] at h3; cases h3; rw [hj] at h4; cases h4
          · rw [hn] at h3; cases h3; rw [hj] at h4; cases h4
            rw [hr, hc.1] at h5
            simpa using h5
        · cases h2
      · rw [if_neg hc]; exact .failed
    · rw [h]
      exact .found p j n flags (!has flags F_READONLY) rfl hp.symm hn hj hr hw hl (.inl ⟨rfl, rfl⟩)
    · rw [h]
      simp only [Bool.and_eq_true, Bool.not_eq_true'] at hc
      exact .created p rfl hp.symm hn hc.2 hc.1 hk hl

theorem size_probe (fs : Fs) (fd : Nat) (a b : Bool) :
    sizeAutodetect (probeOf fs fd a b) = sizeAutodetect (probeOf fs fd true true) := by
  unfold probeOf
  cases fs.fds[fd]? with
  | none => rfl
  | some f =>
    simp only []
    cases fs.inodes[f.ino]? with
    | none => rfl
    | some n => cases h : n.regular <;> simp [h, sizeAutodetect]

theorem probe_fd (fs : Fs) (fd : Nat) (a b : Bool) :
    (probeOf fs fd a b).fd = fd ∧ (probeOf fs fd a b).canWrite = a ∧ (probeOf fs fd a b).canRead = b := by
  unfold probeOf
  cases fs.fds[fd]? with
  | none => exact ⟨rfl, rfl, rfl⟩
  | some f =>
    simp only []
    cases fs.inodes[f.ino]? with
    | none => exact ⟨rfl, rfl, rfl⟩
    | some n => cases h : n.regular <;> simp [h]

/-- Opening a file agrees with `openOne` about what the file looks like. -/
theorem Opened.one {k : Kern} {flags : Nat} {multi temporary cancreate : Bool} {name : List Char} {i : Nat} {fs fs' : Fs}
    {flags' fd : Nat} (h : Opened k flags multi temporary cancreate name i fs (fs', some (flags', fd))) :
    ∃ a b, openOne flags cancreate (probeOf fs' fd a b) = some flags' := by
  generalize hr : (fs', some (flags', fd)) = r at h
  cases h with
  | failed => cases hr
  | found p j n f w ht hp hn hj hrd hw hl hf =>
    cases hr
    rcases hf with ⟨rfl, h1⟩ | ⟨_, h2, h3, h4, h5⟩
    · refine ⟨true, true, ?_⟩
      unfold openOne
      rw [(probe_fd _ _ _ _).2.1, (probe_fd _ _ _ _).2.2]
      cases has flags' F_READONLY <;> rfl
    · refine ⟨false, true, ?_⟩
      unfold openOne
      rw [(probe_fd _ _ _ _).2.1, (probe_fd _ _ _ _).2.2, h3, h4, h5]
      rfl
  | created p ht hp hn hc hro hk hl =>
    cases hr
    refine ⟨true, true, ?_⟩
    unfold openOne
    rw [(probe_fd _ _ _ _).2.1, (probe_fd _ _ _ _).2.2]
    cases has flags F_READONLY <;> rfl
  | temp p ht hp hn hk hl =>
    cases hr
    refine ⟨true, true, ?_⟩
    unfold openOne
    rw [(probe_fd _ _ _ _).2.1, (probe_fd _ _ _ _).2.2]
    cases has flags F_READONLY <;> rfl

/-- The loop over the backing files does what `openLoop` does for some files. -/
theorem openFiles_loop (k : Kern) (multi temporary : Bool) (expected : Nat) (name : List Char)
    (htm : temporary = true → multi = false) : ∀ (m i flags : Nat) (acc : List FileInfo) (lso ls : Nat) (fs fs' : Fs)
    (r : Nat × List FileInfo × Nat × Nat), k.limit - fs.fds.length ≤ m →
    openFiles k multi temporary expected name i flags acc lso ls fs = (fs', some r) →
    ∃ ps, openLoop multi expected ps i flags acc lso ls = some r := by
  intro m
  induction m with
  | zero =>
    intro i flags acc lso ls fs fs' r hm h
    rw [openFiles_eq] at h
    rcases hr : openNth k flags multi temporary (expected != 0 && !multi && i == 0) name i fs with ⟨fs1, _ | ⟨f', fd⟩⟩
    · simp only [hr] at h
      refine ⟨[], ?_⟩
      unfold openLoop
      exact (Prod.mk.inj h).2
    · have := (openNth_fds hr).2
      omega
  | succ m ih =>
    intro i flags acc lso ls fs fs' r hm h
    rw [openFiles_eq] at h
    have ho := openNth_opened k flags multi temporary (expected != 0 && !multi && i == 0) name i fs
    rcases hr : openNth k flags multi temporary (expected != 0 && !multi && i == 0) name i fs with ⟨fs1, _ | ⟨f', fd⟩⟩
    · simp only [hr] at h
      refine ⟨[], ?_⟩
      unfold openLoop
      exact (Prod.mk.inj h).2
    · rw [hr] at ho
      obtain ⟨a, b, h1⟩ := ho.one
      simp only [hr] at h
      by_cases hz : (sizeAutodetect (probeOf fs1 fd true true) == 0 && (expected != 0 && !multi && i == 0)) = true
      · rw [if_pos hz] at h
        refine ⟨[probeOf fs1 fd a b], ?_⟩
        unfold openLoop
        simp only [h1, size_probe fs1 fd a b, (probe_fd fs1 fd a b).1]
        rw [if_pos hz]
        rcases hg : growTo k fd expected fs1 with ⟨fs2, _ | _⟩
        · simp only [hg] at h; cases h
        · simp only [hg] at h
          exact (Prod.mk.inj h).2
      · rw [if_neg hz] at h
        by_cases hmt : (!multi || temporary) = true
        · rw [if_pos hmt] at h
          have hmu : (!multi) = true := by
            cases hx : temporary with
            | true => rw [htm hx]; rfl
            | false => rw [hx] at hmt; simpa using hmt
          refine ⟨[probeOf fs1 fd a b], ?_⟩
          unfold openLoop
          simp only [h1, size_probe fs1 fd a b, (probe_fd fs1 fd a b).1]
          rw [if_neg hz, if_pos hmu]
          exact (Prod.mk.inj h).2
        · rw [if_neg hmt] at h
          have hmu : ¬ (!multi) = true := by
            cases multi with
            | true => decide
            | false => simp at hmt
          have hlt := openNth_fds hr
          obtain ⟨ps, hps⟩ := ih (i + 1) f' _ _ _ fs1 fs' r (by omega) h
          refine ⟨probeOf fs1 fd a b :: ps, ?_⟩
          unfold openLoop
          simp only [h1, size_probe fs1 fd a b, (probe_fd fs1 fd a b).1]
          rw [if_neg hz, if_neg hmu]
          exact hps

/-- An export that is set up on a file system is one `setupExport` describes. -/
theorem setupFs_setup {k : Kern} {flags expected : Nat} {name : List Char} {fs fs' : Fs} {ex : Export}
    (h : setupFs k flags expected name fs = (fs', some ex)) : ∃ probes, setupExport flags expected name probes = some ex := by
  unfold setupFs at h
  unfold setupExport
  by_cases ht : (has flags F_TREEFILES || has flags F_WAIT) = true
  · rw [if_pos ht] at h
    exact ⟨[], by rw [if_pos ht]; exact (Prod.mk.inj h).2⟩
  · rw [if_neg ht] at h
    rcases hr : openFiles k (has flags F_MULTIFILE) (has flags F_TEMPORARY && !has flags F_MULTIFILE) expected name 0 flags [] 0 0 fs
      with ⟨fs1, _ | ⟨f, files, lso, ls⟩⟩
    · simp only [hr] at h; cases h
    · simp only [hr] at h
      obtain ⟨ps, hps⟩ := openFiles_loop k _ _ expected name (by intro h; simpa using (Bool.and_eq_true_iff.mp h).2) _ 0 flags [] 0 0
        fs fs1 _ (Nat.le_refl _) hr
      refine ⟨ps, ?_⟩
      rw [if_neg ht]
      simp only [hps]
      by_cases he : (expected != 0) = true
      · rw [if_pos he] at h ⊢
        by_cases hg : expected > (lso + ls) % 2 ^ 64
        · rw [if_pos hg] at h; cases h
        · rw [if_neg hg] at h ⊢
          exact (Prod.mk.inj h).2
      · rw [if_neg he] at h ⊢
        exact (Prod.mk.inj h).2

/-- With several files nothing is created or changed. -/
theorem openFiles_multi (k : Kern) (expected : Nat) (name : List Char) : ∀ (m i flags : Nat) (acc : List FileInfo) (lso ls : Nat)
    (fs : Fs), k.limit - fs.fds.length ≤ m →
    (openFiles k true false expected name i flags acc lso ls fs).1.names = fs.names ∧
    (openFiles k true false expected name i flags acc lso ls fs).1.inodes = fs.inodes := by
  intro m
  induction m with
  | zero =>
    intro i flags acc lso ls fs hm
    rw [openFiles_eq]
    have ho := openNth_opened k flags true false (expected != 0 && !true && i == 0) name i fs
    rcases hr : openNth k flags true false (expected != 0 && !true && i == 0) name i fs with ⟨fs1, _ | ⟨f', fd⟩⟩
    · rw [hr] at ho
      cases ho
      exact ⟨rfl, rfl⟩
    · have := (openNth_fds hr).2
      omega
  | succ m ih =>
    intro i flags acc lso ls fs hm
    rw [openFiles_eq]
    have hcc : (expected != 0 && !true && i == 0) = false := by simp
    rw [hcc]
    have ho := openNth_opened k flags true false false name i fs
    rcases hr : openNth k flags true false false name i fs with ⟨fs1, _ | ⟨f', fd⟩⟩
    · rw [hr] at ho
      cases ho
      exact ⟨rfl, rfl⟩
    · have hlt := openNth_fds hr
      rw [hr] at ho
      have hfs : fs1.names = fs.names ∧ fs1.inodes = fs.inodes := by
        cases ho with
        | found => exact ⟨rfl, rfl⟩
        | created p ht hp hn hc => cases hc
        | temp p ht => cases ht
      simp only [Bool.and_false, Bool.false_eq_true, if_false, Bool.not_true, Bool.or_false]
      obtain ⟨h1, h2⟩ := ih (i + 1) f' (acc ++ [⟨fd, (lso + ls) % 2 ^ 64⟩]) ((lso + ls) % 2 ^ 64)
        (sizeAutodetect (probeOf fs1 fd true true)) fs1 (by omega)
      exact ⟨h1.trans hfs.1, h2.trans hfs.2⟩

end Nbd
