import Verif.HealthLemmas
/-! # Setting up exports; read-only exports -/

namespace Nbd

/-! ### What `setupexport` produces -/

/-- The size the server counts for a backing file: the detected one, except that a single file
of detected size 0 for which a size is configured is extended to that size (`cancreate`). -/
def effSize (multi : Bool) (expected : Nat) (p : ProbeFile) : Nat :=
  if sizeAutodetect p = 0 ∧ expected ≠ 0 ∧ multi = false then expected else sizeAutodetect p

/-- Files laid out one after the other from `start` on. -/
def laid (multi : Bool) (expected : Nat) : Nat → List ProbeFile → List FileInfo
  | _, [] => []
  | start, p :: ps => ⟨p.fd, start % 2 ^ 64⟩ :: laid multi expected (start + effSize multi expected p) ps

theorem laid_length (multi : Bool) (expected start : Nat) (ps : List ProbeFile) :
    (laid multi expected start ps).length = ps.length := by
  induction ps generalizing start with
  | nil => rfl
  | cons p ps ih => simp [laid, ih]

theorem laid_mod (multi : Bool) (expected start start' : Nat) (ps : List ProbeFile)
    (h : start % 2 ^ 64 = start' % 2 ^ 64) :
    laid multi expected start ps = laid multi expected start' ps := by
  induction ps generalizing start start' with
  | nil => rfl
  | cons p ps ih => simp only [laid, h]; rw [ih]; omega

theorem openLoop_spec (multi : Bool) (expected : Nat) (ps : List ProbeFile) :
    ∀ (i flags : Nat) (acc : List FileInfo) (lso ls flags' : Nat) (files : List FileInfo)
      (lso' ls' : Nat), (multi = false → i = 0) →
      openLoop multi expected ps i flags acc lso ls = some (flags', files, lso', ls') →
      ∃ opened rest, ps = opened ++ rest ∧
        files = acc ++ laid multi expected (lso + ls) opened ∧
        (i = 0 → opened ≠ []) ∧ (multi = false → opened.length = 1) ∧
        (lso' + ls') % 2 ^ 64
          = (lso + ls + (opened.map (effSize multi expected)).sum) % 2 ^ 64 := by
  induction ps with
  | nil =>
    intro i flags acc lso ls flags' files lso' ls' hm h
    unfold openLoop at h
    split at h
    · rename_i hc
      simp only [Bool.and_eq_true, decide_eq_true_eq] at hc
      cases h
      refine ⟨[], [], rfl, by simp [laid], by omega, ?_, by simp⟩
      intro hmf; rw [hmf] at hc; simp at hc
    · cases h
  | cons p ps ih =>
    intro i flags acc lso ls flags' files lso' ls' hm h
    unfold openLoop at h
    simp only [] at h
    split at h
    · split at h
      · rename_i hc
        simp only [Bool.and_eq_true, decide_eq_true_eq] at hc
        cases h
        refine ⟨[], p :: ps, rfl, by simp [laid], by omega, ?_, by simp⟩
        intro hmf; rw [hmf] at hc; simp at hc
      · cases h
    · rename_i fl hop
      split at h
      · rename_i hz
        simp only [Bool.and_eq_true, beq_iff_eq, bne_iff_ne, ne_eq, Bool.not_eq_eq_eq_not,
          Bool.not_true] at hz
        cases h
        have he : effSize multi expected p = expected := by
          unfold effSize; rw [if_pos]; exact ⟨hz.1, hz.2.1.1, hz.2.1.2⟩
        refine ⟨[p], ps, rfl, by simp [laid], by simp, by simp, ?_⟩
        simp only [List.map_cons, List.map_nil, List.sum_cons, List.sum_nil, he]
        omega
      · rename_i hz
        have he : multi = false → effSize multi expected p = sizeAutodetect p := by
          intro hmf
          unfold effSize
          rw [if_neg]
          rintro ⟨h1, h2, h3⟩
          apply hz
          simp [h1, h2, h3, hm hmf]
        split at h
        · rename_i hnm
          have hmf : multi = false := by simpa using hnm
          cases h
          refine ⟨[p], ps, rfl, by simp [laid], by simp, by simp, ?_⟩
          simp only [List.map_cons, List.map_nil, List.sum_cons, List.sum_nil, he hmf]
          omega
        · rename_i hnm
          have hmt : multi = true := by simpa using hnm
          have he : effSize multi expected p = sizeAutodetect p := by
            unfold effSize; rw [if_neg]; simp [hmt]
          obtain ⟨opened, rest, h1, h2, h3, h4, h5⟩ := ih (i + 1) fl _ _ _ _ _ _ _ (by simp [hmt]) h
          refine ⟨p :: opened, rest, by rw [h1]; rfl, ?_, by simp, by simp [hmt], ?_⟩
          · rw [h2, List.append_assoc]
            simp only [laid, List.singleton_append, he]
            rw [laid_mod (start' := lso + ls + sizeAutodetect p)]
            omega
          · simp only [List.map_cons, List.sum_cons, he]
            omega

theorem setupExport_spec (flags expected : Nat) (name : List Char) (probes : List ProbeFile)
    (ex : Export) (ht : has flags F_TREEFILES = false) (hw : has flags F_WAIT = false)
    (h : setupExport flags expected name probes = some ex) :
    ∃ opened rest, probes = opened ++ rest ∧ opened ≠ [] ∧
      (has flags F_MULTIFILE = false → opened.length = 1) ∧
      ex.files = laid (has flags F_MULTIFILE) expected 0 opened ∧
      let total := (opened.map (effSize (has flags F_MULTIFILE) expected)).sum % 2 ^ 64
      ex.exportsize = (if expected ≠ 0 then expected else total) ∧ ex.exportsize ≤ total := by
  unfold setupExport at h
  rw [ht, hw] at h
  simp only [Bool.or_self, Bool.false_eq_true, if_false] at h
  split at h
  · cases h
  · rename_i fl files lso ls hq
    obtain ⟨opened, rest, h1, h2, h3, h4, h5⟩ := openLoop_spec _ _ _ _ _ _ _ _ _ _ _ _ (fun _ => rfl) hq
    refine ⟨opened, rest, h1, h3 rfl, h4, ?_⟩
    simp only [List.nil_append, Nat.add_zero] at h2
    simp only [Nat.zero_add] at h5
    split at h
    · rename_i hne
      simp only [bne_iff_ne, ne_eq] at hne
      split at h
      · cases h
      · cases h
        refine ⟨h2, ?_⟩
        simp only []
        rw [if_pos hne, ← h5]
        omega
    · rename_i hne
      simp only [bne_iff_ne, ne_eq, Decidable.not_not] at hne
      cases h
      refine ⟨h2, ?_⟩
      simp only []
      rw [if_neg (by simpa using hne), ← h5]
      omega

/-- Flags never lose or gain the tree flag while files are opened. -/
theorem openOne_flags (flags : Nat) (c : Bool) (p : ProbeFile) (fl : Nat)
    (h : openOne flags c p = some fl) : fl = flags ∨ fl = flags ||| F_AUTOREADONLY ||| F_READONLY := by
  unfold openOne at h
  split at h
  · split at h
    · cases h; left; rfl
    · cases h
  · split at h
    · cases h; left; rfl
    · split at h
      · cases h
        split
        · left; rfl
        · right; rfl
      · cases h

theorem has_or_tree (flags : Nat) :
    has (flags ||| F_AUTOREADONLY ||| F_READONLY) F_TREEFILES = has flags F_TREEFILES := by
  unfold has F_AUTOREADONLY F_READONLY F_TREEFILES
  have : (flags ||| 8 ||| 1) &&& 8192 = flags &&& 8192 := by
    apply Nat.eq_of_testBit_eq
    intro i
    have h2 : (8192 : Nat) = 2 ^ 13 := rfl
    simp only [Nat.testBit_and, Nat.testBit_or, h2, Nat.testBit_two_pow]
    by_cases hi : 13 = i
    · subst hi
      have h8 : Nat.testBit 8 13 = false := by decide
      have h1 : Nat.testBit 1 13 = false := by decide
      simp only [h8, h1, Bool.or_false]
    · simp [hi]
  rw [this]

theorem openLoop_tree (multi : Bool) (expected : Nat) (ps : List ProbeFile) :
    ∀ (i flags : Nat) (acc : List FileInfo) (lso ls flags' : Nat) (files : List FileInfo)
      (lso' ls' : Nat),
      openLoop multi expected ps i flags acc lso ls = some (flags', files, lso', ls') →
      has flags' F_TREEFILES = has flags F_TREEFILES := by
  induction ps with
  | nil =>
    intro i flags acc lso ls flags' files lso' ls' h
    unfold openLoop at h
    split at h
    · cases h; rfl
    · cases h
  | cons p ps ih =>
    intro i flags acc lso ls flags' files lso' ls' h
    unfold openLoop at h
    simp only [] at h
    split at h
    · split at h
      · cases h; rfl
      · cases h
    · rename_i fl hop
      have hfl : has fl F_TREEFILES = has flags F_TREEFILES := by
        rcases openOne_flags _ _ _ _ hop with rfl | rfl
        · rfl
        · exact has_or_tree flags
      split at h
      · cases h; exact hfl
      · split at h
        · cases h; exact hfl
        · exact (ih _ _ _ _ _ _ _ _ _ h).trans hfl

/-- If no file but the last is empty, the sizes do not add up to more than 2^63, and the files
are distinct, the resulting layout is usable. -/
theorem laid_good (multi : Bool) (expected : Nat) (ps : List ProbeFile) (hne : ps ≠ [])
    (hpos : ∀ p ∈ ps.dropLast, 0 < effSize multi expected p)
    (hsum : (ps.map (effSize multi expected)).sum < 2 ^ 64)
    (hd : ps.Pairwise (fun p q => p.fd ≠ q.fd)) : GoodFiles (laid multi expected 0 ps) := by
  have key : ∀ (ps : List ProbeFile) start, (∀ p ∈ ps.dropLast, 0 < effSize multi expected p) →
      start + (ps.map (effSize multi expected)).sum < 2 ^ 64 →
      (laid multi expected start ps).Pairwise (fun f g => f.startoff < g.startoff) ∧
      ∀ f ∈ laid multi expected start ps, start ≤ f.startoff := by
    intro ps
    induction ps with
    | nil => intro start _ _; simp [laid]
    | cons p ps ih =>
      intro start hp hs
      simp only [List.map_cons, List.sum_cons] at hs
      have hs0 : start % 2 ^ 64 = start := Nat.mod_eq_of_lt (by omega)
      cases ps with
      | nil => simp [laid, hs0]
      | cons q qs =>
        have h0 : 0 < effSize multi expected p := hp p (by simp)
        obtain ⟨h1, h2⟩ := ih (start + effSize multi expected p)
          (fun x hx => hp x (by simp only [List.dropLast_cons_cons, List.mem_cons]; right; exact hx))
          (by omega)
        unfold laid
        rw [hs0]
        refine ⟨List.pairwise_cons.mpr ⟨?_, h1⟩, ?_⟩
        · intro f hf; have := h2 f hf; simp only; omega
        · intro f hf
          rw [List.mem_cons] at hf
          rcases hf with rfl | hf
          · simp
          · have := h2 f hf; omega
  have hdk : ∀ (ps : List ProbeFile) start, ps.Pairwise (fun p q => p.fd ≠ q.fd) →
      (laid multi expected start ps).Pairwise (fun f g => f.fhandle ≠ g.fhandle) ∧
      ∀ f ∈ laid multi expected start ps, ∃ p ∈ ps, p.fd = f.fhandle := by
    intro ps
    induction ps with
    | nil => intro start _; simp [laid]
    | cons p ps ih =>
      intro start h
      rw [List.pairwise_cons] at h
      obtain ⟨h1, h2⟩ := ih (start + effSize multi expected p) h.2
      unfold laid
      refine ⟨List.pairwise_cons.mpr ⟨?_, h1⟩, ?_⟩
      · intro f hf
        obtain ⟨q, hq, hqf⟩ := h2 f hf
        have := h.1 q hq
        simp only
        rw [← hqf]
        exact this
      · intro f hf
        rw [List.mem_cons] at hf
        rcases hf with rfl | hf
        · exact ⟨p, by simp, rfl⟩
        · obtain ⟨q, hq, hqf⟩ := h2 f hf
          exact ⟨q, by simp [hq], hqf⟩
  refine ⟨?_, (key ps 0 hpos (by omega)).1, (hdk ps 0 hd).1⟩
  cases ps with
  | nil => exact absurd rfl hne
  | cons p ps => simp [laid]

/-- The layout of an export that was set up from files of which none but the last is empty. -/
theorem setupExport_good (flags expected : Nat) (name : List Char) (probes : List ProbeFile)
    (ex : Export) (hw : has flags F_WAIT = false)
    (h : setupExport flags expected name probes = some ex)
    (hpos : ∀ p ∈ probes, 0 < sizeAutodetect p)
    (hsum : ∀ k, ((probes.take k).map (effSize (has flags F_MULTIFILE) expected)).sum ≤ 2 ^ 63)
    (hexp : expected ≤ 2 ^ 63)
    (hd : probes.Pairwise (fun p q => p.fd ≠ q.fd)) : GoodExport ex := by
  cases ht : has flags F_TREEFILES with
  | true =>
    unfold setupExport at h
    rw [ht] at h
    simp only [Bool.true_or, if_true, Option.some.injEq] at h
    subst h
    exact ⟨hexp, fun h' => by rw [ht] at h'; cases h'⟩
  | false =>
    obtain ⟨opened, rest, h1, h2, h3, h4, h5, h6⟩ := setupExport_spec _ _ _ _ _ ht hw h
    subst h1
    have hs := hsum opened.length
    rw [List.take_left' rfl] at hs
    constructor
    · rw [Nat.mod_eq_of_lt (by omega)] at h6
      omega
    · intro _
      rw [h4]
      apply laid_good
      · exact h2
      · intro p hp
        have hp := List.dropLast_subset _ hp
        have := hpos p (by simp [hp])
        unfold effSize
        split <;> omega
      · omega
      · exact (List.pairwise_append.mp hd).1

/-! ### Read-only exports -/

/-- Every file exists as before with the same size and contents. -/
def SameStore (w w' : World) : Prop :=
  ∀ id, (w'.files id).map (fun f => (f.data, f.size)) = (w.files id).map (fun f => (f.data, f.size))

theorem SameStore.refl (w : World) : SameStore w w := fun _ => rfl
theorem SameStore.trans {a b c : World} (h1 : SameStore a b) (h2 : SameStore b c) : SameStore a c :=
  fun id => (h2 id).trans (h1 id)
theorem SameStore.of_files {w w' : World} (h : w'.files = w.files) : SameStore w w' :=
  fun id => by rw [h]

theorem sysPread_files (w : World) (id : FileId) (a n : Nat) : (sysPread w id a n).1.files = w.files := by
  unfold sysPread
  split
  · rfl
  · split <;> rfl

theorem handlePread_files (w : World) (h : Handle) (a n : Nat) :
    (handlePread w h a n).1.files = w.files := by
  unfold handlePread
  split
  · exact sysPread_files _ _ _ _
  · rfl
  · split <;> rfl

theorem openTreefile_ro (w w' : World) (name : List Char) (size pos : Nat) (h : Handle)
    (hq : openTreefile w name false size pos = .val (w', h)) : w'.files = w.files := by
  unfold openTreefile at hq
  split at hq
  · cases hq
  · split at hq
    · split at hq <;> cases hq <;> rfl
    · split at hq
      · cases hq; rfl
      · simp only [Bool.false_eq_true, if_false] at hq
        split at hq
        · cases hq
        · cases hq; rfl

theorem getFilepos_ro (ex : Export) (hro : has ex.flags F_READONLY = true) (w w' : World) (a : Nat)
    (r : Option (Handle × Nat × Nat)) (h : getFilepos ex w a = .val (w', r)) : w'.files = w.files := by
  unfold getFilepos at h
  split at h
  · cases h; rfl
  · split at h
    · rw [hro] at h
      split at h
      · rename_i hq; cases h; exact openTreefile_ro _ _ _ _ _ _ hq
      · cases h
      · cases h
    · split at h
      · cases h
      · split at h
        · cases h
        · split at h
          · cases h
          · split at h <;> cases h <;> rfl

theorem rawexpread_ro (ex : Export) (hro : has ex.flags F_READONLY = true) (w w' : World) (a n : Nat)
    (r : Option (List Byte)) (h : rawexpread ex w a n = .val (w', r)) : w'.files = w.files := by
  unfold rawexpread at h
  split at h
  · cases h
  · cases h
  · rename_i hq; cases h; exact getFilepos_ro ex hro _ _ _ _ hq
  · rename_i w1 hh off mb hq
    have h1 := getFilepos_ro ex hro _ _ _ _ hq
    simp only [Out.val.injEq] at h
    have := handlePread_files w1 hh off (clip mb n)
    rw [h] at this
    exact this.trans h1

theorem rawexpreadFully_ro (ex : Export) (hro : has ex.flags F_READONLY = true) (w : World)
    (c : ReadCtx) : ∀ w' c' ok, rawexpreadFully ex w c = .val (w', c', ok) → w'.files = w.files := by
  fun_induction rawexpreadFully ex w c with
  | case1 => intro w' c' ok h; cases h; rfl
  | case2 => intro w' c' ok h; cases h
  | case3 => intro w' c' ok h; cases h
  | case4 w c h w1 hq => intro w' c' ok h; cases h; exact rawexpread_ro ex hro _ _ _ _ _ hq
  | case5 w c h w1 hq => intro w' c' ok h; cases h; exact rawexpread_ro ex hro _ _ _ _ _ hq
  | case6 => intro w' c' ok h; cases h
  | case7 => intro w' c' ok h; cases h
  | case8 w c h w1 b bs hq c1 hd ih =>
    intro w' c' ok h
    exact (ih _ _ _ h).trans (rawexpread_ro ex hro _ _ _ _ _ hq)

theorem expreadPages_ro (cl : Client) (hro : has cl.ex.flags F_READONLY = true) (n : Nat) :
    ∀ (w : World) (c : ReadCtx) (m a len : Nat) (w' : World) (c' : ReadCtx) (ok : Bool),
      expreadPages cl n w c m a len = .val (w', c', ok) → w'.files = w.files := by
  induction n with
  | zero => intro w c m a len w' c' ok h; cases h; rfl
  | succ n ih =>
    intro w c m a len w' c' ok h
    unfold expreadPages at h
    simp only [] at h
    split at h
    · cases h
    · rename_i s hs
      split at h
      · have hp := sysPread_files w (.fd cl.difffile) (diffOffset s (a - m * DIFFPAGESIZE))
          (pageLen (a - m * DIFFPAGESIZE) len)
        split at h
        · rename_i hq; rw [hq] at hp; cases h; exact hp
        · rename_i hq
          rw [hq] at hp
          split at h
          · cases h
          · cases h
          · split at h
            · cases h; exact hp
            · exact (ih _ _ _ _ _ _ _ _ h).trans hp
      · split at h
        · cases h; rfl
        · split at h
          · cases h
          · cases h
          · rename_i hq; cases h; exact rawexpreadFully_ro _ hro _ _ _ _ _ hq
          · rename_i hq
            exact (ih _ _ _ _ _ _ _ _ h).trans (rawexpreadFully_ro _ hro _ _ _ _ _ hq)

theorem expread_ro (cl : Client) (hro : has cl.ex.flags F_READONLY = true) (w w' : World)
    (c c' : ReadCtx) (ok : Bool) (h : expread cl w c = .val (w', c', ok)) : w'.files = w.files := by
  unfold expread at h
  split at h
  · exact expreadPages_ro cl hro _ _ _ _ _ _ _ _ _ h
  · exact rawexpreadFully_ro _ hro _ _ _ _ _ h

theorem expspliceIn_ro (ex : Export) (hro : has ex.flags F_READONLY = true) (w : World)
    (a n : Nat) (p : List Byte) :
    ∀ w' out ok, expspliceIn ex w a n p = .val (w', out, ok) → w'.files = w.files := by
  fun_induction expspliceIn ex w a n p with
  | case1 => intro w' c' ok h; cases h; rfl
  | case2 => intro w' c' ok h; cases h
  | case3 => intro w' c' ok h; cases h
  | case4 w a n p h w1 hq => intro w' c' ok h; cases h; exact rawexpread_ro ex hro _ _ _ _ _ hq
  | case5 w a n p h w1 hq => intro w' c' ok h; cases h; exact rawexpread_ro ex hro _ _ _ _ _ hq
  | case6 w a n p h w1 b bs hq ih =>
    intro w' c' ok h
    exact (ih _ _ _ h).trans (rawexpread_ro ex hro _ _ _ _ _ hq)

theorem mkpipe_files (w : World) (n : Nat) : (mkpipe w n).1.files = w.files := by
  unfold mkpipe
  split
  · rfl
  · split <;> rfl

theorem handleRead_ro (e : Endian) (cl : Client) (hro : has cl.ex.flags F_READONLY = true)
    (w w' : World) (r : Req) (msgs : List Msg) (h : handleRead e cl w r = .val (w', msgs)) :
    w'.files = w.files := by
  have hn : ∀ w1, handleNormalRead e cl w1 r = .val (w', msgs) → w'.files = w1.files := by
    intro w1 h
    unfold handleNormalRead at h
    simp only [] at h
    split at h
    · cases h; rfl
    · split at h
      · cases h
      · cases h
      · rename_i hq
        have := expread_ro cl hro _ _ _ _ _ hq
        split at h
        · cases h
        · cases h
        · cases h; exact this
  have hs : ∀ o, handleSpliceRead e cl w r = .val o → o.1.files = w.files := by
    intro o h
    unfold handleSpliceRead at h
    split at h
    · cases h; rfl
    · have hm := mkpipe_files w r.len
      split at h
      · rename_i hq; rw [hq] at hm; cases h; exact hm
      · rename_i hq
        rw [hq] at hm
        split at h
        · cases h
        · cases h
        · rename_i hq1; cases h; exact (expspliceIn_ro _ hro _ _ _ _ _ _ _ hq1).trans hm
        · rename_i hq1; cases h; exact (expspliceIn_ro _ hro _ _ _ _ _ _ _ hq1).trans hm
  rcases handleRead_cases _ _ _ _ _ _ h with ⟨w1, h1, ⟨_, rfl⟩ | ⟨_, h2⟩⟩ | ⟨_, h2⟩
  · exact hn _ h1
  · exact (hn _ h1).trans (hs _ h2)
  · exact hs _ h2

theorem sysFsync_store (w : World) (id : FileId) : SameStore w (sysFsync w id).1 := by
  unfold sysFsync
  split
  · exact .refl _
  · rename_i f hf
    split
    · exact .of_files rfl
    · intro i
      by_cases hi : i = id
      · subst hi; rw [World.set_files_same, hf]; rfl
      · rw [World.set_files_ne _ _ hi]; rfl

theorem flushFiles_store (fs : List FileInfo) (w : World) : SameStore w (flushFiles fs w).1 := by
  induction fs generalizing w with
  | nil => exact .refl _
  | cons f fs ih =>
    unfold flushFiles
    have := sysFsync_store w (.fd f.fhandle)
    split
    · rename_i hq; rw [hq] at this; exact this
    · rename_i hq; rw [hq] at this; exact this.trans (ih _)

theorem expflush_store (cl : Client) (w : World) : SameStore w (expflush cl w).1 := by
  unfold expflush
  split
  · exact sysFsync_store _ _
  · split
    · exact sysFsync_store _ _
    · split
      · split
        · exact .refl _
        · intro id
          simp only [Option.map_map]
          cases w.files id <;> rfl
      · exact flushFiles_store _ _

/-- One request on a read-only export. -/
theorem handleRequest_ro (e : Endian) (cl cl' : Client) (hro : has cl.ex.flags F_READONLY = true)
    (w w' : World) (r : Req) (p : Payload) (msgs : List Msg)
    (h : handleRequest e cl w r p = .val (cl', w', msgs)) :
    cl' = cl ∧ SameStore w w' ∧
    (r.type < 262144 → r.type % 65536 ∈ [1, 4, 6] → Encodes msgs [.simple 1 r.cookie []]) := by
  have hbw : badWrite cl = true := by simp [badWrite, hro]
  have heperm : r.type < 262144 → r.type % 65536 ∈ [1, 4, 6] →
      handleRequest e cl w r p = .val (cl, w, [simpleMsg e r (some (nbdErrno e EPERM))]) := by
    intro hf hm
    unfold handleRequest
    rw [if_neg (by omega)]
    simp only [List.mem_cons, List.not_mem_nil, or_false] at hm
    rcases hm with h1 | h1 | h1 <;> simp [h1, hbw, CMD_READ, CMD_WRITE, CMD_FLUSH, CMD_TRIM,
      CMD_WRITE_ZEROES, errorReply]
  have hE : r.type < 262144 → r.type % 65536 ∈ [1, 4, 6] → Encodes msgs [.simple 1 r.cookie []] := by
    intro hf hm
    rw [heperm hf hm] at h
    cases h
    rw [nbdErrno_eq]
    exact simpleMsg_encodes e r (some 1)
  cases handleRequest_handled _ _ _ _ _ _ _ _ h with
  | refused n hn why => exact ⟨rfl, .refl _, hE⟩
  | read hf ht hr _ _ hq => exact ⟨rfl, .of_files (handleRead_ro e cl hro _ _ _ _ hq), hE⟩
  | write hf ht hw => rw [hbw] at hw; cases hw
  | flush hf ht => exact ⟨rfl, expflush_store _ _, hE⟩
  | trim hf ht hw => rw [hbw] at hw; cases hw
  | zeroes hf ht hw => rw [hbw] at hw; cases hw

theorem fetch_files (e : Endian) (cl : Client) (w w' : World) (stream : List Byte) (f : Fetched)
    (h : fetch e cl w stream = .val (w', f)) : w'.files = w.files := by
  unfold fetch at h
  split at h
  · cases h; rfl
  · simp only [] at h
    split at h
    · cases h; rfl
    · split at h
      · have hmp : ∀ mp : World × Bool, mp = (if has cl.ex.flags F_SPLICE = true then
            mkpipe w (loadReq e (stream.take 28)).len else (w, false)) → mp.1.files = w.files := by
          intro mp hmp
          split at hmp
          · rw [hmp]; exact mkpipe_files _ _
          · rw [hmp]
        generalize hg : (if has cl.ex.flags F_SPLICE = true then
            mkpipe w (loadReq e (stream.take 28)).len else (w, false) : World × Bool) = mp at h
        have := hmp mp hg.symm
        split at h
        · cases h
        · split at h
          · cases h; exact this
          · cases h; exact this
      · split at h
        · cases h; rfl
        · cases h; rfl

theorem mainloop_ro (e : Endian) (cl : Client) (w : World) (stream : List Byte)
    (hro : has cl.ex.flags F_READONLY = true) :
    SameStore w (mainloop e cl w stream).w ∧
    ∀ d ∈ (mainloop e cl w stream).handled, d.req.type < 262144 → d.req.type % 65536 ∈ [1, 4, 6] →
      Encodes d.msgs [.simple 1 d.req.cookie []] := by
  fun_induction mainloop e cl w stream with
  | case1 => exact ⟨.refl _, by simp⟩
  | case2 => exact ⟨.refl _, by simp⟩
  | case3 cl w stream w1 hf => exact ⟨.of_files (fetch_files _ _ _ _ _ _ hf), by simp⟩
  | case4 cl w stream w1 _ hf => exact ⟨.of_files (fetch_files _ _ _ _ _ _ hf), by simp⟩
  | case5 cl w stream w1 r p rest hf _ => exact ⟨.of_files (fetch_files _ _ _ _ _ _ hf), by simp⟩
  | case6 cl w stream w1 r p rest hf _ => exact ⟨.of_files (fetch_files _ _ _ _ _ _ hf), by simp⟩
  | case7 cl w stream w1 r p rest hf cl' w' msgs hq ih =>
    obtain ⟨rfl, h1, h2⟩ := handleRequest_ro e cl cl' hro _ _ _ _ _ hq
    obtain ⟨h3, h4⟩ := ih hro
    refine ⟨((SameStore.of_files (fetch_files _ _ _ _ _ _ hf)).trans h1).trans h3, ?_⟩
    intro d hd
    simp only [Run.cons, List.mem_cons] at hd
    rcases hd with rfl | hd
    · exact h2
    · exact h4 d hd

end Nbd
