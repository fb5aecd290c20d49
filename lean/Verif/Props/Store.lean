import Verif.Props.Session
/-!
# Properties of the backing store: trimming, layout, tree paths, partial transfers, splicing, size
(C10, C13, C14, C15, C48, C49)
-/

set_option autoImplicit false

namespace Nbd.Props

open Nbd.Spec

/-! ### C10 -/

/-- **C10** (partial: a trim that comes before the file of a waiting export uses a list that is not there, `C10_false`). For every layout, empty files
included (`view` says which byte of which file belongs to an offset; it is not the search of the program): a trim request (any flags the server accepts, any
offset and length, any result of the system calls) leaves every byte of the export outside its range unchanged; bytes inside keep their
value or become zero. Copy-on-write exports are included: there nothing changes at all. -/
theorem C10_trim_partial (e : Endian) (cl cl' : Client) (hsz : cl.ex.exportsize ≤ 2 ^ 63)
    (hd : has cl.ex.flags F_TREEFILES = false → cl.ex.files.Pairwise (fun f g => f.fhandle ≠ g.fhandle)) (w w' : World) (r : Req)
    (msgs : List Msg) (hlen : r.len < 2 ^ 32) (hcmd : r.type % 65536 = 4)
    (h : handleRequest e cl w r .nothing = .val (cl', w', msgs)) :
    (∀ a, a < r.start ∨ r.start + r.len ≤ a → view cl.ex w' a = view cl.ex w a) ∧
    (∀ a, r.start ≤ a → a < r.start + r.len → view cl.ex w' a = view cl.ex w a ∨ view cl.ex w' a = 0) ∧
    (has cl.ex.flags F_COPYONWRITE = true → w'.files = w.files) := by
  have hne : errorReply e cl w r EINVAL = .val (cl', w', msgs) ∨ errorReply e cl w r EPERM = .val (cl', w', msgs) ∨
      (∃ w1, exptrim cl w r.start r.len = .val w1 ∧ w1 = w' ∧ r.start + r.len ≤ cl.ex.exportsize) := by
    unfold handleRequest at h
    simp only [] at h
    split at h
    · exact .inl h
    · rw [if_neg (by rw [hcmd]; decide), if_neg (by rw [hcmd]; decide), if_neg (by rw [hcmd]; decide),
        if_pos (by rw [hcmd]; rfl)] at h
      split at h
      · exact .inr (.inl h)
      · split at h
        · exact .inl h
        · rename_i hb
          right; right
          unfold handleTrim at h
          cases hq : exptrim cl w r.start r.len with
          | ub => rw [hq] at h; cases h
          | exit => rw [hq] at h; cases h
          | val w1 =>
          rw [hq] at h
          cases h
          refine ⟨_, rfl, rfl, ?_⟩
          unfold badRange at hb
          simp only [gt_iff_lt, Bool.or_eq_true, decide_eq_true_eq, not_or, Nat.not_lt] at hb
          omega
  rcases hne with h | h | ⟨w1, hq, rfl, hr⟩
  · cases h; exact ⟨fun _ _ => rfl, fun _ _ _ => .inl rfl, fun _ => rfl⟩
  · cases h; exact ⟨fun _ _ => rfl, fun _ _ _ => .inl rfl, fun _ => rfl⟩
  · obtain ⟨h1, h2⟩ := (exptrim_val_trimmed cl hd w r.start r.len hr _ hq).view
    refine ⟨h2, h1, ?_⟩
    intro hc
    unfold exptrim at hq
    split at hq
    · cases hq
    · split at hq
      · cases hq
      · cases hq; rfl

/-- A trim inside the first of two files: bytes 1 to 3 become zero, the rest stays. -/
example : (match handleRequest .little (Demo.client false) Demo.world ⟨0, 4, Demo.cookie, 1, 3⟩ .nothing with
    | .val (_, w', _) => (view Demo.ex w').read 0 11
    | _ => []) = [1, 0, 0, 0, 5, 1, 2, 3, 4, 5, 6] := by decide +kernel

/-- An empty file between two others: a trim inside the first does its work, and no other file is touched. -/
example : let cl : Client := ⟨⟨F_MULTIFILE, 8192, [⟨3, 0⟩, ⟨4, 4096⟩, ⟨5, 4096⟩], []⟩, false, [], 0, 0, 0, false, false⟩
    let w : World := ⟨fun id => if id = .fd 3 ∨ id = .fd 5 then some (File.clean (fun _ => 7) 4096) else
      if id = .fd 4 then some (File.clean (fun _ => 0) 0) else none, fun _ => .done 1, 0, 0, fun _ => []⟩
    cl.ex.files.Pairwise (fun f g => f.fhandle ≠ g.fhandle) ∧
    (match handleRequest .little cl w ⟨0, 4, Demo.cookie, 2, 3⟩ .nothing with
    | .val (_, w', _) => ((view cl.ex w').read 0 7, (view cl.ex w').read 4094 5)
    | _ => ([], [])) = ([7, 7, 0, 0, 0, 7, 7], [7, 7, 7, 7, 7]) := by decide +kernel

/-! ### C13 -/

/-- The total size of a list of backing files. -/
def total (ps : List ProbeFile) : Nat := (ps.map sizeAutodetect).sum

theorem laid_getElem? (multi : Bool) (expected : Nat) (ps : List ProbeFile) (start i : Nat) :
    (laid multi expected start ps)[i]? =
      (ps[i]?).map fun p => ⟨p.fd, (start + ((ps.take i).map (effSize multi expected)).sum) % 2 ^ 64⟩ := by
  induction ps generalizing start i with
  | nil => simp [laid]
  | cons p ps ih =>
    cases i with
    | zero => simp [laid]
    | succ i =>
      simp only [laid, List.getElem?_cons_succ, List.take_succ_cons, List.map_cons, List.sum_cons]
      rw [ih]
      simp [Nat.add_assoc]

theorem effSize_eq (multi : Bool) (expected : Nat) (p : ProbeFile) (h : 0 < sizeAutodetect p) :
    effSize multi expected p = sizeAutodetect p := by
  unfold effSize
  rw [if_neg (by omega)]

theorem map_effSize (multi : Bool) (expected : Nat) (ps : List ProbeFile)
    (h : ∀ p ∈ ps, 0 < sizeAutodetect p) : (ps.map (effSize multi expected)).sum = total ps := by
  unfold total
  congr 1
  exact List.map_congr_left fun p hp => effSize_eq multi expected p (h p hp)

theorem total_append (a b : List ProbeFile) : total (a ++ b) = total a + total b := by
  simp [total, List.map_append, List.sum_append]

/-- Every offset below the total size lies in exactly one file. -/
theorem split_offset (ps : List ProbeFile) (a : Nat) (ha : a < total ps) :
    ∃ i p o, ps[i]? = some p ∧ o < sizeAutodetect p ∧ a = total (ps.take i) + o := by
  induction ps generalizing a with
  | nil => simp [total] at ha
  | cons p ps ih =>
    by_cases h : a < sizeAutodetect p
    · exact ⟨0, p, a, rfl, h, by simp [total]⟩
    · have hc : total (p :: ps) = sizeAutodetect p + total ps := by simp [total]
      obtain ⟨i, q, o, h1, h2, h3⟩ := ih (a - sizeAutodetect p) (by omega)
      refine ⟨i + 1, q, o, by simpa using h1, h2, ?_⟩
      have : total ((p :: ps).take (i + 1)) = sizeAutodetect p + total (ps.take i) := by simp [total]
      omega

theorem openLoop_all (expected : Nat) (ps : List ProbeFile) (hrw : ∀ p ∈ ps, p.canWrite → p.canRead) :
    ∀ (i flags : Nat) (acc : List FileInfo) (lso ls flags' : Nat) (files : List FileInfo) (lso' ls' : Nat),
      openLoop true expected ps i flags acc lso ls = some (flags', files, lso', ls') →
      files.length = acc.length + (ps.takeWhile (·.canRead)).length := by
  induction ps with
  | nil =>
    intro i flags acc lso ls flags' files lso' ls' h
    unfold openLoop at h
    split at h
    · cases h; simp
    · cases h
  | cons p ps ih =>
    intro i flags acc lso ls flags' files lso' ls' h
    unfold openLoop at h
    simp only [Bool.not_true, Bool.and_false, Bool.false_and, Bool.true_and, Bool.false_eq_true,
      if_false, decide_eq_true_eq] at h
    have hp := hrw p (by simp)
    cases hq : openOne flags false p with
    | none =>
      rw [hq] at h
      simp only [] at h
      have hr : p.canRead = false := by
        cases hr : p.canRead with
        | false => rfl
        | true =>
          unfold openOne at hq
          simp only [hr, if_true, Bool.not_false, Bool.and_self] at hq
          split at hq
          · cases hq
          · split at hq <;> cases hq
      split at h
      · cases h; simp [hr]
      · cases h
    | some fl =>
      rw [hq] at h
      simp only [] at h
      have hr : p.canRead = true := by
        unfold openOne at hq
        split at hq
        · split at hq
          · assumption
          · cases hq
        · split at hq
          · rename_i hw; exact hp hw
          · split at hq
            · rename_i h'; simpa using h'
            · cases hq
      have := ih (fun q hq => hrw q (by simp [hq])) _ _ _ _ _ _ _ _ _ h
      rw [this]
      simp [hr]
      omega

/-- The files an export consists of, in order: the first file alone, or with `multifile` all files
up to the first one that cannot be opened. -/
def parts (flags : Nat) (probes : List ProbeFile) : List ProbeFile :=
  if has flags F_MULTIFILE then probes.takeWhile (·.canRead) else probes.take 1

theorem setup_parts (flags expected : Nat) (name : List Char) (probes : List ProbeFile) (ex : Export)
    (ht : has flags F_TREEFILES = false) (hw : has flags F_WAIT = false)
    (hrw : ∀ p ∈ probes, p.canWrite → p.canRead)
    (h : setupExport flags expected name probes = some ex) :
    parts flags probes ≠ [] ∧
    ex.files = laid (has flags F_MULTIFILE) expected 0 (parts flags probes) ∧
    ex.exportsize = (if expected ≠ 0 then expected
      else ((parts flags probes).map (effSize (has flags F_MULTIFILE) expected)).sum % 2 ^ 64) ∧
    ex.exportsize ≤ ((parts flags probes).map (effSize (has flags F_MULTIFILE) expected)).sum % 2 ^ 64 := by
  obtain ⟨opened, rest, h1, h2, h3, h4, h5, h6⟩ := setupExport_spec flags expected name probes ex ht hw h
  have ho : opened = parts flags probes := by
    unfold parts
    cases hm : has flags F_MULTIFILE with
    | false =>
      have := h3 hm
      rw [h1]
      simp [← this]
    | true =>
      have hl : ex.files.length = (probes.takeWhile (·.canRead)).length := by
        unfold setupExport at h
        rw [ht, hw, hm] at h
        simp only [Bool.or_self, Bool.false_eq_true, if_false] at h
        split at h
        · cases h
        · rename_i hq
          have := openLoop_all expected probes hrw _ _ _ _ _ _ _ _ _ hq
          simp only [List.length_nil, Nat.zero_add] at this
          split at h
          · split at h
            · cases h
            · cases h; exact this
          · cases h; exact this
      rw [h4, laid_length] at hl
      have e1 : probes.take opened.length = opened := by rw [h1]; simp
      have e2 : probes.take (probes.takeWhile (·.canRead)).length = probes.takeWhile (·.canRead) := by
        conv => lhs; rhs; rw [← List.takeWhile_append_dropWhile (p := (·.canRead)) (l := probes)]
        exact List.take_left
      simp only [if_true]
      rw [← e1, hl, e2]
  rw [← ho]
  exact ⟨h2, h4, h5, h6⟩

/-- **C13** (partial: no file of the export is empty). The files follow one another without gap or
overlap: export offset `(sizes of the files before number i) + o` is served from file `i` at
position `o` and from nowhere else, and a transfer is cut off at the end of that file. With
`C13_every_offset` every offset of the export is of this form. -/
theorem C13_layout_partial (flags expected : Nat) (name : List Char) (probes : List ProbeFile)
    (ex : Export) (ht : has flags F_TREEFILES = false) (hw : has flags F_WAIT = false)
    (hrw : ∀ p ∈ probes, p.canWrite → p.canRead)
    (h : setupExport flags expected name probes = some ex)
    (hpos : ∀ p ∈ parts flags probes, 0 < sizeAutodetect p)
    (hsum : total (parts flags probes) ≤ 2 ^ 63)
    (hd : (parts flags probes).Pairwise (fun p q => p.fd ≠ q.fd))
    (w : World) (i : Nat) (p : ProbeFile) (o : Nat)
    (hi : (parts flags probes)[i]? = some p) (ho : o < sizeAutodetect p) :
    getFilepos ex w (total ((parts flags probes).take i) + o) =
      .val (w, some (.file (.fd p.fd), o,
        if i + 1 < (parts flags probes).length then sizeAutodetect p - o else 0)) := by
  obtain ⟨h1, h2, -, -⟩ := setup_parts flags expected name probes ex ht hw hrw h
  have htree : has ex.flags F_TREEFILES = false := by
    unfold setupExport at h
    rw [ht, hw] at h
    simp only [Bool.or_self, Bool.false_eq_true, if_false] at h
    split at h
    · cases h
    · rename_i hq
      have := openLoop_tree _ _ _ _ _ _ _ _ _ _ _ _ hq
      split at h
      · split at h
        · cases h
        · cases h; rw [this, ht]
      · cases h; rw [this, ht]
  generalize parts flags probes = ps at *
  generalize has flags F_MULTIFILE = m at *
  have hgood : GoodFiles ex.files := by
    rw [h2]
    apply laid_good m expected ps h1
    · intro q hq
      rw [effSize_eq _ _ _ (hpos q (List.dropLast_subset _ hq))]
      exact hpos q (List.dropLast_subset _ hq)
    · rw [map_effSize _ _ _ hpos]; omega
    · exact hd
  have hlt : ∀ j, total (ps.take j) ≤ total ps := by
    intro j
    have : total ps = total (ps.take j) + total (ps.drop j) := by
      rw [← total_append, List.take_append_drop]
    omega
  have hstep : total (ps.take (i + 1)) = total (ps.take i) + sizeAutodetect p := by
    rw [List.take_add_one, hi, total_append]
    simp [total]
  have hidx : ∀ j, ex.files[j]? = (ps[j]?).map fun q => (⟨q.fd, total (ps.take j)⟩ : FileInfo) := by
    intro j
    rw [h2, laid_getElem?, map_effSize _ _ _ (fun q hq => hpos q (List.mem_of_mem_take hq))]
    have := hlt j
    rw [Nat.zero_add, Nat.mod_eq_of_lt (by omega)]
  have := hlt (i + 1)
  have hloc := locate_of_index ex.files (total (ps.take i) + o) hgood.sorted i
    ⟨p.fd, total (ps.take i)⟩ (by rw [hidx, hi]; rfl) (by simp) (by
      intro g hg
      rw [hidx] at hg
      cases hp1 : ps[i + 1]? with
      | none => rw [hp1] at hg; cases hg
      | some q =>
        rw [hp1] at hg
        cases hg
        show _ < total (ps.take (i + 1))
        omega)
  obtain ⟨fi, nx, hl, hg⟩ := getFilepos_files ex w (total (ps.take i) + o) (by omega) htree hgood
  rw [hloc] at hl
  cases hl
  rw [hg]
  have e1 : total (ps.take i) + o - total (ps.take i) = o := by omega
  rw [e1]
  congr 4
  · rw [hidx]
    by_cases hc : i + 1 < ps.length
    · rw [if_pos hc, List.getElem?_eq_getElem hc]
      show (o, total (ps.take (i + 1)) - (total (ps.take i) + o)) = _
      rw [hstep]
      congr 1
      omega
    · rw [if_neg hc, List.getElem?_eq_none (by omega)]
      rfl

/-- **C13, nothing left out**: every offset below the export size lies in one of the files. -/
theorem C13_every_offset (flags expected : Nat) (name : List Char) (probes : List ProbeFile)
    (ex : Export) (ht : has flags F_TREEFILES = false) (hw : has flags F_WAIT = false)
    (hrw : ∀ p ∈ probes, p.canWrite → p.canRead)
    (h : setupExport flags expected name probes = some ex)
    (hpos : ∀ p ∈ parts flags probes, 0 < sizeAutodetect p) (a : Nat) (ha : a < ex.exportsize) :
    ∃ i p o, (parts flags probes)[i]? = some p ∧ o < sizeAutodetect p ∧
      a = total ((parts flags probes).take i) + o := by
  obtain ⟨-, -, -, h4⟩ := setup_parts flags expected name probes ex ht hw hrw h
  rw [map_effSize _ _ _ hpos] at h4
  have := Nat.mod_le (total (parts flags probes)) (2 ^ 64)
  exact split_offset _ a (by omega)

/-- **C13, one request stays inside the file**: the last file has no cut-off, but an in-range
transfer that starts in it ends in it. -/
theorem C13_stays_inside (flags expected : Nat) (name : List Char) (probes : List ProbeFile)
    (ex : Export) (ht : has flags F_TREEFILES = false) (hw : has flags F_WAIT = false)
    (hrw : ∀ p ∈ probes, p.canWrite → p.canRead)
    (h : setupExport flags expected name probes = some ex)
    (hpos : ∀ p ∈ parts flags probes, 0 < sizeAutodetect p) (i : Nat) (p : ProbeFile) (o len : Nat)
    (hi : (parts flags probes)[i]? = some p)
    (hlast : i + 1 = (parts flags probes).length)
    (hr : total ((parts flags probes).take i) + o + len ≤ ex.exportsize) : o + len ≤ sizeAutodetect p := by
  obtain ⟨-, -, -, h4⟩ := setup_parts flags expected name probes ex ht hw hrw h
  rw [map_effSize _ _ _ hpos] at h4
  have := Nat.mod_le (total (parts flags probes)) (2 ^ 64)
  generalize parts flags probes = ps at *
  have hstep : total (ps.take (i + 1)) = total (ps.take i) + sizeAutodetect p := by
    rw [List.take_add_one, hi, total_append]
    simp [total]
  rw [hlast, List.take_length] at hstep
  omega

/-- Evaluation of `get_filepos` given the result of the search. -/
theorem getFilepos_at {files : List FileInfo} {flags size a n fd off : Nat} {w : World} {nx : Option FileInfo}
    (hb : bsearch files a 0 ((files.length : Int) - 1) = some (n : Int))
    (hf : files[n]? = some ⟨fd, off⟩) (hn : files[n + 1]? = nx) (ha : a < 2 ^ 63 := by decide)
    (ht : has flags F_TREEFILES = false := by decide) :
    getFilepos ⟨flags, size, files, []⟩ w a = .val (w, some (.file (.fd fd), a - off,
      match nx with | none => 0 | some g => g.startoff - a)) := by
  unfold getFilepos
  rw [if_neg (by omega), if_neg (by rw [ht]; decide)]
  simp only [hb]
  rw [if_neg (by omega)]
  simp only [Int.toNat_natCast, hf, hn]
  cases nx <;> rfl

/-- Three files of 5, 6 and 7 bytes. -/
def three : List ProbeFile :=
  [⟨3, true, true, none, some (true, 5), 0⟩, ⟨4, true, true, none, some (true, 6), 0⟩,
   ⟨5, true, true, none, some (true, 7), 0⟩]

example : ∃ ex, setupExport F_MULTIFILE 0 [] three = some ex ∧ parts F_MULTIFILE three = three ∧
    (∀ p ∈ three, 0 < sizeAutodetect p) ∧ total three = 18 ∧ ex.exportsize = 18 ∧
    getFilepos ex Demo.world 12 = .val (Demo.world, some (.file (.fd 5), 1, 0)) ∧
    getFilepos ex Demo.world 6 = .val (Demo.world, some (.file (.fd 4), 1, 5)) := by
  refine ⟨⟨F_MULTIFILE, 18, [⟨3, 0⟩, ⟨4, 5⟩, ⟨5, 11⟩], []⟩, by decide +kernel, by decide +kernel,
    by decide +kernel, by decide +kernel, rfl, ?_, ?_⟩
  · have hb : bsearch [⟨3, 0⟩, ⟨4, 5⟩, ⟨5, 11⟩] 12 0 2 = some 2 := by decide +kernel
    exact getFilepos_at hb rfl rfl
  · have hb : bsearch [⟨3, 0⟩, ⟨4, 5⟩, ⟨5, 11⟩] 6 0 2 = some 1 := by decide +kernel
    exact getFilepos_at hb rfl rfl

/-- **C13 is false if a file in the middle is empty**: with files of 4096, 0 and 4096 bytes, export
offset 4096 (which belongs to the third file) is mapped to the empty second file, without any
limit: a write there extends the empty file and the third file is not used. -/
theorem C13_false_empty_file : ∃ (probes : List ProbeFile) (ex : Export),
    setupExport F_MULTIFILE 0 [] probes = some ex ∧
    probes.map sizeAutodetect = [4096, 0, 4096] ∧ probes.map (·.fd) = [3, 4, 5] ∧
    ∀ w, getFilepos ex w 4096 = .val (w, some (.file (.fd 4), 0, 0)) := by
  refine ⟨[⟨3, true, true, none, some (true, 4096), 0⟩, ⟨4, true, true, none, some (true, 0), 0⟩,
    ⟨5, true, true, none, some (true, 4096), 0⟩],
    ⟨F_MULTIFILE, 8192, [⟨3, 0⟩, ⟨4, 4096⟩, ⟨5, 4096⟩], []⟩, by decide +kernel, by decide +kernel,
    rfl, fun w => ?_⟩
  have hb : bsearch [⟨3, 0⟩, ⟨4, 4096⟩, ⟨5, 4096⟩] 4096 0 2 = some 1 := by decide +kernel
  exact getFilepos_at hb rfl rfl

/-! ### C49 -/

/-- **C49.** The announced size is the configured size if one is configured, and then it is not
more than the files provide; otherwise it is the sum of the sizes of the files. (For a tree export
or a file that is waited for it is the configured size.) -/
theorem C49_export_size (flags expected : Nat) (name : List Char) (probes : List ProbeFile)
    (ex : Export) (hrw : ∀ p ∈ probes, p.canWrite → p.canRead)
    (h : setupExport flags expected name probes = some ex)
    (hsum : total (parts flags probes) < 2 ^ 64) :
    ((has flags F_TREEFILES || has flags F_WAIT) = true → ex.exportsize = expected) ∧
    ((has flags F_TREEFILES || has flags F_WAIT) = false →
      (expected ≠ 0 → ex.exportsize = expected) ∧
      (expected = 0 → ex.exportsize = total (parts flags probes)) ∧
      ((∀ p ∈ parts flags probes, 0 < sizeAutodetect p) → ex.exportsize ≤ total (parts flags probes))) := by
  constructor
  · intro hw
    unfold setupExport at h
    rw [if_pos hw] at h
    cases h; rfl
  · intro hw
    simp only [Bool.or_eq_false_iff] at hw
    obtain ⟨-, -, h3, h4⟩ := setup_parts flags expected name probes ex hw.1 hw.2 hrw h
    refine ⟨fun he => by rw [h3, if_pos he], fun he => ?_, fun hpos => ?_⟩
    · rw [h3, if_neg (by omega)]
      have : (parts flags probes).map (effSize (has flags F_MULTIFILE) expected)
          = (parts flags probes).map sizeAutodetect := by
        apply List.map_congr_left
        intro p _
        unfold effSize
        rw [if_neg (by omega)]
      rw [this]
      exact Nat.mod_eq_of_lt hsum
    · rw [map_effSize _ _ _ hpos, Nat.mod_eq_of_lt hsum] at h4
      exact h4

example : (setupExport F_MULTIFILE 0 [] three).map (·.exportsize) = some 18 ∧
    (setupExport F_MULTIFILE 17 [] three).map (·.exportsize) = some 17 ∧
    setupExport F_MULTIFILE 19 [] three = none ∧
    (setupExport 0 0 [] three).map (·.exportsize) = some 5 := by decide +kernel

/-! ### C06: exports that become read-only -/

theorem has_or (a b m : Nat) : has (a ||| b) m = (has a m || has b m) := by
  unfold has
  rw [Nat.and_or_distrib_right]
  cases h : (a &&& m) with
  | zero => simp
  | succ n =>
    have : (n + 1 ||| (b &&& m)) ≠ 0 := by
      intro h0
      have := Nat.or_eq_zero_iff.mp h0
      omega
    simp [this]

theorem openLoop_ro (multi : Bool) (expected : Nat) (ps : List ProbeFile) :
    ∀ (i flags : Nat) (acc : List FileInfo) (lso ls flags' : Nat) (files : List FileInfo) (lso' ls' : Nat),
      openLoop multi expected ps i flags acc lso ls = some (flags', files, lso', ls') →
      has flags F_COPYONWRITE = false →
      (has flags F_READONLY = true ∨
        ∃ p ∈ ps.take (files.length - acc.length), p.canWrite = false) →
      acc.length ≤ files.length ∧ has flags' F_READONLY = true := by
  induction ps with
  | nil =>
    intro i flags acc lso ls flags' files lso' ls' h hc hr
    unfold openLoop at h
    split at h
    · cases h
      rcases hr with hr | ⟨p, hp, _⟩
      · exact ⟨Nat.le_refl _, hr⟩
      · simp at hp
    · cases h
  | cons p ps ih =>
    intro i flags acc lso ls flags' files lso' ls' h hc hr
    unfold openLoop at h
    simp only [] at h
    generalize (expected != 0 && !multi && i == 0) = cc at h
    cases hq : openOne flags cc p with
    | none =>
      rw [hq] at h
      simp only [] at h
      split at h
      · cases h
        rcases hr with hr | ⟨p, hp, _⟩
        · exact ⟨Nat.le_refl _, hr⟩
        · simp at hp
      · cases h
    | some fl =>
      rw [hq] at h
      simp only [] at h
      have hfl : fl = flags ∨ fl = flags ||| F_AUTOREADONLY ||| F_READONLY := openOne_flags _ _ _ _ hq
      have hfc : has fl F_COPYONWRITE = false := by
        rcases hfl with rfl | rfl
        · exact hc
        · rw [has_or, has_or, hc]; decide
      have hkeep : has flags F_READONLY = true → has fl F_READONLY = true := by
        intro h1
        rcases hfl with rfl | rfl
        · exact h1
        · rw [has_or, has_or, h1]; simp
      have hset : p.canWrite = false → has fl F_READONLY = true := by
        intro hw
        unfold openOne at hq
        split at hq
        · rename_i h1; exact hkeep h1
        · rw [hw] at hq
          simp only [Bool.false_eq_true, if_false, hc] at hq
          split at hq
          · cases hq; rw [has_or]; simp [has, F_READONLY]
          · cases hq
      have hend : ∀ (files : List FileInfo), files = acc ++ [⟨p.fd, (lso + ls) % 2 ^ 64⟩] →
          (has flags F_READONLY = true ∨
            ∃ q ∈ (p :: ps).take (files.length - acc.length), q.canWrite = false) →
          acc.length ≤ files.length ∧ has fl F_READONLY = true := by
        intro files hf hr
        subst hf
        refine ⟨by simp, ?_⟩
        rcases hr with hr | ⟨q, hq1, hq2⟩
        · exact hkeep hr
        · simp only [List.length_append, List.length_cons, List.length_nil, Nat.zero_add,
            Nat.add_sub_cancel_left, List.take_succ_cons, List.take_zero, List.mem_singleton] at hq1
          subst hq1
          exact hset hq2
      split at h
      · cases h; exact hend _ rfl hr
      · split at h
        · cases h; exact hend _ rfl hr
        · have hlen : acc.length + 1 ≤ files.length := by
            have : ∀ (ps : List ProbeFile) (i flags : Nat) (acc : List FileInfo) (lso ls flags' : Nat)
                (files : List FileInfo) (lso' ls' : Nat),
                openLoop multi expected ps i flags acc lso ls = some (flags', files, lso', ls') →
                acc.length ≤ files.length := by
              intro ps
              induction ps with
              | nil =>
                intro i flags acc lso ls flags' files lso' ls' h
                unfold openLoop at h
                split at h
                · cases h; omega
                · cases h
              | cons p ps ih =>
                intro i flags acc lso ls flags' files lso' ls' h
                unfold openLoop at h
                simp only [] at h
                generalize (expected != 0 && !multi && i == 0) = cc at h
                split at h
                · split at h
                  · cases h; omega
                  · cases h
                · split at h
                  · cases h; simp
                  · have := ih _ _ _ _ _ _ _ _ _ h
                    simp only [List.length_append, List.length_cons, List.length_nil] at this
                    omega
            have := this _ _ _ _ _ _ _ _ _ _ h
            simpa using this
          refine ⟨by omega, (ih _ _ _ _ _ _ _ _ _ h hfc ?_).2⟩
          rcases hr with hr | ⟨q, hq1, hq2⟩
          · exact .inl (hkeep hr)
          · have e1 : files.length - acc.length = (files.length - (acc.length + 1)) + 1 := by omega
            rw [e1, List.take_succ_cons, List.mem_cons] at hq1
            rcases hq1 with rfl | hq1
            · exact .inl (hset hq2)
            · refine .inr ⟨q, ?_, hq2⟩
              simpa using hq1

/-- **C06, auto-read-only.** If some file of an export without copy-on-write cannot be opened for
writing, the export is read-only, so that `C06_readonly` applies to every session on it. -/
theorem C06_auto_readonly (flags expected : Nat) (name : List Char) (probes : List ProbeFile)
    (ex : Export) (ht : has flags F_TREEFILES = false) (hw : has flags F_WAIT = false)
    (hc : has flags F_COPYONWRITE = false)
    (hrw : ∀ p ∈ probes, p.canWrite → p.canRead)
    (h : setupExport flags expected name probes = some ex)
    (hno : ∃ p ∈ parts flags probes, p.canWrite = false) : has ex.flags F_READONLY = true := by
  obtain ⟨-, h2, -, -⟩ := setup_parts flags expected name probes ex ht hw hrw h
  have htk : probes.take (parts flags probes).length = parts flags probes := by
    unfold parts
    split
    · conv => lhs; rhs; rw [← List.takeWhile_append_dropWhile (p := (·.canRead)) (l := probes)]
      exact List.take_left
    · cases probes <;> simp
  unfold setupExport at h
  rw [ht, hw] at h
  simp only [Bool.or_self, Bool.false_eq_true, if_false] at h
  split at h
  · cases h
  · rename_i flags' files lso ls hq
    have key : files = laid (has flags F_MULTIFILE) expected 0 (parts flags probes) →
        has flags' F_READONLY = true := by
      intro hf
      refine (openLoop_ro _ _ _ _ _ _ _ _ _ _ _ _ hq hc (.inr ?_)).2
      rw [hf, laid_length, List.length_nil, Nat.sub_zero, htk]
      exact hno
    split at h
    · split at h
      · cases h
      · cases h; exact key h2
    · cases h; exact key h2

example : (setupExport F_MULTIFILE 0 [] [⟨3, true, true, none, some (true, 5), 0⟩,
    ⟨4, false, true, none, some (true, 6), 0⟩]).map (fun ex => has ex.flags F_READONLY) = some true := by
  decide +kernel

/-! ### C14 -/

theorem constructPath_chars (lenmax : Int) (size pos : Nat) (p : List Char) (pp : Nat)
    (h : constructPath lenmax size pos = some (p, pp)) :
    p.head? = some '/' ∧ '.' ∉ p := by
  have hx : ∀ v, '.' ∉ hex4 v := by
    intro v hm
    simp only [hex4, List.mem_cons, List.not_mem_nil, or_false] at hm
    have key : ∀ n < 16, '.' ≠ hexDigit n := by decide +kernel
    have hd : ∀ v, '.' ≠ hexDigit v := by
      intro v; rw [hexDigit_mod]; exact key _ (Nat.mod_lt _ (by omega))
    rcases hm with h | h | h | h <;> exact hd _ h
  fun_induction constructPath lenmax size pos generalizing p pp with
  | case1 => cases h
  | case2 lm s hl hs =>
    simp only [Option.some.injEq, Prod.mk.injEq] at h
    obtain ⟨rfl, _⟩ := h
    refine ⟨rfl, ?_⟩
    rw [List.mem_append]
    rintro (h | h)
    · revert h; decide
    · exact hx _ h
  | case3 => cases h
  | case4 lm s hl hs rest ppos hq ih =>
    simp only [Option.some.injEq, Prod.mk.injEq] at h
    obtain ⟨rfl, _⟩ := h
    obtain ⟨-, h2⟩ := ih _ _ hq
    refine ⟨rfl, ?_⟩
    rw [List.mem_append, List.mem_append]
    rintro ((h | h) | h)
    · revert h; decide
    · exact hx _ h
    · exact h2 h

/-- **C14.** Two offsets of a tree export use the same file exactly when they lie in the same
4096-byte block. -/
theorem C14_same_block (name : List Char) (size a b : Nat) (ha : a < size) (hb : b < size)
    (pa pb : List Char) (h1 : treeFilename name size a = some pa)
    (h2 : treeFilename name size b = some pb) : pa = pb ↔ a / 4096 = b / 4096 := by
  rw [← treeFilename_eq_iff name size a b ha hb pa h1, h2]
  simp [eq_comm]

/-- **C14, buffer and directory.** The path starts with the export directory followed by `/`,
contains no further dots (so no `..`), fits with its terminating NUL into the buffer of `PATH_MAX`
bytes, and whether it fits does not depend on the offset (otherwise the process exits). -/
theorem C14_path (name : List Char) (size a : Nat) (p : List Char)
    (h : treeFilename name size a = some p) :
    (∃ q, p = name ++ '/' :: q ∧ '.' ∉ q) ∧ p.length + 1 ≤ PATH_MAX ∧
    ∀ b, ∃ p', treeFilename name size b = some p' := by
  unfold treeFilename at h
  split at h
  · cases h
  · rename_i q ppos hq
    cases h
    obtain ⟨h1, h2⟩ := constructPath_chars _ _ _ _ _ hq
    have h3 := (constructPath_fits _ _ _ _ _ hq).1
    refine ⟨?_, by simp only [List.length_append]; omega, ?_⟩
    · cases q with
      | nil => simp at h1
      | cons c q =>
        simp only [List.head?_cons, Option.some.injEq] at h1
        subst h1
        exact ⟨q, rfl, fun hm => h2 (by simp [hm])⟩
    · intro b
      have := (constructPath_isSome ((PATH_MAX : Int) - name.length - 1) size a).mp (by rw [hq]; rfl)
      have := (constructPath_isSome ((PATH_MAX : Int) - name.length - 1) size b).mpr this
      rw [Option.isSome_iff_exists] at this
      obtain ⟨⟨p', pp'⟩, hp'⟩ := this
      exact ⟨_, by unfold treeFilename; rw [hp']⟩

/-- Paths of a 100 GiB tree: three levels. -/
example : treeFilename ['/', 't'] (100 * 2 ^ 30) (5 * 2 ^ 32 + 3 * 4096 + 7) =
    some "/t/TREE0005/TREE0000/FILE0003".toList := by decide +kernel

/-- The path is refused when there is no room. -/
example : constructPath 27 (100 * 2 ^ 30) 0 = none ∧ (constructPath 28 (100 * 2 ^ 30) 0).isSome := by
  decide +kernel

/-! ### C15 -/

/-- **C15** (partial: plain, multi-file and tree exports; copy-on-write exports are the subject of C12). However the kernel splits or fails the transfers (`w.orc` is arbitrary): if a write is
acknowledged, all its bytes were stored; if a read is answered with data, it is all the data
requested; every other answer carries a protocol error. Splicing may be enabled; with structured replies see C03. -/
theorem C15_short_io_partial (e : Endian) (cl : Client) (w : World) (hp : Plain cl)
    (hst : cl.structured = false) (s : Sent) (hok : s.Ok)
    (hcmd : s.req.type % 65536 = 0 ∨ s.req.type % 65536 = 1)
    (hend : (mainloop e cl w s.encode).ending = .gone) :
    let run := mainloop e cl w s.encode
    (∃ err data, run.sent = (Reply.simple err s.req.cookie data).encode ∧
      ((err = 0 ∧ (s.req.type % 65536 = 0 → data = (view cl.ex w).read s.req.start s.req.len ∧
          view cl.ex run.w = view cl.ex w) ∧
        (s.req.type % 65536 = 1 → data = [] ∧
          view cl.ex run.w = (view cl.ex w).write s.req.start s.data)) ∨
       (err ∈ [1, 5, 12, 22, 28] ∧ data = []))) := by
  obtain ⟨rs, hsent, hstep⟩ := single e cl w hp s hok (by
    intro hc
    simp only [Sent.cmd] at hc
    split at hc <;> omega) hend
  have hfr : ∀ m ∈ framing cl, m = false := by
    intro m hm
    unfold framing at hm
    rw [hst] at hm
    split at hm <;> simpa using hm
  have hc : s.cmd.code = s.req.type % 65536 ∨ s.cmd.code = 65535 := by
    simp only [Sent.cmd]; split
    · left; rfl
    · right; rfl
  show ∃ err data, _
  rw [hsent]
  have hw : ∀ r : Reply, wire [r] = r.encode := by intro r; simp [wire]
  generalize view cl.ex (mainloop e cl w s.encode).w = g at hstep ⊢
  cases hstep with
  | read _ hc' hr m hm h =>
    have := hfr m hm
    subst this
    cases h
    refine ⟨0, _, hw _, .inl ⟨rfl, fun _ => ⟨rfl, rfl⟩, fun h => by omega⟩⟩
  | readFails _ hc' hr m hm h =>
    have := hfr m hm
    subst this
    cases h with
    | simple err he => exact ⟨err, [], hw _, .inr ⟨he, rfl⟩⟩
  | write hc' => exact ⟨0, [], hw _, .inl ⟨rfl, fun h => by omega, fun _ => ⟨rfl, rfl⟩⟩⟩
  | writeFails _ _ _ err n he => exact ⟨err, [], hw _, .inr ⟨he, rfl⟩⟩
  | zeroes h => omega
  | zeroesFails h => omega
  | flush h => omega
  | trim h => omega
  | refused err he => exact ⟨err, [], hw _, .inr ⟨he, rfl⟩⟩

/-- The demo kernel transfers one to three bytes at a time. -/
example : (mainloop .little (Demo.client false) Demo.world (Demo.request 0 2 8).encode).sent =
    (Reply.simple 0 Demo.cookie [3, 4, 5, 1, 2, 3, 4, 5]).encode ∧
    (mainloop .little (Demo.client false) Demo.world (Demo.request 0 2 8).encode).ending = .gone ∧
    (Demo.request 0 2 8).Ok :=
  ⟨by decide +kernel, by decide +kernel, Demo.read_ok⟩

/-- A kernel that fails the second transfer with ENOSPC. -/
example : (mainloop .little (Demo.client false)
      { Demo.world with orc := fun t => if t = 1 then .err ENOSPC else .done 2 }
      (Demo.write 3 [10, 11, 12, 13]).encode).sent = (Reply.simple 28 Demo.cookie []).encode := by
  decide +kernel

/-! ### C48 -/

/-- **C48** (partial: sessions without structured replies). A read on a splice export that is
answered without error carries exactly the bytes a normal read carries, whether splicing worked,
stopped half-way or could not be used; and a failed splice has sent nothing, so that the answer is
one well-formed reply. -/
theorem C48_splice_partial (e : Endian) (cl : Client) (w w' : World) (hp : Plain cl)
    (hst : cl.structured = false) (r : Req) (msgs : List Msg) (hdf : r.type.testBit 18 = false)
    (hr : r.start + r.len ≤ cl.ex.exportsize) (h : handleRead e cl w r = .val (w', msgs)) :
    (msgs.map Msg.bytes).flatten =
        (Reply.simple 0 r.cookie ((view cl.ex w).read r.start r.len)).encode ∨
    ∃ err ∈ [1, 5, 12, 22, 28], (msgs.map Msg.bytes).flatten = (Reply.simple err r.cookie []).encode := by
  obtain ⟨-, rs, h1, h2⟩ := handleRead_plain e cl hp w w' r msgs (by rw [has_df]; exact hdf) hr h
  rw [h1.wire]
  rw [hst] at h2
  rcases h2 with (h2 | h2) | ⟨_, _, hc, _⟩
  · cases h2; left; simp [wire]
  · cases h2 with
    | simple err he => right; exact ⟨err, he, by simp [wire]⟩
  · cases hc

/-- **C48** (partial: encrypted sessions). On an encrypted session a read of a splice export is answered in the framing the
client negotiated, structured or not, and with the bytes a normal read carries: nothing bypasses the TLS session. -/
theorem C48_splice_tls_partial (e : Endian) (cl : Client) (w w' : World) (hp : Plain cl) (htls : cl.tls = true)
    (r : Req) (msgs : List Msg) (hdf : r.type.testBit 18 = false) (hr : r.start + r.len ≤ cl.ex.exportsize)
    (h : handleRead e cl w r = .val (w', msgs)) :
    ∃ rs, (msgs.map Msg.bytes).flatten = wire rs ∧
      (ReadAnswer r.cookie r.start ((view cl.ex w).read r.start r.len) cl.structured rs ∨
       ReadFailure r.cookie r.start ((view cl.ex w).read r.start r.len) cl.structured rs) := by
  obtain ⟨-, rs, h1, h2⟩ := handleRead_plain e cl hp w w' r msgs (by rw [has_df]; exact hdf) hr h
  refine ⟨rs, h1.wire, ?_⟩
  rcases h2 with h2 | ⟨_, hc, _⟩
  · exact h2
  · rw [htls] at hc; cases hc

/-- A splice export on the two demo files. -/
def spliceClient (structured : Bool) : Client :=
  ⟨⟨F_MULTIFILE ||| F_SPLICE, 11, [⟨3, 0⟩, ⟨4, 5⟩], []⟩, false, [], 0, 0, 0, structured, false⟩

theorem spliceClient_plain (s : Bool) : Plain (spliceClient s) where
  good := ⟨by cases s <;> decide, fun _ => ⟨by cases s <;> decide, by cases s <;> decide, by cases s <;> decide⟩⟩
  paged := by cases s <;> decide

/-- Splicing works; and splicing fails at the second step (system call 2) and the read falls back. -/
example : (mainloop .little (spliceClient false) Demo.world (Demo.request 0 2 8).encode).sent =
      (Reply.simple 0 Demo.cookie [3, 4, 5, 1, 2, 3, 4, 5]).encode ∧
    (mainloop .little (spliceClient false)
      { Demo.world with orc := fun t => if t = 2 then .err EINVAL else .done 2 }
      (Demo.request 0 2 8).encode).sent =
      (Reply.simple 0 Demo.cookie [3, 4, 5, 1, 2, 3, 4, 5]).encode := by
  constructor <;> decide +kernel

/-- On an encrypted session the same export answers with chunks. -/
example : Plain { spliceClient true with tls := true } ∧
    (mainloop .little { spliceClient true with tls := true } Demo.world (Demo.request 0 2 8).encode).sent.take 4 =
      toBE 4 0x668e33ef :=
  ⟨⟨(spliceClient_plain true).good, (spliceClient_plain true).paged⟩, by decide +kernel⟩

/-- **C48 is false with structured replies**: a spliced read is answered with a simple reply
although the client negotiated structured replies, where a normal read of the same export is
answered with chunks. -/
theorem C48_false_structured : ∃ (cl plainCl : Client) (w : World) (s : Sent), Plain cl ∧ s.Ok ∧
    cl.structured = true ∧
    plainCl = { cl with ex := { cl.ex with flags := F_MULTIFILE } } ∧ cl.ex.flags = F_MULTIFILE ||| F_SPLICE ∧
    (mainloop .little cl w s.encode).sent.take 4 = toBE 4 0x67446698 ∧
    (mainloop .little plainCl w s.encode).sent.take 4 = toBE 4 0x668e33ef := by
  refine ⟨spliceClient true, _, Demo.world, Demo.request 0 2 8, spliceClient_plain true, Demo.read_ok,
    rfl, rfl, rfl, by decide +kernel, by decide +kernel⟩

end Nbd.Props
