import Verif.Props.Store

/-!
# C49: which exports are accepted, and with which size

`C49_export_size` says what size an accepted export has. This file says when an export is accepted:
exactly when its first file can be used and the files provide the configured number of bytes. A
configured size equal to what the files provide is accepted, one byte more is not.
-/

set_option autoImplicit false

namespace Nbd

namespace Spec

/-- A backing file the server can use. A file whose size is configured, and that is the only one
of a writable export, may have to be created or extended, so it must be writable; every other file
need only be readable (a writable export of a file that can only be read becomes read-only). -/
def Usable (readonly multi : Bool) (expected : Nat) (p : ProbeFile) : Prop :=
  if readonly = false ∧ multi = false ∧ expected ≠ 0 then p.canWrite = true else p.canRead = true

end Spec

theorem openOne_some_iff (flags expected : Nat) (multi : Bool) (p : ProbeFile)
    (hrw : p.canWrite → p.canRead) :
    (∃ fl, openOne flags (expected != 0 && !multi && (0 : Nat) == 0) p = some fl) ↔
      Spec.Usable (has flags F_READONLY) multi expected p := by
  unfold openOne Spec.Usable
  cases hr : has flags F_READONLY <;> cases hm : multi <;> cases hw : p.canWrite <;>
    cases hc : p.canRead <;> by_cases he : expected = 0 <;> simp_all

theorem openLoop_goes_on (expected : Nat) (ps : List ProbeFile) :
    ∀ (i flags : Nat) (acc : List FileInfo) (lso ls : Nat), 0 < i →
      ∃ r, openLoop true expected ps i flags acc lso ls = some r := by
  induction ps with
  | nil =>
    intro i flags acc lso ls hi
    exact ⟨(flags, acc, lso, ls), by unfold openLoop; simp [hi]⟩
  | cons p ps ih =>
    intro i flags acc lso ls hi
    unfold openLoop
    simp only []
    split
    · exact ⟨(flags, acc, lso, ls), by simp [hi]⟩
    · simp only [Bool.not_true, Bool.and_false, Bool.false_and, Bool.false_eq_true, if_false]
      exact ih _ _ _ _ _ (by omega)

theorem openLoop_some_iff (multi : Bool) (expected flags : Nat) (probes : List ProbeFile)
    (hrw : ∀ p ∈ probes, p.canWrite → p.canRead) :
    (∃ r, openLoop multi expected probes 0 flags [] 0 0 = some r) ↔
      ∃ p rest, probes = p :: rest ∧ Spec.Usable (has flags F_READONLY) multi expected p := by
  cases probes with
  | nil =>
    constructor
    · rintro ⟨r, h⟩
      unfold openLoop at h
      simp at h
    · rintro ⟨p, rest, h, -⟩
      cases h
  | cons p ps =>
    have hone := openOne_some_iff flags expected multi p (hrw p (by simp))
    constructor
    · rintro ⟨r, h⟩
      refine ⟨p, ps, rfl, hone.mp ?_⟩
      unfold openLoop at h
      simp only [] at h
      split at h
      · simp at h
      · rename_i fl hfl
        exact ⟨fl, hfl⟩
    · rintro ⟨p', rest, h, hu⟩
      cases h
      obtain ⟨fl, hfl⟩ := hone.mpr hu
      unfold openLoop
      simp only []
      rw [hfl]
      simp only []
      split
      · exact ⟨_, rfl⟩
      · cases multi with
        | false => exact ⟨_, rfl⟩
        | true =>
          simp only [Bool.not_true, Bool.false_eq_true, if_false]
          exact openLoop_goes_on _ _ _ _ _ _ _ (by omega)

theorem setup_result (flags expected : Nat) (name : List Char) (probes : List ProbeFile)
    (ht : has flags F_TREEFILES = false) (hw : has flags F_WAIT = false)
    (hrw : ∀ p ∈ probes, p.canWrite → p.canRead) :
    (∃ ex, setupExport flags expected name probes = some ex) ↔
      (∃ p rest, probes = p :: rest ∧
        Spec.Usable (has flags F_READONLY) (has flags F_MULTIFILE) expected p) ∧
      (expected ≠ 0 →
        ∀ r, openLoop (has flags F_MULTIFILE) expected probes 0 flags [] 0 0 = some r →
          expected ≤ (r.2.2.1 + r.2.2.2) % 2 ^ 64) := by
  rw [← openLoop_some_iff (has flags F_MULTIFILE) expected flags probes hrw]
  unfold setupExport
  rw [ht, hw]
  simp only [Bool.or_self, Bool.false_eq_true, if_false]
  cases hq : openLoop (has flags F_MULTIFILE) expected probes 0 flags [] 0 0 with
  | none => simp
  | some r =>
    obtain ⟨fl, files, lso, ls⟩ := r
    simp only [bne_iff_ne, ne_eq]
    by_cases he : expected = 0
    · simp [he]
    · rw [if_pos he]
      by_cases hg : expected > (lso + ls) % 2 ^ 64
      · rw [if_pos hg]
        constructor
        · rintro ⟨ex, h⟩; cases h
        · rintro ⟨-, h⟩
          have := h he _ rfl
          simp only [] at this
          omega
      · rw [if_neg hg]
        constructor
        · intro _
          refine ⟨⟨_, rfl⟩, ?_⟩
          intro _ r hr
          cases hr
          simp only []
          omega
        · intro _
          exact ⟨_, rfl⟩

namespace Props

theorem parts_cons (flags expected : Nat) (p : ProbeFile) (rest : List ProbeFile)
    (hu : Spec.Usable (has flags F_READONLY) (has flags F_MULTIFILE) expected p) :
    ∃ more, parts flags (p :: rest) = p :: more ∧ (has flags F_MULTIFILE = false → more = []) := by
  unfold parts
  cases hm : has flags F_MULTIFILE with
  | false => exact ⟨[], by simp, fun _ => rfl⟩
  | true =>
    have hc : p.canRead = true := by
      unfold Spec.Usable at hu
      rw [hm] at hu
      simpa using hu
    exact ⟨rest.takeWhile (·.canRead), by simp [hc], by simp⟩

theorem openLoop_total (flags expected : Nat) (probes : List ProbeFile)
    (hrw : ∀ p ∈ probes, p.canWrite → p.canRead)
    (r : Nat × List FileInfo × Nat × Nat)
    (h : openLoop (has flags F_MULTIFILE) expected probes 0 flags [] 0 0 = some r) :
    (r.2.2.1 + r.2.2.2) % 2 ^ 64 =
      ((parts flags probes).map (effSize (has flags F_MULTIFILE) expected)).sum % 2 ^ 64 := by
  obtain ⟨fl, files, lso, ls⟩ := r
  obtain ⟨opened, rest, h1, h2, h3, h4, h5⟩ :=
    openLoop_spec _ _ _ _ _ _ _ _ _ _ _ _ (fun _ => rfl) h
  have ho : opened = parts flags probes := by
    unfold parts
    cases hm : has flags F_MULTIFILE with
    | false =>
      have := h4 hm
      rw [h1]
      simp [← this]
    | true =>
      rw [hm] at h h2
      have hl := openLoop_all expected probes hrw _ _ _ _ _ _ _ _ _ h
      simp only [List.length_nil, Nat.zero_add] at hl
      rw [h2] at hl
      simp only [List.nil_append, laid_length] at hl
      have e1 : probes.take opened.length = opened := by rw [h1]; simp
      have e2 : probes.take (probes.takeWhile (·.canRead)).length
          = probes.takeWhile (·.canRead) := by
        conv => lhs; rhs; rw [← List.takeWhile_append_dropWhile (p := (·.canRead)) (l := probes)]
        exact List.take_left
      simp only [if_true]
      rw [← e1, hl, e2]
  rw [← ho]
  simpa using h5

/-- **C49**, when an export is accepted. An export of files is set up exactly when its first file
can be used and either the files it consists of provide at least the configured number of bytes,
or it is a single empty file, which is extended to that size. In particular a configured size that
equals what the files provide is accepted, and no larger one is. -/
theorem C49_accepted (flags expected : Nat) (name : List Char) (probes : List ProbeFile)
    (hfiles : (has flags F_TREEFILES || has flags F_WAIT) = false)
    (hrw : ∀ p ∈ probes, p.canWrite → p.canRead)
    (hsum : total (parts flags probes) < 2 ^ 64) (hexp : expected < 2 ^ 64) :
    (∃ ex, setupExport flags expected name probes = some ex) ↔
      ∃ p rest, probes = p :: rest ∧
        Spec.Usable (has flags F_READONLY) (has flags F_MULTIFILE) expected p ∧
        (expected ≤ total (parts flags probes) ∨
          has flags F_MULTIFILE = false ∧ sizeAutodetect p = 0) := by
  have htw := hfiles
  simp only [Bool.or_eq_false_iff] at htw
  rw [setup_result flags expected name probes htw.1 htw.2 hrw]
  -- what the configured size is compared with
  have hcmp : ∀ p rest, probes = p :: rest →
      Spec.Usable (has flags F_READONLY) (has flags F_MULTIFILE) expected p → expected ≠ 0 →
      (expected ≤ ((parts flags probes).map (effSize (has flags F_MULTIFILE) expected)).sum % 2 ^ 64 ↔
        (expected ≤ total (parts flags probes) ∨
          has flags F_MULTIFILE = false ∧ sizeAutodetect p = 0)) := by
    intro p rest hp hu he
    obtain ⟨more, hparts, hone⟩ := parts_cons flags expected p rest hu
    rw [← hp] at hparts
    by_cases hz : has flags F_MULTIFILE = false ∧ sizeAutodetect p = 0
    · rw [hparts, hone hz.1]
      have : effSize (has flags F_MULTIFILE) expected p = expected := by
        unfold effSize; rw [if_pos ⟨hz.2, he, hz.1⟩]
      simp only [List.map_cons, List.map_nil, List.sum_cons, List.sum_nil, this, Nat.add_zero]
      rw [Nat.mod_eq_of_lt hexp]
      exact ⟨fun _ => .inr hz, fun _ => Nat.le_refl _⟩
    · have hsame : (parts flags probes).map (effSize (has flags F_MULTIFILE) expected)
          = (parts flags probes).map sizeAutodetect := by
        apply List.map_congr_left
        intro q hq
        unfold effSize
        rw [if_neg]
        rintro ⟨h1, -, h3⟩
        rw [hparts, hone h3] at hq
        simp only [List.mem_cons, List.not_mem_nil, or_false] at hq
        rw [hq] at h1
        exact hz ⟨h3, h1⟩
      rw [hsame]
      change expected ≤ total (parts flags probes) % 2 ^ 64 ↔ _
      rw [Nat.mod_eq_of_lt hsum]
      exact ⟨.inl, fun h => h.resolve_right hz⟩
  constructor
  · rintro ⟨⟨p, rest, hp, hu⟩, h⟩
    refine ⟨p, rest, hp, hu, ?_⟩
    by_cases he : expected = 0
    · left; omega
    · obtain ⟨r, hr⟩ := (openLoop_some_iff (has flags F_MULTIFILE) expected flags probes hrw).mpr
        ⟨p, rest, hp, hu⟩
      have := h he r hr
      rw [openLoop_total flags expected probes hrw r hr] at this
      exact (hcmp p rest hp hu he).mp this
  · rintro ⟨p, rest, hp, hu, h⟩
    refine ⟨⟨p, rest, hp, hu⟩, ?_⟩
    intro he r hr
    rw [openLoop_total flags expected probes hrw r hr]
    exact (hcmp p rest hp hu he).mpr h

/-- Three files of 18 bytes altogether, with a configured size of 18 and of 19; one empty file that
is extended; and one file that can only be read, which is refused when its size is configured. -/
example : total (parts F_MULTIFILE three) = 18 ∧
    (setupExport F_MULTIFILE 18 [] three).isSome = true ∧
    (setupExport F_MULTIFILE 19 [] three).isSome = false ∧
    (setupExport 0 4096 [] [⟨3, true, true, none, some (true, 0), 0⟩]).isSome = true ∧
    (setupExport 0 4096 [] [⟨3, false, true, none, some (true, 4096), 0⟩]).isSome = false ∧
    (setupExport 0 0 [] [⟨3, false, true, none, some (true, 4096), 0⟩]).isSome = true := by
  decide +kernel

end Props

end Nbd
