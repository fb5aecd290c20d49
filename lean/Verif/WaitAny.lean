import Verif.WaitRun
/-!
# The copying thread under any operating system

`commit_diff` with system calls that fail or stop short: what the session's blocks hold does not change.
-/

set_option autoImplicit false

namespace Nbd

/-- Something happened to block `i` of the file that appeared, and to nothing else. -/
structure BlockOnly (fh i : Nat) (w w' : World) : Prop where
  real : ∃ f, w'.files (.fd fh) = some f
  other : ∀ id, id ≠ .fd fh → w'.files id = w.files id
  same : ∀ a, a / 4096 ≠ i → content w' (.fd fh, a) = content w (.fd fh, a)

theorem BlockOnly.content_other {fh i : Nat} {w w' : World} (h : BlockOnly fh i w w') {d : Nat} (hd : fh ≠ d) (o : Nat) :
    content w' (.fd d, o) = content w (.fd d, o) := by
  unfold content
  rw [h.other _ (by intro he; cases he; exact hd rfl)]

/-- A block that is still in the diff file may be damaged in the file. -/
theorem wait_uncopied {fh : Nat} {cl : Client} {w w' : World} (hok : WaitOk fh cl w) {i m : Nat} (hm : cl.difmap[i]? = some m)
    (hn : m ≠ NOPAGE) (h : BlockOnly fh i w w') : WaitOk fh cl w' ∧ waitView fh cl w' = waitView fh cl w := by
  have hne2 : FileId.fd cl.difffile ≠ .fd fh := by
    have := hok.apart
    intro h; cases h; exact this rfl
  refine ⟨{ hok with file := by rw [h.other _ hne2]; exact hok.file, real := h.real }, ?_⟩
  funext a
  by_cases ha : a < cl.ex.exportsize
  · by_cases hai : a / 4096 = i
    · rw [waitView_dirty hm hn a hai ha, waitView_dirty hm hn a hai ha, h.content_other hok.apart]
    · unfold waitView
      rw [if_pos ha, if_pos ha]
      cases cl.difmap[a / 4096]? with
      | none => exact h.same a hai
      | some m' =>
        dsimp only
        split
        · exact h.content_other hok.apart _
        · exact h.same a hai
  · unfold waitView
    rw [if_neg ha, if_neg ha]

/-- A block that was copied can be taken out of the map. -/
theorem wait_copied {fh : Nat} {cl : Client} {w w' : World} (hok : WaitOk fh cl w) {i m : Nat} (hm : cl.difmap[i]? = some m)
    (hn : m ≠ NOPAGE) (h : BlockOnly fh i w w')
    (hcopy : ∀ k, k < 4096 → content w' (.fd fh, i * 4096 + k) = content w (.fd cl.difffile, m * 4096 + k)) :
    WaitOk fh { cl with difmap := cl.difmap.set i NOPAGE } w' ∧
      waitView fh { cl with difmap := cl.difmap.set i NOPAGE } w' = waitView fh cl w := by
  have hi : i < cl.difmap.length := (List.getElem?_eq_some_iff.mp hm).1
  have hset : ∀ q : Nat, (cl.difmap.set i NOPAGE)[q]? = if q = i then some NOPAGE else cl.difmap[q]? := by
    intro q
    by_cases hq : q = i
    · subst hq; rw [if_pos rfl, List.getElem?_set_self hi]
    · rw [if_neg hq, List.getElem?_set_ne (Ne.symm hq)]
  have hne2 : FileId.fd cl.difffile ≠ .fd fh := by
    have := hok.apart
    intro h; cases h; exact this rfl
  refine ⟨{ hok with len := ?_, file := ?_, slots := ?_, inj := ?_, real := h.real }, ?_⟩
  · show (cl.difmap.set i NOPAGE).length = _
    rw [List.length_set]; exact hok.len
  · show ∃ f, w'.files (.fd cl.difffile) = some f ∧ _
    rw [h.other _ hne2]; exact hok.file
  · intro q m' hq hn
    have hq : (cl.difmap.set i NOPAGE)[q]? = some m' := hq
    rw [hset] at hq
    split at hq
    · cases hq; exact absurd rfl hn
    · exact hok.slots q m' hq hn
  · intro q q' m' h1 h2 hn
    have h1 : (cl.difmap.set i NOPAGE)[q]? = some m' := h1
    have h2 : (cl.difmap.set i NOPAGE)[q']? = some m' := h2
    rw [hset] at h1 h2
    split at h1
    · cases h1; exact absurd rfl hn
    · split at h2
      · cases h2; exact absurd rfl hn
      · exact hok.inj q q' m' h1 h2 hn
  · funext a
    by_cases ha : a < cl.ex.exportsize
    · by_cases hai : a / 4096 = i
      · rw [waitView_clean (cl := { cl with difmap := cl.difmap.set i NOPAGE }) (p := i)
          (by show (cl.difmap.set i NOPAGE)[i]? = _; rw [hset, if_pos rfl]) a hai ha, waitView_dirty hm hn a hai ha]
        have h1 : a = i * 4096 + a % 4096 := by omega
        conv => lhs; rw [h1]
        exact hcopy _ (Nat.mod_lt _ (by decide))
      · unfold waitView
        show (if a < cl.ex.exportsize then (match (cl.difmap.set i NOPAGE)[a / 4096]? with
          | some m => if m ≠ NOPAGE then content w' (.fd cl.difffile, m * 4096 + a % 4096) else content w' (.fd fh, a)
          | none => content w' (.fd fh, a)) else 0) = _
        rw [if_pos ha, if_pos ha, hset, if_neg hai]
        cases cl.difmap[a / 4096]? with
        | none => exact h.same a hai
        | some m' =>
          dsimp only
          split
          · exact h.content_other hok.apart _
          · exact h.same a hai
    · unfold waitView
      rw [if_neg ha]
      exact (if_neg ha).symm

/-- What a `pread` of the saved block returns, if it returns all of it. -/
theorem saved_block {fh : Nat} {cl : Client} {w w' : World} (hok : WaitOk fh cl w) {i m : Nat} (hm : cl.difmap[i]? = some m)
    (hn : m ≠ NOPAGE) {bs : List Byte} (h : sysPread w (.fd cl.difffile) (diffOffset m 0) 4096 = (w', some bs))
    (hl : bs.length = 4096) : ∀ k, k < 4096 → bs[k]? = some (content w (.fd cl.difffile, m * 4096 + k)) := by
  obtain ⟨hm20, _⟩ := hok.dirty_lt hm hn
  obtain ⟨f, hf, _⟩ := hok.file
  unfold sysPread at h
  simp only [hf] at h
  cases hnx : w.next with
  | err e => rw [hnx] at h; cases h
  | done n =>
    rw [hnx] at h
    simp only [Prod.mk.injEq, Option.some.injEq] at h
    obtain ⟨_, rfl⟩ := h
    unfold File.pread at hl ⊢
    rw [Flat.read_length] at hl
    intro k hk
    rw [Flat.read_getElem?, hl, if_pos hk, diffOffset_small hm20, Nat.add_zero]
    unfold content
    simp only [hf]

/-- What a `pwrite` to one block of the file does, whatever its outcome. -/
theorem pwrite_block {fh i : Nat} {w : World} {f : File} (hf : w.files (.fd fh) = some f) {bs : List Byte} (hl : bs.length = 4096)
    {w' : World} {r : Option Nat} (h : sysPwrite w (.fd fh) (i * 4096) bs = (w', r)) :
    BlockOnly fh i w w' ∧ w'.orc = w.orc ∧
      (r = some 4096 → ∀ k, k < 4096 → bs[k]? = some (content w' (.fd fh, i * 4096 + k))) := by
  unfold sysPwrite at h
  simp only [hf] at h
  cases hnx : w.next with
  | err e =>
    rw [hnx] at h
    cases h
    exact ⟨⟨⟨f, hf⟩, fun _ _ => rfl, fun _ _ => rfl⟩, rfl, by intro hr; cases hr⟩
  | done n =>
    rw [hnx] at h
    simp only [Prod.mk.injEq] at h
    obtain ⟨rfl, rfl⟩ := h
    have hf' : ((w.step).set (.fd fh) (f.pwrite (i * 4096) (bs.take n))).files (.fd fh) =
        some (f.pwrite (i * 4096) (bs.take n)) := World.set_files_same _ _ _
    have hc : ∀ o, content ((w.step).set (.fd fh) (f.pwrite (i * 4096) (bs.take n))) (.fd fh, o) =
        f.data.write (i * 4096) (bs.take n) o := by
      intro o; unfold content; simp only [hf']; rfl
    refine ⟨⟨⟨_, hf'⟩, fun id hid => by rw [World.set_files_ne _ _ hid]; rfl, ?_⟩, rfl, ?_⟩
    · intro a ha
      rw [hc, Flat.write_outside _ _ _ _ (by rw [List.length_take, hl]; omega)]
      unfold content
      simp only [hf]
    · intro hr k hk
      have hn : 4096 ≤ n := by
        rw [hl] at hr
        have := Option.some.inj hr
        omega
      rw [hc, List.take_of_length_le (by omega), Flat.write_inside _ _ _ _ (by rw [hl]; exact hk), List.getElem?_eq_getElem]

/-- What `commit_diff` does to one block, whatever the system calls return. -/
theorem commitPage_any {fh : Nat} {cl : Client} {w : World} (hok : WaitOk fh cl w) (i : Nat) (hi : i < cl.difmap.length) :
    ∃ map w' c, commitPage fh cl w i = .val ({ cl with difmap := map }, w', c) ∧
      WaitOk fh { cl with difmap := map } w' ∧ w'.orc = w.orc ∧
      waitView fh { cl with difmap := map } w' = waitView fh cl w ∧
      (c = .clean → map = cl.difmap ∧ cl.difmap[i]? = some NOPAGE) := by
  have hsz := hok.small
  have hlen := hok.len
  have hwhole := hok.whole
  obtain ⟨m, hm⟩ : ∃ m, cl.difmap[i]? = some m := ⟨_, List.getElem?_eq_getElem hi⟩
  unfold commitPage
  rw [show DIFFPAGESIZE = 4096 from rfl, if_neg (by omega), hm]
  simp only []
  by_cases hne : m = NOPAGE
  · subst hne
    rw [if_pos rfl]
    exact ⟨cl.difmap, w, .clean, rfl, hok, rfl, rfl, fun _ => ⟨rfl, rfl⟩⟩
  · rw [if_neg hne]
    have hfl := sysPread_files w (.fd cl.difffile) (diffOffset m 0) 4096
    have horc : (sysPread w (.fd cl.difffile) (diffOffset m 0) 4096).1.orc = w.orc := by
      unfold sysPread; split
      · rfl
      · split <;> rfl
    cases hp : sysPread w (.fd cl.difffile) (diffOffset m 0) 4096 with
    | mk w1 r =>
      rw [hp] at hfl horc
      simp only [] at hfl horc
      have hok1 := hok.of_files hfl
      have hv1 := waitView_of_files fh cl hfl
      cases r with
      | none => exact ⟨cl.difmap, w1, .failed, rfl, hok1, horc, hv1, by intro h; cases h⟩
      | some bs =>
        simp only []
        by_cases hbl : bs.length = 4096
        · rw [if_neg (by simp [hbl])]
          have hsv := saved_block hok hm hne hp hbl
          obtain ⟨f, hf⟩ := hok1.real
          cases hq : sysPwrite w1 (.fd fh) (i * 4096) bs with
          | mk w2 r2 =>
            obtain ⟨hb, ho, hcp⟩ := pwrite_block hf hbl hq
            have hun := wait_uncopied hok1 hm hne hb
            cases r2 with
            | none => exact ⟨cl.difmap, w2, .failed, rfl, hun.1, ho.trans horc, hun.2.trans hv1, by intro h; cases h⟩
            | some n =>
              simp only []
              by_cases hn : n = 4096
              · rw [if_neg (by simp [hn])]
                subst hn
                have hcd := wait_copied hok1 hm hne hb (by
                  intro k hk
                  have h1 := hsv k hk
                  rw [hcp rfl k hk] at h1
                  rw [Option.some.inj h1]
                  unfold content
                  rw [hfl])
                exact ⟨cl.difmap.set i NOPAGE, w2, .moved, rfl, hcd.1, ho.trans horc, hcd.2.trans hv1, by intro h; cases h⟩
              · rw [if_pos hn]
                exact ⟨cl.difmap, w2, .failed, rfl, hun.1, ho.trans horc, hun.2.trans hv1, by intro h; cases h⟩
        · rw [if_pos hbl]
          exact ⟨cl.difmap, w1, .failed, rfl, hok1, horc, hv1, by intro h; cases h⟩

/-- The invariant of the copying thread alone. -/
structure CopyInv (fh : Nat) (s : Waiting) : Prop where
  ok : WaitOk fh s.cl s.w
  active : s.pc ≠ .done
  index : ∀ b i d, s.pc = .commit b i d → i ≤ s.cl.difmap.length
  clean : ∀ i, s.pc = .commit true i 0 → ∀ q : Nat, q < i → s.cl.difmap[q]? = some NOPAGE

/-- One step of the copying thread. -/
theorem waitStep_any {fh : Nat} {s : Waiting} (h : CopyInv fh s) :
    ∃ s', waitStep fh s = .val s' ∧ s'.cl.ex.exportsize = s.cl.ex.exportsize ∧ s'.w.orc = s.w.orc ∧
      ((CopyInv fh s' ∧ waitView fh s'.cl s'.w = waitView fh s.cl s.w) ∨
       (s'.pc = .done ∧ Spec.inFile fh s.cl.ex.exportsize s'.w = waitView fh s.cl s.w)) := by
  obtain ⟨cl, w, pc⟩ := s
  obtain ⟨hok, hact, hidx, hcl⟩ := h
  unfold waitStep
  simp only [] at hok hact hidx hcl ⊢
  cases pc with
  | absent => exact ⟨_, rfl, rfl, rfl, .inl ⟨⟨hok, hact, hidx, hcl⟩, rfl⟩⟩
  | done => exact absurd rfl hact
  | commit b i d =>
    simp only []
    rw [pagecount_wait hok]
    by_cases hlt : i < cl.difmap.length
    · rw [if_pos hlt]
      obtain ⟨map, w', c, h1, h2, h3, h4, h5⟩ := commitPage_any hok i hlt
      rw [h1]
      have hml : map.length = cl.difmap.length := by
        have := h2.len
        have := hok.len
        simp only [] at *
        omega
      have hnx : ∀ i' d' : Nat, i' ≤ cl.difmap.length → ∀ b1 i1 d1, WaitPc.commit b i' d' = .commit b1 i1 d1 → i1 ≤ map.length := by
        intro i' d' h b1 i1 d1 he; cases he; rw [hml]; exact h
      cases c with
      | clean =>
        obtain ⟨rfl, hmi⟩ := h5 rfl
        refine ⟨_, rfl, rfl, h3, .inl ⟨⟨h2, by simp, hnx _ _ (by omega), ?_⟩, h4⟩⟩
        intro i1 he q hq
        cases he
        by_cases hqi : q = i
        · subst hqi; exact hmi
        · exact hcl i rfl q (by omega)
      | moved =>
        refine ⟨_, rfl, rfl, h3, .inl ⟨⟨h2, by simp, hnx _ _ (by omega), ?_⟩, h4⟩⟩
        intro i1 he
        cases he
      | failed =>
        refine ⟨_, rfl, rfl, h3, .inl ⟨⟨h2, by simp, hnx _ _ (by omega), ?_⟩, h4⟩⟩
        intro i1 he q hq
        cases he
        omega
    · rw [if_neg hlt]
      split
      · refine ⟨_, rfl, rfl, rfl, .inl ⟨⟨hok, by simp, by intro b1 i1 d1 he; cases he; exact Nat.zero_le _, ?_⟩, rfl⟩⟩
        intro i1 he q hq; cases he; omega
      · have hd : d = 0 := by omega
        subst hd
        cases b with
        | false =>
          refine ⟨_, rfl, rfl, rfl, .inl ⟨⟨hok, by simp, by intro b1 i1 d1 he; cases he; exact Nat.zero_le _, ?_⟩, rfl⟩⟩
          intro i1 he q hq; cases he; omega
        | true =>
          have hall : ∀ q : Nat, q < cl.difmap.length → cl.difmap[q]? = some NOPAGE := fun q hq => hcl i rfl q (by omega)
          obtain ⟨_, hv⟩ := switch_view hok hall
          refine ⟨_, rfl, rfl, rfl, .inr ⟨rfl, ?_⟩⟩
          rw [view_single (cl.switch fh).ex fh rfl hok.notree] at hv
          exact hv

/-- Any number of steps of the copying thread. -/
theorem waitRun_copy (e : Endian) (fh n : Nat) : ∀ (s : Waiting) (out : Out (Waiting × List Byte)), CopyInv fh s →
    waitRun e fh (List.replicate n .commit) s = some out →
    ∃ s', out = .val (s', []) ∧ s'.cl.ex.exportsize = s.cl.ex.exportsize ∧ s'.w.orc = s.w.orc ∧
      ((CopyInv fh s' ∧ waitView fh s'.cl s'.w = waitView fh s.cl s.w) ∨
       (s'.pc = .done ∧ Spec.inFile fh s.cl.ex.exportsize s'.w = waitView fh s.cl s.w)) := by
  induction n with
  | zero =>
    intro s out hinv h
    cases h
    exact ⟨s, rfl, rfl, rfl, .inl ⟨hinv, rfl⟩⟩
  | succ n ih =>
    intro s out hinv h
    obtain ⟨s1, h1, h2, h3, h4⟩ := waitStep_any hinv
    rw [List.replicate_succ, waitRun] at h
    split at h
    · rw [h1] at h
      simp only [] at h
      rcases h4 with ⟨hi, hv⟩ | ⟨hd, hv⟩
      · obtain ⟨s', k1, k2, k3, k4⟩ := ih s1 out hi h
        rw [h2, hv] at k4
        exact ⟨s', k1, k2.trans h2, k3.trans h3, k4⟩
      · cases n with
        | zero =>
          cases h
          exact ⟨s1, rfl, h2, h3, .inr ⟨hd, hv⟩⟩
        | succ n =>
          rw [List.replicate_succ, waitRun, hd] at h
          cases h
    · cases h

theorem waitRun_present (e : Endian) (fh n : Nat) : ∀ (s s' : Waiting), s.pc ≠ .absent →
    waitRun e fh (List.replicate n .commit) s = some (.val (s', [])) → s'.pc ≠ .absent := by
  induction n with
  | zero => intro s s' hs h; cases h; exact hs
  | succ n ih =>
    intro s s' hs h
    obtain ⟨cl, w, pc⟩ := s
    rw [List.replicate_succ, waitRun] at h
    cases pc with
    | absent => exact absurd rfl hs
    | done => cases h
    | commit b i d =>
      simp only [] at h
      cases hw : waitStep fh ⟨cl, w, .commit b i d⟩ with
      | ub => rw [hw] at h; cases h
      | exit => rw [hw] at h; cases h
      | val s1 =>
        rw [hw] at h
        refine ih s1 s' ?_ h
        unfold waitStep at hw
        simp only [] at hw
        repeat' split at hw
        all_goals first | cases hw; simp | cases hw

end Nbd
