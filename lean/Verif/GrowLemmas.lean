import Verif.DurableLemmas
import Verif.HealthLemmas
/-! # Open files stay, and do not shrink -/

set_option autoImplicit false

namespace Nbd

/-- Every open file is still there and not smaller. -/
def FdGrow (w w' : World) : Prop :=
  ∀ n f, w.files (.fd n) = some f → ∃ f', w'.files (.fd n) = some f' ∧ f.size ≤ f'.size

theorem FdGrow.refl (w : World) : FdGrow w w := fun _ f h => ⟨f, h, Nat.le_refl _⟩

theorem FdGrow.trans {a b c : World} (h1 : FdGrow a b) (h2 : FdGrow b c) : FdGrow a c := by
  intro n f h
  obtain ⟨f1, g1, g2⟩ := h1 n f h
  obtain ⟨f2, g3, g4⟩ := h2 n f1 g1
  exact ⟨f2, g3, Nat.le_trans g2 g4⟩

theorem FdGrow.step (w : World) : FdGrow w w.step := FdGrow.refl w
theorem FdGrow.fail (w : World) (e : Nat) : FdGrow w (w.fail e) := FdGrow.refl w

theorem fdGrow_set {w : World} {id : FileId} {f f' : File} (hf : w.files id = some f) (h : f.size ≤ f'.size) :
    FdGrow w (w.step.set id f') := by
  intro n g hg
  by_cases hi : (FileId.fd n) = id
  · subst hi
    rw [hf] at hg; cases hg
    exact ⟨f', World.set_files_same _ _ _, h⟩
  · exact ⟨g, by rw [World.set_files_ne _ _ hi]; exact hg, Nat.le_refl _⟩

theorem pwrite_size (f : File) (off : Nat) (bs : List Byte) : f.size ≤ (f.pwrite off bs).size := by
  simp only [File.pwrite]
  split <;> omega

theorem sysFsync_fdGrow (w : World) (id : FileId) : FdGrow w (sysFsync w id).1 := fun n f h => (sysFsync_grow w id).2 _ f h

theorem handleSyncIgnored_fdGrow (w : World) (h : Handle) : FdGrow w (handleSyncIgnored w h) := by
  unfold handleSyncIgnored
  cases h with
  | file id => exact sysFsync_fdGrow w id
  | bad => exact .fail _ _
  | dummy =>
    simp only []
    split
    · exact .fail _ _
    · exact .step _

theorem sysPread_fdGrow (w : World) (id : FileId) (off len : Nat) : FdGrow w (sysPread w id off len).1 := by
  unfold sysPread
  split
  · exact .fail _ _
  · split
    · exact .fail _ _
    · exact .step _

theorem handlePread_fdGrow (w : World) (h : Handle) (off len : Nat) : FdGrow w (handlePread w h off len).1 := by
  unfold handlePread
  cases h with
  | file id => exact sysPread_fdGrow w id off len
  | bad => exact .fail _ _
  | dummy =>
    simp only []
    split
    · exact .fail _ _
    · exact .step _

theorem create_fdGrow (w : World) (p : List Char) (f : File) : FdGrow w (w.create p f) := by
  intro n g hg
  exact ⟨g, by simp [World.create, hg], Nat.le_refl _⟩

theorem remove_fdGrow (w : World) (p : List Char) : FdGrow w (w.remove p) := by
  intro n g hg
  exact ⟨g, by simp [World.remove, hg], Nat.le_refl _⟩

theorem openTreefile_fdGrow (w w' : World) (name : List Char) (rdwr : Bool) (size pos : Nat) (h : Handle)
    (ho : openTreefile w name rdwr size pos = .val (w', h)) : FdGrow w w' := by
  unfold openTreefile at ho
  cases ht : treeFilename name size pos with
  | none => simp [ht] at ho
  | some p =>
    simp only [ht] at ho
    cases hf : w.files (.path p) with
    | some f =>
      simp only [hf] at ho
      split at ho <;> cases ho
      · exact .step _
      · exact .fail _ _
    | none =>
      simp only [hf] at ho
      split at ho
      · cases ho; exact .fail _ _
      · split at ho
        · split at ho
          · cases ho
          · split at ho
            · cases ho
            · cases ho
            · cases ho
              refine FdGrow.trans (create_fdGrow (w.fail ENOENT).step p (File.clean (fun _ => 0) 0)) ?_
              exact fdGrow_set (f := File.clean (fun _ => 0) 0) (by simp [World.create]) (by simp [File.clean])
        · split at ho
          · cases ho
          · cases ho
            exact (FdGrow.fail w _).trans (.step _)

theorem getFilepos_fdGrow (ex : Export) (w w' : World) (a : Nat) (r : Option (Handle × Nat × Nat))
    (h : getFilepos ex w a = .val (w', r)) : FdGrow w w' := by
  unfold getFilepos at h
  split at h
  · cases h; exact .refl _
  · split at h
    · split at h
      · rename_i ho
        cases h
        exact openTreefile_fdGrow _ _ _ _ _ _ _ ho
      · cases h
      · cases h
    · split at h
      · cases h
      · split at h
        · cases h
        · split at h
          · cases h
          · split at h <;> cases h <;> exact .refl _

theorem rawexpread_fdGrow (ex : Export) (w w' : World) (a len : Nat) (r : Option (List Byte))
    (h : rawexpread ex w a len = .val (w', r)) : FdGrow w w' := by
  unfold rawexpread at h
  split at h
  · cases h
  · cases h
  · rename_i hq
    cases h
    exact getFilepos_fdGrow _ _ _ _ _ hq
  · rename_i w1 hd foff mb hq
    simp only [Out.val.injEq] at h
    have h2 := handlePread_fdGrow w1 hd foff (clip mb len)
    rw [h] at h2
    exact (getFilepos_fdGrow _ _ _ _ _ hq).trans h2

theorem rawexpreadFully_fdGrow (ex : Export) (w : World) (c : ReadCtx) :
    ∀ w' c' ok, rawexpreadFully ex w c = .val (w', c', ok) → FdGrow w w' := by
  fun_induction rawexpreadFully ex w c with
  | case1 => intro w' c' ok h; cases h; exact .refl _
  | case2 => intro w' c' ok h; cases h
  | case3 => intro w' c' ok h; cases h
  | case4 w c _ w1 hq => intro w' c' ok h; cases h; exact rawexpread_fdGrow _ _ _ _ _ _ hq
  | case5 w c _ w1 hq => intro w' c' ok h; cases h; exact rawexpread_fdGrow _ _ _ _ _ _ hq
  | case6 => intro w' c' ok h; cases h
  | case7 => intro w' c' ok h; cases h
  | case8 w c _ w1 b bs hq c1 hd ih =>
    intro w' c' ok h
    exact (rawexpread_fdGrow _ _ _ _ _ _ hq).trans (ih w' c' ok h)

theorem handlePwrite_fdGrow (w : World) (h : Handle) (off : Nat) (bs : List Byte) : FdGrow w (handlePwrite w h off bs).1 := by
  unfold handlePwrite
  cases h with
  | bad => exact .fail _ _
  | dummy =>
    simp only []
    split
    · exact .fail _ _
    · exact .step _
  | file id =>
    simp only [sysPwrite]
    split
    · exact .fail _ _
    · rename_i f hf
      split
      · exact .fail _ _
      · exact fdGrow_set hf (pwrite_size _ _ _)

theorem rawexpwrite_fdGrow (ex : Export) (w w' : World) (a : Nat) (buf : List Byte) (fua : Bool) (r : Option Nat)
    (h : rawexpwrite ex w a buf fua = .val (w', r)) : FdGrow w w' := by
  unfold rawexpwrite at h
  split at h
  · cases h
  · cases h
  · rename_i hq
    cases h
    exact getFilepos_fdGrow _ _ _ _ _ hq
  · rename_i w1 hd foff mb hq
    simp only [Out.val.injEq, Prod.mk.injEq] at h
    refine (getFilepos_fdGrow _ _ _ _ _ hq).trans ?_
    rw [← h.1]
    split
    · exact (handlePwrite_fdGrow _ _ _ _).trans (handleSyncIgnored_fdGrow _ _)
    · exact handlePwrite_fdGrow _ _ _ _

theorem rawexpwriteFully_fdGrow (ex : Export) (w : World) (a : Nat) (buf : List Byte) (fua : Bool) : ∀ w' ok,
    rawexpwriteFully ex w a buf fua = .val (w', ok) → FdGrow w w' := by
  fun_induction rawexpwriteFully ex w a buf fua with
  | case1 => intro w' ok h; cases h; exact .refl _
  | case2 => intro w' ok h; cases h
  | case3 => intro w' ok h; cases h
  | case4 w a buf h0 w1 hq => intro w' ok h; cases h; exact rawexpwrite_fdGrow _ _ _ _ _ _ _ hq
  | case5 w a buf h0 w1 hq => intro w' ok h; cases h; exact rawexpwrite_fdGrow _ _ _ _ _ _ _ hq
  | case6 w a buf h0 w1 n hq ih =>
    intro w' ok h
    exact (rawexpwrite_fdGrow _ _ _ _ _ _ _ hq).trans (ih w' ok h)

theorem expspliceOut_fdGrow (ex : Export) (w : World) (a len : Nat) (pipe : List Byte) (fua : Bool) : ∀ w' ok,
    expspliceOut ex w a len pipe fua = .val (w', ok) → FdGrow w w' := by
  fun_induction expspliceOut ex w a len pipe fua with
  | case1 => intro w' ok h; cases h; exact .refl _
  | case2 => intro w' ok h; cases h
  | case3 => intro w' ok h; cases h
  | case4 w a len pipe h0 w1 hq => intro w' ok h; cases h; exact rawexpwrite_fdGrow _ _ _ _ _ _ _ hq
  | case5 w a len pipe h0 w1 hq => intro w' ok h; cases h; exact rawexpwrite_fdGrow _ _ _ _ _ _ _ hq
  | case6 w a len pipe h0 w1 n hq ih =>
    intro w' ok h
    exact (rawexpwrite_fdGrow _ _ _ _ _ _ _ hq).trans (ih w' ok h)

theorem expspliceIn_fdGrow (ex : Export) (w : World) (a len : Nat) (pipe : List Byte) :
    ∀ w' out ok, expspliceIn ex w a len pipe = .val (w', out, ok) → FdGrow w w' := by
  fun_induction expspliceIn ex w a len pipe with
  | case1 => intro w' out ok h; cases h; exact .refl _
  | case2 => intro w' out ok h; cases h
  | case3 => intro w' out ok h; cases h
  | case4 w a len pipe h0 w1 hq => intro w' out ok h; cases h; exact rawexpread_fdGrow _ _ _ _ _ _ hq
  | case5 w a len pipe h0 w1 hq => intro w' out ok h; cases h; exact rawexpread_fdGrow _ _ _ _ _ _ hq
  | case6 w a len pipe h0 w1 b bs hq ih =>
    intro w' out ok h
    exact (rawexpread_fdGrow _ _ _ _ _ _ hq).trans (ih w' out ok h)

theorem mkpipe_fdGrow (w : World) (len : Nat) : FdGrow w (mkpipe w len).1 := by
  unfold mkpipe
  split
  · exact .refl _
  · split
    · exact .fail _ _
    · exact .step _

theorem expwrite_fdGrow (cl : Client) (hp : cl.paged = false) (w : World) (a : Nat) (bs : List Byte) (fua : Bool)
    (cl' : Client) (w' : World) (ok : Bool) (h : expwrite cl w a bs fua = .val (cl', w', ok)) : cl' = cl ∧ FdGrow w w' := by
  unfold expwrite at h
  rw [hp] at h
  simp only [Bool.false_eq_true, if_false] at h
  cases hq : rawexpwriteFully cl.ex w a bs fua with
  | ub => simp [hq] at h
  | exit => simp [hq] at h
  | val p =>
    simp only [hq, Out.val.injEq, Prod.mk.injEq] at h
    obtain ⟨rfl, rfl, rfl⟩ := h
    exact ⟨rfl, rawexpwriteFully_fdGrow _ _ _ _ _ _ _ hq⟩

theorem expwriteZeroes_fdGrow (cl : Client) (hp : cl.paged = false) (w : World) (a len : Nat) (fua : Bool) :
    ∀ (cl' : Client) (w' : World) (ok : Bool), expwriteZeroes cl w a len fua = .val (cl', w', ok) → FdGrow w w' := by
  have hz : 0 < ZEROCHUNK := by decide
  induction len using Nat.strongRecOn generalizing w with
  | _ len ih =>
  intro cl' w' ok h
  unfold expwriteZeroes at h
  split at h
  · cases h; exact .refl _
  · rename_i h0
    simp only [] at h
    cases hq : expwrite cl w a (Flat.zeros (min len ZEROCHUNK)) fua with
    | ub => simp [hq] at h
    | exit => simp [hq] at h
    | val p =>
      obtain ⟨cl1, w1, ok1⟩ := p
      obtain ⟨rfl, h1⟩ := expwrite_fdGrow cl hp w a _ fua _ _ _ hq
      simp only [hq] at h
      cases ok1 with
      | false => cases h; exact h1
      | true =>
        simp only [] at h
        exact h1.trans (ih (len - min len ZEROCHUNK) (by omega) w1 _ _ _ h)

theorem flushFiles_fdGrow (fs : List FileInfo) (w : World) : FdGrow w (flushFiles fs w).1 := by
  induction fs generalizing w with
  | nil => exact .refl _
  | cons f fs ih =>
    unfold flushFiles
    have := sysFsync_fdGrow w (.fd f.fhandle)
    split
    · rename_i hq; rw [hq] at this; exact this
    · rename_i hq; rw [hq] at this; exact this.trans (ih _)

theorem expflush_fdGrow (cl : Client) (w : World) : FdGrow w (expflush cl w).1 := by
  unfold expflush
  split
  · exact sysFsync_fdGrow _ _
  · split
    · exact sysFsync_fdGrow _ _
    · split
      · split
        · exact .refl _
        · intro n f hf
          exact ⟨f.sync, by simp [hf], Nat.le_refl _⟩
      · exact flushFiles_fdGrow _ _

theorem punchHole_fdGrow (w : World) (id : FileId) (off len : Int) : FdGrow w (punchHole w id off len) := by
  unfold punchHole
  split
  · exact .fail _ _
  · split
    · exact .fail _ _
    · rename_i f hf
      split
      · exact .fail _ _
      · exact fdGrow_set hf (Nat.le_refl _)

theorem trimFiles_fdGrow (fs : List FileInfo) (size start len : Nat) (n : Nat) (w : World) (cur : FileInfo) (i : Nat) :
    FdGrow w (trimFiles fs size start len n w cur i) := by
  induction n generalizing w cur i with
  | zero => exact .refl _
  | succ n ih =>
    have hstep : FdGrow w (trimOne fs size start len w cur i) := by
      unfold trimOne
      simp only []
      split <;> split
      all_goals first
        | exact .refl _
        | exact punchHole_fdGrow _ _ _ _
    unfold trimFiles
    split
    · exact hstep
    · split
      · exact hstep.trans (ih _ _ _)
      · exact hstep

theorem trimTree_fdGrow (ex : Export) (n : Nat) (w : World) (pos : Nat) : ∀ w', trimTree ex n w pos = .val w' → FdGrow w w' := by
  induction n generalizing w pos with
  | zero => intro w' h; cases h; exact .refl _
  | succ n ih =>
    intro w' h
    unfold trimTree deleteTreefile at h
    cases htf : treeFilename ex.name ex.exportsize pos with
    | none => simp [htf] at h
    | some p =>
      simp only [htf] at h
      cases hn : w.next with
      | err e => simp only [hn] at h; exact (FdGrow.fail w e).trans (ih _ _ w' h)
      | done k =>
        simp only [hn] at h
        exact ((FdGrow.step w).trans (remove_fdGrow _ p)).trans (ih _ _ w' h)

theorem exptrim_fdGrow (cl : Client) (w w' : World) (start len : Nat) (h : exptrim cl w start len = .val w') : FdGrow w w' := by
  unfold exptrim at h
  split at h
  · cases h
  · split at h
    · cases h
    · split at h
      · cases h; exact .refl _
      · split at h
        · simp only [] at h
          exact trimTree_fdGrow _ _ _ _ _ h
        · split at h
          · cases h
          · cases h
            exact trimFiles_fdGrow _ _ _ _ _ _ _ _

theorem handleNormalRead_fdGrow (e : Endian) (cl : Client) (hp : cl.paged = false) (w w' : World) (r : Req)
    (msgs : List Msg) (h : handleNormalRead e cl w r = .val (w', msgs)) : FdGrow w w' := by
  unfold handleNormalRead at h
  simp only [] at h
  split at h
  · cases h; exact .refl _
  · unfold expread at h
    rw [hp] at h
    simp only [Bool.false_eq_true, if_false] at h
    split at h
    · cases h
    · cases h
    · rename_i hq
      split at h
      · cases h
      · cases h
      · cases h
        exact rawexpreadFully_fdGrow _ _ _ _ _ _ hq

theorem handleSpliceRead_fdGrow (e : Endian) (cl : Client) (w w' : World) (r : Req)
    (m : Option (List Msg)) (h : handleSpliceRead e cl w r = .val (w', m)) : FdGrow w w' := by
  unfold handleSpliceRead at h
  split at h
  · cases h; exact .refl _
  · have hm := mkpipe_fdGrow w r.len
    split at h
    · rename_i hq; cases h; rw [hq] at hm; exact hm
    · rename_i hq
      rw [hq] at hm
      split at h
      · cases h
      · cases h
      · rename_i hs; cases h; exact hm.trans (expspliceIn_fdGrow _ _ _ _ _ _ _ _ hs)
      · rename_i hs; cases h; exact hm.trans (expspliceIn_fdGrow _ _ _ _ _ _ _ _ hs)

theorem handleRead_fdGrow (e : Endian) (cl : Client) (hp : cl.paged = false) (w w' : World) (r : Req)
    (msgs : List Msg) (h : handleRead e cl w r = .val (w', msgs)) : FdGrow w w' := by
  rcases handleRead_cases _ _ _ _ _ _ h with ⟨w1, hn, ⟨_, rfl⟩ | ⟨_, hs⟩⟩ | ⟨_, hs⟩
  · exact handleNormalRead_fdGrow e cl hp _ _ _ _ hn
  · exact (handleSpliceRead_fdGrow e cl _ _ _ _ hs).trans (handleNormalRead_fdGrow e cl hp _ _ _ _ hn)
  · exact handleSpliceRead_fdGrow e cl _ _ _ _ hs

/-- No request closes or shrinks an open file. -/
theorem handleRequest_fdGrow (e : Endian) (cl cl' : Client) (hp : cl.paged = false) (w w' : World) (r : Req) (p : Payload)
    (msgs : List Msg) (h : handleRequest e cl w r p = .val (cl', w', msgs)) : FdGrow w w' := by
  cases handleRequest_handled _ _ _ _ _ _ _ _ h with
  | refused n hn why => exact .refl _
  | read hf ht hr _ _ hq => exact handleRead_fdGrow e cl hp _ _ _ _ hq
  | write hf ht hw hr _ _ _ hq =>
    obtain ⟨ok, _, hc⟩ := handleWrite_cases _ _ _ _ _ _ _ _ hq
    rcases hc with ⟨bs, rfl, hq2⟩ | ⟨bs, rfl, _, hq2⟩
    · exact (expwrite_fdGrow cl hp w r.start bs _ _ _ _ hq2).2
    · exact expspliceOut_fdGrow cl.ex w r.start r.len bs _ _ _ hq2
  | flush hf ht => exact expflush_fdGrow cl w
  | trim hf ht hw hr _ _ hq =>
    unfold handleTrim at hq
    split at hq
    · cases hq
    · cases hq
    · rename_i hq1
      cases hq
      exact exptrim_fdGrow cl w _ r.start r.len hq1
  | zeroes hf ht hw hr _ _ _ hq =>
    unfold handleWriteZeroes at hq
    split at hq
    · cases hq
    · cases hq
    · rename_i cl1 w1 ok hq1
      cases hq
      exact expwriteZeroes_fdGrow cl hp w r.start r.len _ _ _ _ hq1

theorem fetch_fdGrow (e : Endian) (cl : Client) (w w' : World) (stream : List Byte) (x : Fetched)
    (h : fetch e cl w stream = .val (w', x)) : FdGrow w w' := by
  unfold fetch at h
  split at h
  · cases h; exact .refl _
  · simp only [] at h
    split at h
    · cases h; exact .refl _
    · split at h
      · have hk : FdGrow w (if has cl.ex.flags F_SPLICE then mkpipe w (loadReq e (stream.take 28)).len else (w, false)).1 := by
          split
          · exact mkpipe_fdGrow w _
          · exact .refl _
        generalize (if has cl.ex.flags F_SPLICE = true then _ else _ : World × Bool) = mp at h hk
        split at h
        · cases h
        · split at h <;> cases h <;> exact hk
      · split at h <;> cases h <;> exact .refl _

end Nbd
