import Verif.SessionLemmas
/-! # What can be lost in a crash -/

set_option autoImplicit false

namespace Nbd

namespace Spec

/-- The states a file name may be in after a crash: the current one, and for a name in a directory also the older ones whose
replacement has not been made permanent. -/
def entries (w : World) (id : FileId) : List (Option File) :=
  w.files id :: match id with
    | .fd _ => []
    | .path p => w.old p

/-- `w'` is a possible state of the storage after a crash in state `w`: every file name is in one of its possible states, and each
byte of a file that is there has its current value or one that was not overwritten on stable storage. -/
def Crash (w w' : World) : Prop :=
  ∀ id, ∃ en ∈ entries w id, match en with
    | none => w'.files id = none
    | some f => ∃ g, f.CanCrashTo g ∧ w'.files id = some (File.clean g f.size)

/-- Byte `i` of the export has value `b` after a crash now, whatever the crash does. -/
def Survives (ex : Export) (w : World) (i : Nat) (b : Byte) : Prop := ∀ w', Crash w w' → view ex w' i = b

/-- A system call failed between two states. -/
def CallFailed (w w' : World) : Prop := ∃ t e, w.tick ≤ t ∧ t < w'.tick ∧ w.orc t = .err e

end Spec

open Spec

/-- The values a stored byte may have after a crash. -/
def Poss (w : World) (x : FileId × Nat) (b : Byte) : Prop :=
  ∃ en ∈ entries w x.1, match en with
    | none => b = 0
    | some f => b = f.data x.2 ∨ b ∈ f.hist x.2

theorem Crash.poss {w w' : World} (h : Crash w w') (x : FileId × Nat) : Poss w x (content w' x) := by
  obtain ⟨en, hen, hm⟩ := h x.1
  refine ⟨en, hen, ?_⟩
  unfold content
  cases en with
  | none => simp only [] at hm ⊢; rw [hm]
  | some f =>
    obtain ⟨g, hg, hf⟩ := hm
    simp only []
    rw [hf]
    exact hg x.2

theorem survives_of_poss {ex : Export} {w : World} {i : Nat} {b : Byte} {x : FileId × Nat} (hi : i < ex.exportsize)
    (hx : home ex i = some x) (h : ∀ c, Poss w x c → c = b) : Survives ex w i b := by
  intro w' hc
  unfold view
  rw [if_pos hi, hx]
  exact h _ (Crash.poss hc x)

/-- Nothing has happened to stored bytes other than `T`, except that less can be lost. -/
structure Keeps (T : FileId × Nat → Prop) (w w' : World) : Prop where
  poss : ∀ x, ¬ T x → ∀ b, Poss w' x b → Poss w x b
  orc : w'.orc = w.orc
  tick : w.tick ≤ w'.tick

/-- The bytes that are not bytes of the export outside a range. -/
def Touch (ex : Export) (start len : Nat) (x : FileId × Nat) : Prop :=
  ∀ a, a < ex.exportsize → home ex a = some x → start ≤ a ∧ a < start + len

theorem Keeps.refl (T : FileId × Nat → Prop) (w : World) : Keeps T w w := ⟨fun _ _ _ h => h, rfl, Nat.le_refl _⟩

theorem Keeps.trans {T : FileId × Nat → Prop} {w1 w2 w3 : World} (h1 : Keeps T w1 w2) (h2 : Keeps T w2 w3) : Keeps T w1 w3 :=
  ⟨fun x hx b hb => h1.poss x hx b (h2.poss x hx b hb), h2.orc.trans h1.orc, Nat.le_trans h1.tick h2.tick⟩

theorem Keeps.mono {T T' : FileId × Nat → Prop} {w w' : World} (h : Keeps T w w') (ht : ∀ x, T x → T' x) : Keeps T' w w' :=
  ⟨fun x hx b hb => h.poss x (fun h' => hx (ht x h')) b hb, h.orc, h.tick⟩

theorem Touch.mono {ex : Export} {s l s' l' : Nat} (h1 : s' ≤ s) (h2 : s + l ≤ s' + l') (x : FileId × Nat)
    (h : Touch ex s l x) : Touch ex s' l' x := by
  intro a ha hx
  have := h a ha hx
  omega

theorem Keeps.step (T : FileId × Nat → Prop) (w : World) : Keeps T w w.step :=
  ⟨fun _ _ _ h => h, rfl, by simp [World.step]⟩

theorem Keeps.fail (T : FileId × Nat → Prop) (w : World) (e : Nat) : Keeps T w (w.fail e) :=
  ⟨fun _ _ _ h => h, rfl, by simp [World.fail]⟩

theorem entries_set (w : World) (id : FileId) (f : File) (j : FileId) :
    entries (w.set id f) j = if j = id then some f :: (entries w id).tail else entries w j := by
  unfold entries World.set
  by_cases h : j = id
  · subst h
    cases j <;> simp
  · simp [h]

/-- Replacing the contents of a file that is there. -/
theorem keeps_set {T : FileId × Nat → Prop} {w : World} {id : FileId} {f f' : File} (hf : w.files id = some f)
    (h : ∀ o, ¬ T (id, o) → ∀ b, (b = f'.data o ∨ b ∈ f'.hist o) → (b = f.data o ∨ b ∈ f.hist o)) :
    Keeps T w (w.step.set id f') := by
  refine ⟨?_, rfl, by simp [World.step, World.set]⟩
  rintro ⟨j, o⟩ hx b ⟨en, hen, hm⟩
  rw [entries_set] at hen
  simp only [] at hm hen
  by_cases hj : j = id
  · subst hj
    rw [if_pos rfl] at hen
    rcases List.mem_cons.mp hen with rfl | hen
    · refine ⟨some f, by unfold entries; rw [hf]; exact List.mem_cons_self, h o hx b hm⟩
    · exact ⟨en, by unfold entries at hen ⊢; exact List.mem_cons_of_mem _ (by simpa [World.step] using hen), hm⟩
  · rw [if_neg hj] at hen
    exact ⟨en, hen, hm⟩

theorem keeps_pwrite {T : FileId × Nat → Prop} {w : World} {id : FileId} {f : File} {off : Nat} {bs : List Byte}
    (hf : w.files id = some f) (hT : ∀ k, k < bs.length → T (id, off + k)) : Keeps T w (w.step.set id (f.pwrite off bs)) := by
  apply keeps_set hf
  intro o ho b hb
  have hout : o < off ∨ off + bs.length ≤ o := by
    by_cases h : off ≤ o ∧ o < off + bs.length
    · exfalso
      apply ho
      have := hT (o - off) (by omega)
      rwa [show off + (o - off) = o by omega] at this
    · omega
  simp only [File.pwrite] at hb
  rw [Flat.write_outside _ _ _ _ hout, if_neg (by omega)] at hb
  exact hb

theorem keeps_punch {T : FileId × Nat → Prop} {w : World} {id : FileId} {f : File} {off : Nat} {bs : List Byte} {n : Nat}
    (hf : w.files id = some f) (hT : ∀ k, k < bs.length → T (id, off + k)) :
    Keeps T w (w.step.set id { f.pwrite off bs with size := n }) := by
  have := keeps_pwrite hf hT
  apply keeps_set hf
  intro o ho b hb
  have hout : o < off ∨ off + bs.length ≤ o := by
    by_cases h : off ≤ o ∧ o < off + bs.length
    · exfalso
      apply ho
      have := hT (o - off) (by omega)
      rwa [show off + (o - off) = o by omega] at this
    · omega
  simp only [File.pwrite] at hb
  rw [Flat.write_outside _ _ _ _ hout, if_neg (by omega)] at hb
  exact hb

theorem keeps_sync {T : FileId × Nat → Prop} {w : World} {id : FileId} {f : File} (hf : w.files id = some f) :
    Keeps T w (w.step.set id f.sync) := by
  apply keeps_set hf
  intro o _ b hb
  simp only [File.sync, List.not_mem_nil, or_false] at hb
  exact .inl hb

theorem sysFsync_keeps (T : FileId × Nat → Prop) (w : World) (id : FileId) : Keeps T w (sysFsync w id).1 := by
  unfold sysFsync
  split
  · exact .fail _ _ _
  · rename_i f hf
    split
    · exact .fail _ _ _
    · exact keeps_sync hf

theorem handleSyncIgnored_keeps (T : FileId × Nat → Prop) (w : World) (h : Handle) : Keeps T w (handleSyncIgnored w h) := by
  unfold handleSyncIgnored
  cases h with
  | file id => exact sysFsync_keeps T w id
  | bad => exact .fail _ _ _
  | dummy =>
    simp only []
    split
    · exact .fail _ _ _
    · exact .step _ _

theorem sysPread_keeps (T : FileId × Nat → Prop) (w : World) (id : FileId) (off len : Nat) :
    Keeps T w (sysPread w id off len).1 := by
  unfold sysPread
  split
  · exact .fail _ _ _
  · split
    · exact .fail _ _ _
    · exact .step _ _

theorem handlePread_keeps (T : FileId × Nat → Prop) (w : World) (h : Handle) (off len : Nat) :
    Keeps T w (handlePread w h off len).1 := by
  unfold handlePread
  cases h with
  | file id => exact sysPread_keeps T w id off len
  | bad => exact .fail _ _ _
  | dummy =>
    simp only []
    split
    · exact .fail _ _ _
    · exact .step _ _

/-- Creating a file where there was none. -/
theorem keeps_create (T : FileId × Nat → Prop) (w : World) (p : List Char) (f : File) (hn : w.files (.path p) = none)
    (hz : ∀ o b, (b = f.data o ∨ b ∈ f.hist o) → b = 0) : Keeps T w (w.create p f) := by
  refine ⟨?_, rfl, by simp [World.create]⟩
  rintro ⟨j, o⟩ _ b ⟨en, hen, hm⟩
  simp only [] at hm hen
  have h0 : none ∈ entries w (.path p) := by unfold entries; rw [hn]; exact List.mem_cons_self
  unfold entries World.create at hen
  simp only [] at hen
  by_cases hj : j = .path p
  · subst hj
    simp only [if_true, List.mem_cons] at hen
    rcases hen with rfl | rfl | hen
    · exact ⟨none, h0, hz o b hm⟩
    · rw [hn] at hm
      exact ⟨none, h0, hm⟩
    · exact ⟨en, by unfold entries; exact List.mem_cons_of_mem _ hen, hm⟩
  · rw [if_neg hj] at hen
    refine ⟨en, ?_, hm⟩
    unfold entries
    cases j with
    | fd n => exact hen
    | path q =>
      have : q ≠ p := fun e => hj (by rw [e])
      simp only [this, if_false] at hen
      exact hen

theorem keeps_remove (T : FileId × Nat → Prop) (w : World) (p : List Char) (hT : ∀ o, T (.path p, o)) :
    Keeps T w (w.remove p) := by
  refine ⟨?_, rfl, by simp [World.remove]⟩
  rintro ⟨j, o⟩ hx b ⟨en, hen, hm⟩
  simp only [] at hm hen
  unfold entries World.remove at hen
  simp only [] at hen
  by_cases hj : j = .path p
  · subst hj
    exact absurd (hT o) hx
  · rw [if_neg hj] at hen
    refine ⟨en, ?_, hm⟩
    unfold entries
    cases j with
    | fd n => exact hen
    | path q =>
      have : q ≠ p := fun e => hj (by rw [e])
      simp only [this, if_false] at hen
      exact hen

theorem openTreefile_keeps (T : FileId × Nat → Prop) (w w' : World) (name : List Char) (rdwr : Bool) (size pos : Nat) (h : Handle)
    (ho : openTreefile w name rdwr size pos = .val (w', h)) : Keeps T w w' := by
  unfold openTreefile at ho
  cases ht : treeFilename name size pos with
  | none => simp [ht] at ho
  | some p =>
    simp only [ht] at ho
    cases hf : w.files (.path p) with
    | some f =>
      simp only [hf] at ho
      split at ho <;> cases ho
      · exact .step _ _
      · exact .fail _ _ _
    | none =>
      simp only [hf] at ho
      split at ho
      · cases ho; exact .fail _ _ _
      · split at ho
        · split at ho
          · cases ho
          · split at ho
            · cases ho
            · cases ho
            · cases ho
              have h1 : Keeps T w (w.fail ENOENT).step := (Keeps.fail T w _).trans (.step _ _)
              have h2 : Keeps T (w.fail ENOENT).step ((w.fail ENOENT).step.create p (File.clean (fun _ => 0) 0)) :=
                keeps_create T _ p _ hf (by intro o b hb; simpa [File.clean] using hb)
              refine (h1.trans h2).trans ?_
              apply keeps_set (f := File.clean (fun _ => 0) 0) (by simp [World.create])
              intro o _ b hb
              have hz : ∀ i, Flat.write (fun _ => (0 : Byte)) (TREEPAGESIZE - 1) [0] i = 0 := by
                intro i
                rw [Flat.write_apply]
                split
                · rename_i hlt
                  simp at hlt
                  have : i - (TREEPAGESIZE - 1) = 0 := by omega
                  simp [this]
                · rfl
              simp only [File.pwrite, File.clean] at hb
              rw [hz] at hb
              left
              rcases hb with hb | hb
              · exact hb
              · simp only [File.clean]
                split at hb
                · simpa using hb
                · simp at hb
        · split at ho
          · cases ho
          · cases ho
            exact (Keeps.fail T w _).trans (.step _ _)

theorem getFilepos_keeps (T : FileId × Nat → Prop) (ex : Export) (w w' : World) (a : Nat) (r : Option (Handle × Nat × Nat))
    (h : getFilepos ex w a = .val (w', r)) : Keeps T w w' := by
  unfold getFilepos at h
  split at h
  · cases h; exact .refl _ _
  · split at h
    · split at h
      · rename_i ho
        cases h
        exact openTreefile_keeps T _ _ _ _ _ _ _ ho
      · cases h
      · cases h
    · split at h
      · cases h
      · split at h
        · cases h
        · split at h
          · cases h
          · split at h <;> cases h <;> exact .refl _ _

theorem rawexpread_keeps (T : FileId × Nat → Prop) (ex : Export) (w w' : World) (a len : Nat) (r : Option (List Byte))
    (h : rawexpread ex w a len = .val (w', r)) : Keeps T w w' := by
  unfold rawexpread at h
  split at h
  · cases h
  · cases h
  · rename_i hq
    cases h
    exact getFilepos_keeps T _ _ _ _ _ hq
  · rename_i w1 hd foff mb hq
    simp only [Out.val.injEq] at h
    have h2 := handlePread_keeps T w1 hd foff (clip mb len)
    rw [h] at h2
    exact (getFilepos_keeps T _ _ _ _ _ hq).trans h2

theorem rawexpreadFully_keeps (T : FileId × Nat → Prop) (ex : Export) (w : World) (c : ReadCtx) :
    ∀ w' c' ok, rawexpreadFully ex w c = .val (w', c', ok) → Keeps T w w' := by
  fun_induction rawexpreadFully ex w c with
  | case1 => intro w' c' ok h; cases h; exact .refl _ _
  | case2 => intro w' c' ok h; cases h
  | case3 => intro w' c' ok h; cases h
  | case4 w c _ w1 hq => intro w' c' ok h; cases h; exact rawexpread_keeps T _ _ _ _ _ _ hq
  | case5 w c _ w1 hq => intro w' c' ok h; cases h; exact rawexpread_keeps T _ _ _ _ _ _ hq
  | case6 => intro w' c' ok h; cases h
  | case7 => intro w' c' ok h; cases h
  | case8 w c _ w1 b bs hq c1 hd ih =>
    intro w' c' ok h
    exact (rawexpread_keeps T _ _ _ _ _ _ hq).trans (ih w' c' ok h)

/-! ### Writes -/

theorem touch_home {ex : Export} (hg : GoodExport ex) {a k len : Nat} {x : FileId × Nat} (hx : home ex (a + k) = some x)
    (hk : k < len) (hr : a + len ≤ ex.exportsize) : Touch ex a len x := by
  intro b hb hbx
  have := home_inj ex hg _ _ (by omega) hb x hx hbx
  omega

theorem rawexpwrite_keeps (ex : Export) (hg : GoodExport ex) (w w' : World) (a : Nat) (buf : List Byte) (fua : Bool)
    (hr : a + buf.length ≤ ex.exportsize) (hlen : 0 < buf.length) (r : Option Nat)
    (h : rawexpwrite ex w a buf fua = .val (w', r)) : Keeps (Touch ex a buf.length) w w' := by
  unfold rawexpwrite at h
  obtain ⟨_, hsp⟩ := getFilepos_spec ex hg w a (by omega)
  cases hq : getFilepos ex w a with
  | ub => simp [hq] at h
  | exit => simp [hq] at h
  | val pr =>
    obtain ⟨w1, r1⟩ := pr
    obtain ⟨_, hd, off, mb, rfl, hfile, _⟩ := hsp w1 r1 hq
    simp only [hq, Out.val.injEq, Prod.mk.injEq] at h
    have h1 := getFilepos_keeps (Touch ex a buf.length) _ _ _ _ _ hq
    have h2 : Keeps (Touch ex a buf.length) w1 (handlePwrite w1 hd off (buf.take (clip mb buf.length))).1 := by
      unfold handlePwrite
      cases hd with
      | bad => exact .fail _ _ _
      | dummy =>
        simp only []
        split
        · exact .fail _ _ _
        · exact .step _ _
      | file id =>
        simp only [sysPwrite]
        split
        · exact .fail _ _ _
        · rename_i f hf
          split
          · exact .fail _ _ _
          · rename_i n hn
            apply keeps_pwrite hf
            intro k hk
            simp only [List.length_take] at hk
            have hcl := clip_le mb buf.length
            have hh := hfile id rfl k (clip_lt (show k < clip mb buf.length by omega)) (by omega)
            exact touch_home hg hh (by omega) hr
    have h3 : Keeps (Touch ex a buf.length) (handlePwrite w1 hd off (buf.take (clip mb buf.length))).1 w' := by
      rw [← h.1]
      split
      · exact handleSyncIgnored_keeps _ _ _
      · exact .refl _ _
    exact (h1.trans h2).trans h3

theorem rawexpwriteFully_keeps (ex : Export) (hg : GoodExport ex) (w : World) (a : Nat) (buf : List Byte) (fua : Bool)
    (hr : a + buf.length ≤ ex.exportsize) (hw : has ex.flags F_READONLY = false) : ∀ w' ok,
    rawexpwriteFully ex w a buf fua = .val (w', ok) → Keeps (Touch ex a buf.length) w w' := by
  fun_induction rawexpwriteFully ex w a buf fua with
  | case1 => intro w' ok h; cases h; exact .refl _ _
  | case2 => intro w' ok h; cases h
  | case3 => intro w' ok h; cases h
  | case4 w a buf h0 w1 hq => intro w' ok h; cases h; exact rawexpwrite_keeps _ hg _ _ _ _ _ hr (by omega) _ hq
  | case5 w a buf h0 w1 hq => intro w' ok h; cases h; exact rawexpwrite_keeps _ hg _ _ _ _ _ hr (by omega) _ hq
  | case6 w a buf h0 w1 n hq ih =>
    intro w' ok h
    have h1 := rawexpwrite_keeps _ hg _ _ _ _ _ hr (by omega) _ hq
    have hle := ((rawexpwrite_spec ex hg w a buf fua hr (by omega) hw).2 _ _ hq).2 (n + 1) rfl
    have hdl : (buf.drop (n + 1)).length = buf.length - (n + 1) := List.length_drop
    have h2 := ih (by omega) w' ok h
    exact h1.trans (h2.mono (fun x => Touch.mono (by omega) (by omega) x))

theorem expspliceOut_keeps (ex : Export) (hg : GoodExport ex) (w : World) (a len : Nat) (pipe : List Byte) (fua : Bool)
    (hl : pipe.length = len) (hr : a + len ≤ ex.exportsize) (hw : has ex.flags F_READONLY = false) : ∀ w' ok,
    expspliceOut ex w a len pipe fua = .val (w', ok) → Keeps (Touch ex a len) w w' := by
  fun_induction expspliceOut ex w a len pipe fua with
  | case1 => intro w' ok h; cases h; exact .refl _ _
  | case2 => intro w' ok h; cases h
  | case3 => intro w' ok h; cases h
  | case4 w a len pipe h0 w1 hq =>
    have htl : (pipe.take len).length = len := by rw [List.length_take]; omega
    intro w' ok h; cases h
    have := rawexpwrite_keeps _ hg _ _ _ _ _ (by omega) (by omega) _ hq
    rwa [htl] at this
  | case5 w a len pipe h0 w1 hq =>
    have htl : (pipe.take len).length = len := by rw [List.length_take]; omega
    intro w' ok h; cases h
    have := rawexpwrite_keeps _ hg _ _ _ _ _ (by omega) (by omega) _ hq
    rwa [htl] at this
  | case6 w a len pipe h0 w1 n hq ih =>
    have htl : (pipe.take len).length = len := by rw [List.length_take]; omega
    intro w' ok h
    have h1 := rawexpwrite_keeps _ hg _ _ _ _ _ (by omega) (by omega) _ hq
    rw [htl] at h1
    have hle := ((rawexpwrite_spec ex hg w a (pipe.take len) fua (by omega) (by omega) hw).2 _ _ hq).2 (n + 1) rfl
    have hdl : (pipe.drop (n + 1)).length = len - (n + 1) := by rw [List.length_drop, hl]
    have h2 := ih hdl (by omega) w' ok h
    exact h1.trans (h2.mono (fun x => Touch.mono (by omega) (by omega) x))

theorem expspliceIn_keeps (T : FileId × Nat → Prop) (ex : Export) (w : World) (a len : Nat) (pipe : List Byte) :
    ∀ w' out ok, expspliceIn ex w a len pipe = .val (w', out, ok) → Keeps T w w' := by
  fun_induction expspliceIn ex w a len pipe with
  | case1 => intro w' out ok h; cases h; exact .refl _ _
  | case2 => intro w' out ok h; cases h
  | case3 => intro w' out ok h; cases h
  | case4 w a len pipe h0 w1 hq => intro w' out ok h; cases h; exact rawexpread_keeps T _ _ _ _ _ _ hq
  | case5 w a len pipe h0 w1 hq => intro w' out ok h; cases h; exact rawexpread_keeps T _ _ _ _ _ _ hq
  | case6 w a len pipe h0 w1 b bs hq ih =>
    intro w' out ok h
    exact (rawexpread_keeps T _ _ _ _ _ _ hq).trans (ih w' out ok h)

theorem mkpipe_keeps (T : FileId × Nat → Prop) (w : World) (len : Nat) : Keeps T w (mkpipe w len).1 := by
  unfold mkpipe
  split
  · exact .refl _ _
  · split
    · exact .fail _ _ _
    · exact .step _ _

theorem expwrite_keeps (cl : Client) (hp : Plain cl) (w : World) (a : Nat) (bs : List Byte) (fua : Bool)
    (hr : a + bs.length ≤ cl.ex.exportsize) (hw : has cl.ex.flags F_READONLY = false) (cl' : Client) (w' : World) (ok : Bool)
    (h : expwrite cl w a bs fua = .val (cl', w', ok)) : Keeps (Touch cl.ex a bs.length) w w' := by
  unfold expwrite at h
  rw [hp.paged] at h
  simp only [Bool.false_eq_true, if_false] at h
  cases hq : rawexpwriteFully cl.ex w a bs fua with
  | ub => simp [hq] at h
  | exit => simp [hq] at h
  | val p =>
    simp only [hq, Out.val.injEq, Prod.mk.injEq] at h
    obtain ⟨rfl, rfl, rfl⟩ := h
    exact rawexpwriteFully_keeps _ hp.good _ _ _ _ hr hw _ _ hq

theorem expwriteZeroes_keeps (cl : Client) (hp : Plain cl) (w : World) (a len : Nat) (fua : Bool)
    (hr : a + len ≤ cl.ex.exportsize) (hw : has cl.ex.flags F_READONLY = false) : ∀ (cl' : Client) (w' : World) (ok : Bool),
    expwriteZeroes cl w a len fua = .val (cl', w', ok) → Keeps (Touch cl.ex a len) w w' := by
  have hz : 0 < ZEROCHUNK := by decide
  induction len using Nat.strongRecOn generalizing w with
  | _ len ih =>
  intro cl' w' ok h
  unfold expwriteZeroes at h
  split at h
  · cases h; exact .refl _ _
  · rename_i h0
    simp only [] at h
    have hl : (Flat.zeros (min len ZEROCHUNK)).length = min len ZEROCHUNK := Flat.zeros_length _
    have h2 := expwrite_plain cl hp w a (Flat.zeros (min len ZEROCHUNK)) fua (by omega) hw
    cases hq : expwrite cl w a (Flat.zeros (min len ZEROCHUNK)) fua with
    | ub => simp [hq] at h
    | exit => simp [hq] at h
    | val p =>
      obtain ⟨cl1, w1, ok1⟩ := p
      have h1 := expwrite_keeps cl hp w a _ fua (by omega) hw _ _ _ hq
      rw [hl] at h1
      have h1' := h1.mono (fun x => Touch.mono (s' := a) (l' := len) (by omega) (by omega) x)
      obtain ⟨rfl, _⟩ := h2.2 _ _ _ hq
      simp only [hq] at h
      cases ok1 with
      | false => cases h; exact h1'
      | true =>
        simp only [] at h
        have h3 := ih (len - min len ZEROCHUNK) (by omega) w1 (by omega) _ _ _ h
        exact h1'.trans (h3.mono (fun x => Touch.mono (by omega) (by omega) x))

/-! ### Flush -/

theorem flushFiles_keeps (T : FileId × Nat → Prop) (fs : List FileInfo) (w : World) : Keeps T w (flushFiles fs w).1 := by
  induction fs generalizing w with
  | nil => exact .refl _ _
  | cons f fs ih =>
    unfold flushFiles
    have := sysFsync_keeps T w (.fd f.fhandle)
    split
    · rename_i hq; rw [hq] at this; exact this
    · rename_i hq; rw [hq] at this; exact this.trans (ih _)

/-- `sync(2)`. -/
theorem keeps_syncAll (T : FileId × Nat → Prop) (w : World) :
    Keeps T w { w.step with files := fun id => (w.files id).map File.sync, old := fun _ => [] } := by
  refine ⟨?_, rfl, by simp [World.step]⟩
  rintro ⟨j, o⟩ _ b ⟨en, hen, hm⟩
  simp only [] at hm hen
  have hen' : en = (w.files j).map File.sync := by
    unfold entries at hen
    cases j <;> simpa using hen
  refine ⟨w.files j, by unfold entries; exact List.mem_cons_self, ?_⟩
  cases hf : w.files j with
  | none => rw [hf] at hen'; subst hen'; exact hm
  | some f =>
    rw [hf] at hen'
    subst hen'
    simp only [Option.map_some, File.sync, List.not_mem_nil, or_false] at hm
    exact .inl hm

theorem expflush_keeps (T : FileId × Nat → Prop) (cl : Client) (w : World) : Keeps T w (expflush cl w).1 := by
  unfold expflush
  split
  · exact sysFsync_keeps T _ _
  · split
    · exact sysFsync_keeps T _ _
    · split
      · split
        · exact .refl _ _
        · exact keeps_syncAll T w
      · exact flushFiles_keeps T _ _

/-! ### Trim -/

theorem punchHole_keeps (ex : Export) (hg : GoodExport ex) (ht : has ex.flags F_TREEFILES = false) (w : World) (fi : FileInfo)
    (hfi : fi ∈ ex.files) (start len : Nat) (reqlen : Int) (hs : fi.startoff ≤ start) (hl : reqlen ≤ len) :
    Keeps (Touch ex start len) w (punchHole w (.fd fi.fhandle) ((start : Int) - fi.startoff) reqlen) := by
  unfold punchHole
  split
  · exact .fail _ _ _
  · rename_i hneg
    split
    · exact .fail _ _ _
    · rename_i f hf
      split
      · exact .fail _ _ _
      · simp only []
        apply keeps_punch hf
        intro k hk a ha hhome
        simp only [Flat.zeros_length] at hk
        unfold home at hhome
        rw [ht] at hhome
        simp only [Bool.false_eq_true, if_false, Option.map_eq_some_iff, Prod.mk.injEq,
          FileId.fd.injEq, Prod.exists] at hhome
        obtain ⟨fj, nx, hloc, hfd, ho⟩ := hhome
        obtain ⟨j, hj, hle, _, _⟩ := locate_index _ _ _ _ hloc
        have hjeq : fj = fi := by
          have hd := (hg.files ht).distinct
          rw [List.mem_iff_getElem?] at hfi
          obtain ⟨i, hi⟩ := hfi
          rcases Nat.lt_trichotomy i j with hij | hij | hij
          · have := pairwise_getElem? hd hij hi hj
            exact absurd hfd.symm this
          · subst hij
            rw [hi] at hj
            cases hj; rfl
          · have := pairwise_getElem? hd hij hj hi
            exact absurd hfd this
        subst hjeq
        omega

theorem trimFiles_keeps (ex : Export) (hg : GoodExport ex) (ht : has ex.flags F_TREEFILES = false) (start len : Nat) (n : Nat)
    (w : World) (cur : FileInfo) (hcur : cur ∈ ex.files) (i : Nat) :
    Keeps (Touch ex start len) w (trimFiles ex.files ex.exportsize start len n w cur i) := by
  induction n generalizing w cur i with
  | zero => exact .refl _ _
  | succ n ih =>
    have hstep : Keeps (Touch ex start len) w (trimOne ex.files ex.exportsize start len w cur i) := by
      unfold trimOne
      simp only []
      split <;> split
      all_goals first
        | exact .refl _ _
        | (rename_i hc
           apply punchHole_keeps ex hg ht w cur hcur start len _ hc.1
           split <;> omega)
    unfold trimFiles
    split
    · exact hstep
    · rename_i nx hnx
      split
      · exact hstep.trans (ih _ _ (List.mem_of_getElem? hnx) _)
      · exact hstep

theorem trimTree_keeps (ex : Export) (ht : has ex.flags F_TREEFILES = true) (start len : Nat) (n : Nat) (w : World) (pos : Nat)
    (hpos : pos % TREEPAGESIZE = 0) (hs : start ≤ pos) (hend : n = 0 ∨ pos + n * TREEPAGESIZE ≤ start + len)
    (hsz : start + len ≤ ex.exportsize) : ∀ w', trimTree ex n w pos = .val w' → Keeps (Touch ex start len) w w' := by
  induction n generalizing w pos with
  | zero => intro w' h; cases h; exact .refl _ _
  | succ n ih =>
    intro w' h
    have hend' : pos + (n + 1) * TREEPAGESIZE ≤ start + len := by
      rcases hend with h | h
      · omega
      · exact h
    simp only [TREEPAGESIZE] at hend' hpos
    unfold trimTree deleteTreefile at h
    cases htf : treeFilename ex.name ex.exportsize pos with
    | none => simp [htf] at h
    | some p =>
      have hih := fun w1 => ih w1 (pos + TREEPAGESIZE) (by simp only [TREEPAGESIZE]; omega)
        (by simp only [TREEPAGESIZE]; omega) (by right; simp only [TREEPAGESIZE]; omega)
      simp only [htf] at h
      cases hn : w.next with
      | err e => simp only [hn] at h; exact (Keeps.fail _ w e).trans (hih _ w' h)
      | done k =>
        simp only [hn] at h
        refine ((Keeps.step _ w).trans ?_).trans (hih _ w' h)
        apply keeps_remove
        intro o a ha hhome
        unfold home at hhome
        rw [ht] at hhome
        simp only [if_true, Option.map_eq_some_iff] at hhome
        obtain ⟨q, hq, hx⟩ := hhome
        cases hx
        have := (treeFilename_eq_iff ex.name ex.exportsize pos a (by omega) ha p htf).mp hq
        omega

theorem exptrim_keeps (cl : Client) (hg : GoodExport cl.ex) (w w' : World) (start len : Nat)
    (hr : start + len ≤ cl.ex.exportsize) (h : exptrim cl w start len = .val w') : Keeps (Touch cl.ex start len) w w' := by
  unfold exptrim at h
  split at h
  · cases h
  · split at h
    · cases h
    · split at h
      · cases h; exact .refl _ _
      · split at h
        · rename_i ht
          simp only [] at h
          exact trimTree_keeps cl.ex ht start len _ _ _ (by simp [TREEPAGESIZE]) (by simp only [TREEPAGESIZE]; omega)
            (by simp only [TREEPAGESIZE]; omega) hr _ h
        · rename_i ht
          have ht' : has cl.ex.flags F_TREEFILES = false := by simpa using ht
          split at h
          · cases h
          · rename_i cur rest hcons
            cases h
            exact trimFiles_keeps cl.ex hg ht' start len _ w cur (by rw [hcons]; simp) 1

/-! ### Bytes that cannot be lost -/

/-- The stored byte has its current value after every crash. -/
def Settled (w : World) (x : FileId × Nat) : Prop := ∀ b, Poss w x b → b = content w x

theorem poss_content (w : World) (x : FileId × Nat) : Poss w x (content w x) := by
  refine ⟨w.files x.1, by unfold entries; exact List.mem_cons_self, ?_⟩
  unfold content
  cases w.files x.1 with
  | none => rfl
  | some f => exact .inl rfl

theorem Settled.keeps {T : FileId × Nat → Prop} {w w' : World} {x : FileId × Nat} (h : Settled w x) (hk : Keeps T w w')
    (hx : ¬ T x) : Settled w' x ∧ content w' x = content w x := by
  have h1 := h _ (hk.poss x hx _ (poss_content w' x))
  refine ⟨?_, h1⟩
  intro b hb
  rw [h1]
  exact h _ (hk.poss x hx _ hb)

theorem Settled.survives {ex : Export} {w : World} {i : Nat} {x : FileId × Nat} (hi : i < ex.exportsize)
    (hx : home ex i = some x) (h : Settled w x) : Survives ex w i (view ex w i) := by
  apply survives_of_poss hi hx
  intro c hc
  rw [h c hc]
  unfold view
  rw [if_pos hi, hx]

/-- A crash in which a given stored byte takes a given possible value. -/
theorem Poss.crash {w : World} {x : FileId × Nat} {b : Byte} (h : Poss w x b) : ∃ w', Crash w w' ∧ content w' x = b := by
  obtain ⟨en, hen, hm⟩ := h
  refine ⟨{ w with files := fun id => if id = x.1 then en.map (fun f => File.clean (fun o => if o = x.2 then b else f.data o) f.size)
      else (w.files id).map (fun f => File.clean f.data f.size) }, ?_, ?_⟩
  · intro id
    by_cases hid : id = x.1
    · subst hid
      refine ⟨en, hen, ?_⟩
      cases en with
      | none => simp
      | some f =>
        refine ⟨fun o => if o = x.2 then b else f.data o, ?_, by simp⟩
        intro o
        simp only []
        by_cases ho : o = x.2
        · rw [if_pos ho, ho]; exact hm
        · rw [if_neg ho]; exact .inl rfl
    · refine ⟨w.files id, by unfold entries; exact List.mem_cons_self, ?_⟩
      cases hf : w.files id with
      | none => simp [hid, hf]
      | some f => exact ⟨f.data, fun o => .inl rfl, by simp [hid, hf]⟩
  · unfold content
    simp only [if_true]
    cases en with
    | none => exact hm.symm
    | some f => simp [File.clean]

/-- What survives is not affected by an operation that leaves the byte alone. -/
theorem survives_kept {T : FileId × Nat → Prop} {ex : Export} {w w' : World} {i : Nat} {b : Byte} (h : Survives ex w i b)
    (hk : Keeps T w w') (hT : i < ex.exportsize → ∀ x, home ex i = some x → ¬ T x) : Survives ex w' i b := by
  by_cases hi : i < ex.exportsize
  · cases hx : home ex i with
    | none =>
      intro w1 _
      have := h _ (show Crash w { w with files := fun id => (w.files id).map (fun f => File.clean f.data f.size) } by
        intro id
        refine ⟨w.files id, by unfold entries; exact List.mem_cons_self, ?_⟩
        cases hf : w.files id with
        | none => simp [hf]
        | some f => exact ⟨f.data, fun o => .inl rfl, by simp [hf]⟩)
      unfold view at this ⊢
      rw [if_pos hi, hx] at this ⊢
      exact this
    | some x =>
      apply survives_of_poss hi hx
      intro c hc
      obtain ⟨w1, hw1, hc1⟩ := (hk.poss x (hT hi x hx) c hc).crash
      have := h w1 hw1
      unfold view at this
      rw [if_pos hi, hx] at this
      simp only [] at this
      rw [← hc1]
      exact this
  · intro w1 _
    have := h _ (show Crash w { w with files := fun id => (w.files id).map (fun f => File.clean f.data f.size) } by
      intro id
      refine ⟨w.files id, by unfold entries; exact List.mem_cons_self, ?_⟩
      cases hf : w.files id with
      | none => simp [hf]
      | some f => exact ⟨f.data, fun o => .inl rfl, by simp [hf]⟩)
    unfold view at this ⊢
    rw [if_neg hi] at this ⊢
    exact this

namespace Spec

/-- The name is there and permanent (nothing to say for files that were open all the time). -/
def Linked (w : World) : FileId → Prop
  | .fd _ => True
  | .path p => w.files (.path p) ≠ none ∧ w.old p = []

end Spec

/-- Names that were permanent still are. -/
def LinkKept (w w' : World) : Prop := ∀ id, Linked w id → Linked w' id

theorem LinkKept.refl (w : World) : LinkKept w w := fun _ h => h
theorem LinkKept.trans {w1 w2 w3 : World} (h1 : LinkKept w1 w2) (h2 : LinkKept w2 w3) : LinkKept w1 w3 :=
  fun id h => h2 id (h1 id h)
theorem LinkKept.step (w : World) : LinkKept w w.step := fun id h => by cases id <;> exact h
theorem LinkKept.fail (w : World) (e : Nat) : LinkKept w (w.fail e) := fun id h => by cases id <;> exact h

theorem LinkKept.set (w : World) (id : FileId) (f : File) : LinkKept w (w.set id f) := by
  intro j h
  cases j with
  | fd n => trivial
  | path p =>
    refine ⟨?_, h.2⟩
    unfold World.set
    simp only []
    split
    · simp
    · exact h.1

theorem linkKept_create (w : World) (p : List Char) (f : File) (hn : w.files (.path p) = none) : LinkKept w (w.create p f) := by
  intro j h
  cases j with
  | fd n => trivial
  | path q =>
    have hq : q ≠ p := by
      intro e
      subst e
      exact h.1 hn
    refine ⟨?_, ?_⟩
    · unfold World.create
      simp only [FileId.path.injEq, hq, if_false]
      exact h.1
    · unfold World.create
      simp only [hq, if_false]
      exact h.2

theorem openTreefile_links (w w' : World) (name : List Char) (rdwr : Bool) (size pos : Nat) (h : Handle)
    (ho : openTreefile w name rdwr size pos = .val (w', h)) : LinkKept w w' := by
  unfold openTreefile at ho
  cases ht : treeFilename name size pos with
  | none => simp [ht] at ho
  | some p =>
    simp only [ht] at ho
    cases hf : w.files (.path p) with
    | some f =>
      simp only [hf] at ho
      split at ho <;> cases ho
      · exact .step _
      · exact .fail _ _
    | none =>
      simp only [hf] at ho
      split at ho
      · cases ho; exact .fail _ _
      · split at ho
        · split at ho
          · cases ho
          · split at ho
            · cases ho
            · cases ho
            · cases ho
              exact ((((LinkKept.fail w _).trans (.step _)).trans (linkKept_create _ p _ hf)).trans (.step _)).trans (.set _ _ _)
        · split at ho
          · cases ho
          · cases ho
            exact (LinkKept.fail w _).trans (.step _)

theorem getFilepos_links (ex : Export) (w w' : World) (a : Nat) (r : Option (Handle × Nat × Nat))
    (h : getFilepos ex w a = .val (w', r)) : LinkKept w w' := by
  unfold getFilepos at h
  split at h
  · cases h; exact .refl _
  · split at h
    · split at h
      · rename_i ho
        cases h
        exact openTreefile_links _ _ _ _ _ _ _ ho
      · cases h
      · cases h
    · split at h
      · cases h
      · split at h
        · cases h
        · split at h
          · cases h
          · split at h <;> cases h <;> exact .refl _

theorem sysFsync_links (w : World) (id : FileId) : LinkKept w (sysFsync w id).1 := by
  unfold sysFsync
  split
  · exact .fail _ _
  · split
    · exact .fail _ _
    · exact (LinkKept.step w).trans (.set _ _ _)

theorem sysPwrite_links (w : World) (id : FileId) (off : Nat) (bs : List Byte) : LinkKept w (sysPwrite w id off bs).1 := by
  unfold sysPwrite
  split
  · exact .fail _ _
  · split
    · exact .fail _ _
    · exact (LinkKept.step w).trans (.set _ _ _)

theorem rawexpwrite_links (ex : Export) (w w' : World) (a : Nat) (buf : List Byte) (fua : Bool) (r : Option Nat)
    (h : rawexpwrite ex w a buf fua = .val (w', r)) : LinkKept w w' := by
  unfold rawexpwrite at h
  split at h
  · cases h
  · cases h
  · rename_i hq
    cases h
    exact getFilepos_links _ _ _ _ _ hq
  · rename_i w1 hd off mb hq
    simp only [Out.val.injEq, Prod.mk.injEq] at h
    have h1 := getFilepos_links _ _ _ _ _ hq
    have h2 : LinkKept w1 (handlePwrite w1 hd off (buf.take (clip mb buf.length))).1 := by
      unfold handlePwrite
      cases hd with
      | file id => exact sysPwrite_links _ _ _ _
      | bad => exact .fail _ _
      | dummy =>
        simp only []
        split
        · exact .fail _ _
        · exact .step _
    refine (h1.trans h2).trans ?_
    rw [← h.1]
    split
    · unfold handleSyncIgnored
      cases hd with
      | file id => exact sysFsync_links _ _
      | bad => exact .fail _ _
      | dummy =>
        simp only []
        split
        · exact .fail _ _
        · exact .step _
    · exact .refl _

theorem CallFailed.mono {w0 w w' w1 : World} (h : CallFailed w w') (h0 : w0.orc = w.orc) (h1 : w0.tick ≤ w.tick)
    (h2 : w'.tick ≤ w1.tick) : CallFailed w0 w1 := by
  obtain ⟨t, e, a, b, c⟩ := h
  exact ⟨t, e, by omega, by omega, by rw [h0]; exact c⟩

/-- A synced file whose name is permanent can lose nothing. -/
theorem settled_synced (w : World) (id : FileId) (f : File) (o : Nat) (hl : Linked w id) :
    Settled (w.set id f.sync) (id, o) := by
  have hen : entries (w.set id f.sync) id = [some f.sync] := by
    rw [entries_set, if_pos rfl]
    unfold entries
    cases id with
    | fd n => rfl
    | path p => simp [hl.2]
  rintro b ⟨en, hm, hb⟩
  simp only [] at hm
  rw [hen] at hm
  simp only [List.mem_singleton] at hm
  subst hm
  simp only [File.sync, List.not_mem_nil, or_false] at hb
  unfold content World.set
  simp only [if_true]
  rw [hb]
  rfl

/-- One positioned write with a sync. -/
theorem rawexpwrite_settled (ex : Export) (hg : GoodExport ex) (w w' : World) (a : Nat) (buf : List Byte) (fua : Bool) (n : Nat)
    (hr : a + buf.length ≤ ex.exportsize) (hlen : 0 < buf.length) (hw : has ex.flags F_READONLY = false)
    (hs : (has ex.flags F_SYNC || fua) = true) (hl : ∀ k x, k < buf.length → home ex (a + k) = some x → Linked w x.1)
    (h : rawexpwrite ex w a buf fua = .val (w', some n)) :
    CallFailed w w' ∨ ∀ k x, k < n → home ex (a + k) = some x → Settled w' x := by
  have hk0 := rawexpwrite_keeps ex hg w w' a buf fua hr hlen _ h
  unfold rawexpwrite at h
  obtain ⟨_, hsp⟩ := getFilepos_spec ex hg w a (by omega)
  cases hq : getFilepos ex w a with
  | ub => simp [hq] at h
  | exit => simp [hq] at h
  | val pr =>
    obtain ⟨w1, r1⟩ := pr
    obtain ⟨_, hd, off, mb, rfl, hfile, hdummy⟩ := hsp w1 r1 hq
    have hk1 := getFilepos_keeps (fun _ => False) _ _ _ _ _ hq
    have hl1 := getFilepos_links _ _ _ _ _ hq
    simp only [hq, hs, if_true, Out.val.injEq, Prod.mk.injEq] at h
    cases hd with
    | bad => simp [handlePwrite] at h
    | dummy =>
      have := (hdummy rfl).1
      rw [hw] at this
      cases this
    | file id =>
      simp only [handlePwrite, handleSyncIgnored, sysPwrite] at h
      cases hf : w1.files id with
      | none => simp [hf] at h
      | some f =>
        simp only [hf] at h
        cases hn : w1.next with
        | err e => simp [hn] at h
        | done m =>
          simp only [hn, Option.some.injEq, List.length_take] at h
          obtain ⟨hw', hnn⟩ := h
          have hcl := clip_le mb buf.length
          simp only [sysFsync, World.set_files_same] at hw'
          cases hn2 : (w1.step.set id (f.pwrite off (List.take m (List.take (clip mb buf.length) buf)))).next with
          | err e =>
            left
            simp only [hn2] at hw'
            refine ⟨w1.tick + 1, e, ?_, ?_, ?_⟩
            · have := hk1.tick
              omega
            · rw [← hw']
              simp [World.fail, World.set, World.step]
            · rw [← hk1.orc]
              exact hn2
          | done m2 =>
            right
            simp only [hn2] at hw'
            intro k x hk hx
            have hx' := hfile id rfl k (clip_lt (show k < clip mb buf.length by omega)) (by omega)
            rw [hx] at hx'
            cases hx'
            have hlk : Linked w1 id := hl1 id (hl k _ (by omega) hx)
            rw [← hw']
            refine settled_synced _ _ _ _ ?_
            exact (((LinkKept.step w1).trans (.set _ _ _)).trans (.step _)) _ hlk

theorem rawexpwriteFully_settled (ex : Export) (hg : GoodExport ex) (w : World) (a : Nat) (buf : List Byte) (fua : Bool)
    (hr : a + buf.length ≤ ex.exportsize) (hw : has ex.flags F_READONLY = false) (hs : (has ex.flags F_SYNC || fua) = true)
    (hl : ∀ k x, k < buf.length → home ex (a + k) = some x → Linked w x.1) : ∀ w',
    rawexpwriteFully ex w a buf fua = .val (w', true) →
    CallFailed w w' ∨ ∀ k x, k < buf.length → home ex (a + k) = some x → Settled w' x := by
  fun_induction rawexpwriteFully ex w a buf fua with
  | case1 w a buf h0 => intro w' h; right; intro k x hk; omega
  | case2 => intro w' h; cases h
  | case3 => intro w' h; cases h
  | case4 => intro w' h; cases h
  | case5 => intro w' h; cases h
  | case6 w a buf h0 w1 n hq ih =>
    intro w' h
    have h1 := rawexpwrite_keeps _ hg _ _ _ _ _ hr (by omega) _ hq
    have hle := (((rawexpwrite_spec ex hg w a buf fua hr (by omega) hw).2 _ _ hq).2 (n + 1) rfl).1
    have hdl : (buf.drop (n + 1)).length = buf.length - (n + 1) := List.length_drop
    have h2 := rawexpwriteFully_keeps ex hg w1 (a + (n + 1)) (buf.drop (n + 1)) fua (by omega) hw _ _ h
    have hlk := rawexpwrite_links _ _ _ _ _ _ _ hq
    rcases rawexpwrite_settled ex hg w w1 a buf fua (n + 1) hr (by omega) hw hs hl hq with hc | hc
    · left
      exact CallFailed.mono hc rfl (Nat.le_refl _) h2.tick
    · rcases ih (by omega) (by
        intro k x hk hx
        rw [show a + (n + 1) + k = a + (n + 1 + k) by omega] at hx
        exact hlk _ (hl (n + 1 + k) x (by omega) hx)) w' h with hc2 | hc2
      · left
        exact CallFailed.mono hc2 h1.orc.symm h1.tick (Nat.le_refl _)
      · right
        intro k x hk hx
        by_cases hkn : k < n + 1
        · refine ((hc k x hkn hx).keeps h2 ?_).1
          intro ht
          have := ht (a + k) (by omega) hx
          omega
        · refine hc2 (k - (n + 1)) x (by omega) ?_
          rw [show a + (n + 1) + (k - (n + 1)) = a + k by omega]
          exact hx

theorem expspliceOut_settled (ex : Export) (hg : GoodExport ex) (w : World) (a len : Nat) (pipe : List Byte) (fua : Bool)
    (hpl : pipe.length = len) (hr : a + len ≤ ex.exportsize) (hw : has ex.flags F_READONLY = false)
    (hs : (has ex.flags F_SYNC || fua) = true) (hl : ∀ k x, k < len → home ex (a + k) = some x → Linked w x.1) : ∀ w',
    expspliceOut ex w a len pipe fua = .val (w', true) →
    CallFailed w w' ∨ ∀ k x, k < len → home ex (a + k) = some x → Settled w' x := by
  fun_induction expspliceOut ex w a len pipe fua with
  | case1 w a pipe => intro w' h; right; intro k x hk; omega
  | case2 => intro w' h; cases h
  | case3 => intro w' h; cases h
  | case4 => intro w' h; cases h
  | case5 => intro w' h; cases h
  | case6 w a len pipe h0 w1 n hq ih =>
    have htl : (pipe.take len).length = len := by rw [List.length_take]; omega
    intro w' h
    have h1 := rawexpwrite_keeps _ hg _ _ _ _ _ (by omega) (by omega) _ hq
    have hle := (((rawexpwrite_spec ex hg w a (pipe.take len) fua (by omega) (by omega) hw).2 _ _ hq).2 (n + 1) rfl).1
    have hdl : (pipe.drop (n + 1)).length = len - (n + 1) := by rw [List.length_drop, hpl]
    have h2 := expspliceOut_keeps ex hg w1 (a + (n + 1)) (len - (n + 1)) (pipe.drop (n + 1)) fua hdl (by omega) hw _ _ h
    have hlk := rawexpwrite_links _ _ _ _ _ _ _ hq
    rcases rawexpwrite_settled ex hg w w1 a (pipe.take len) fua (n + 1) (by omega) (by omega) hw hs
      (by rw [htl]; exact hl) hq with hc | hc
    · left
      exact CallFailed.mono hc rfl (Nat.le_refl _) h2.tick
    · rcases ih hdl (by omega) (by
        intro k x hk hx
        rw [show a + (n + 1) + k = a + (n + 1 + k) by omega] at hx
        exact hlk _ (hl (n + 1 + k) x (by omega) hx)) w' h with hc2 | hc2
      · left
        exact CallFailed.mono hc2 h1.orc.symm h1.tick (Nat.le_refl _)
      · right
        intro k x hk hx
        by_cases hkn : k < n + 1
        · refine ((hc k x hkn hx).keeps h2 ?_).1
          intro ht
          have := ht (a + k) (by omega) hx
          omega
        · refine hc2 (k - (n + 1)) x (by omega) ?_
          rw [show a + (n + 1) + (k - (n + 1)) = a + k by omega]
          exact hx

theorem expwrite_settled (cl : Client) (hp : Plain cl) (w : World) (a : Nat) (bs : List Byte) (fua : Bool)
    (hr : a + bs.length ≤ cl.ex.exportsize) (hw : has cl.ex.flags F_READONLY = false)
    (hs : (has cl.ex.flags F_SYNC || fua) = true)
    (hl : ∀ k x, k < bs.length → home cl.ex (a + k) = some x → Linked w x.1) (cl' : Client) (w' : World)
    (h : expwrite cl w a bs fua = .val (cl', w', true)) :
    CallFailed w w' ∨ ∀ k x, k < bs.length → home cl.ex (a + k) = some x → Settled w' x := by
  unfold expwrite at h
  rw [hp.paged] at h
  simp only [Bool.false_eq_true, if_false] at h
  cases hq : rawexpwriteFully cl.ex w a bs fua with
  | ub => simp [hq] at h
  | exit => simp [hq] at h
  | val p =>
    simp only [hq, Out.val.injEq, Prod.mk.injEq] at h
    obtain ⟨rfl, rfl, h3⟩ := h
    refine rawexpwriteFully_settled _ hp.good _ _ _ _ hr hw hs hl _ ?_
    rw [hq, ← h3]

theorem expwriteZeroes_settled (cl : Client) (hp : Plain cl) (w : World) (a len : Nat) (fua : Bool)
    (hr : a + len ≤ cl.ex.exportsize) (hw : has cl.ex.flags F_READONLY = false) (hlen : len ≤ ZEROCHUNK)
    (hs : (has cl.ex.flags F_SYNC || fua) = true)
    (hl : ∀ k x, k < len → home cl.ex (a + k) = some x → Linked w x.1) (cl' : Client) (w' : World)
    (h : expwriteZeroes cl w a len fua = .val (cl', w', true)) :
    CallFailed w w' ∨ ∀ k x, k < len → home cl.ex (a + k) = some x → Settled w' x := by
  have hzl : (Flat.zeros len).length = len := Flat.zeros_length _
  unfold expwriteZeroes at h
  split at h
  · right; intro k x hk; omega
  · simp only [Nat.min_eq_left hlen, Nat.sub_self] at h
    split at h
    · cases h
    · cases h
    · cases h
    · rename_i cl1 w1 hq
      unfold expwriteZeroes at h
      simp only [if_true] at h
      cases h
      have := expwrite_settled cl hp w a (Flat.zeros len) fua (by omega) hw hs (by rw [hzl]; exact hl) _ _ hq
      rwa [hzl] at this

/-! ### Flush -/

theorem flushFiles_settled (fs : List FileInfo) (w w' : World) (h : flushFiles fs w = (w', true)) :
    ∀ f ∈ fs, ∀ o, Settled w' (.fd f.fhandle, o) := by
  induction fs generalizing w with
  | nil => intro f hf; cases hf
  | cons f fs ih =>
    unfold flushFiles at h
    cases hq : sysFsync w (.fd f.fhandle) with
    | mk w1 ok =>
      rw [hq] at h
      cases ok with
      | false => simp at h
      | true =>
        simp only [] at h
        intro g hg o
        rcases List.mem_cons.mp hg with rfl | hg
        · have h1 : Settled w1 (.fd g.fhandle, o) := by
            unfold sysFsync at hq
            split at hq
            · cases hq
            · split at hq
              · cases hq
              · cases hq
                exact settled_synced _ _ _ _ trivial
          have hk := flushFiles_keeps (fun _ => False) fs w1
          rw [h] at hk
          exact (h1.keeps hk (by simp)).1
        · exact ih w1 h g hg o

theorem expflush_settled (cl : Client) (hp : Plain cl) (w w' : World) (hwait : has cl.ex.flags F_WAIT = false)
    (htree : has cl.ex.flags F_TREEFILES = true → has cl.ex.flags F_READONLY = false)
    (h : expflush cl w = (w', true)) (i : Nat) (x : FileId × Nat) (hx : home cl.ex i = some x) : Settled w' x := by
  have hcow : has cl.ex.flags F_COPYONWRITE = false := by
    have := hp.paged
    unfold Client.paged at this
    simp only [Bool.or_eq_false_iff] at this
    exact this.1
  unfold expflush at h
  rw [hcow, hwait] at h
  simp only [Bool.false_eq_true, if_false] at h
  cases ht : has cl.ex.flags F_TREEFILES with
  | true =>
    rw [ht, htree ht] at h
    simp only [if_true, Bool.false_eq_true, if_false, Prod.mk.injEq, and_true] at h
    subst h
    rintro b ⟨en, hen, hm⟩
    have hen' : en = (w.files x.1).map File.sync := by
      unfold entries at hen
      cases hx1 : x.1 <;> simpa [hx1] using hen
    unfold content
    simp only []
    subst hen'
    cases hf : w.files x.1 with
    | none => rw [hf] at hm; exact hm
    | some f =>
      rw [hf] at hm
      simp only [Option.map_some, File.sync, List.not_mem_nil, or_false] at hm ⊢
      exact hm
  | false =>
    rw [ht] at h
    simp only [Bool.false_eq_true, if_false] at h
    unfold home at hx
    rw [ht] at hx
    simp only [Bool.false_eq_true, if_false, Option.map_eq_some_iff, Prod.exists] at hx
    obtain ⟨fi, nx, hloc, rfl⟩ := hx
    obtain ⟨j, hj, _⟩ := locate_index _ _ _ _ hloc
    exact flushFiles_settled _ _ _ h fi (List.mem_of_getElem? hj) _

/-! ### Requests -/

theorem handleNormalRead_keeps (T : FileId × Nat → Prop) (e : Endian) (cl : Client) (hp : Plain cl) (w w' : World) (r : Req)
    (msgs : List Msg) (h : handleNormalRead e cl w r = .val (w', msgs)) : Keeps T w w' := by
  unfold handleNormalRead at h
  simp only [] at h
  split at h
  · cases h; exact .refl _ _
  · unfold expread at h
    rw [hp.paged] at h
    simp only [Bool.false_eq_true, if_false] at h
    split at h
    · cases h
    · cases h
    · rename_i hq
      split at h
      · cases h
      · cases h
      · cases h
        exact rawexpreadFully_keeps T _ _ _ _ _ _ hq

theorem handleSpliceRead_keeps (T : FileId × Nat → Prop) (e : Endian) (cl : Client) (w w' : World) (r : Req)
    (m : Option (List Msg)) (h : handleSpliceRead e cl w r = .val (w', m)) : Keeps T w w' := by
  unfold handleSpliceRead at h
  split at h
  · cases h; exact .refl _ _
  · have hm := mkpipe_keeps T w r.len
    split at h
    · rename_i hq; cases h; rw [hq] at hm; exact hm
    · rename_i hq
      rw [hq] at hm
      split at h
      · cases h
      · cases h
      · rename_i hs; cases h; exact hm.trans (expspliceIn_keeps T _ _ _ _ _ _ _ _ hs)
      · rename_i hs; cases h; exact hm.trans (expspliceIn_keeps T _ _ _ _ _ _ _ _ hs)

theorem handleRead_keeps (T : FileId × Nat → Prop) (e : Endian) (cl : Client) (hp : Plain cl) (w w' : World) (r : Req)
    (msgs : List Msg) (h : handleRead e cl w r = .val (w', msgs)) : Keeps T w w' := by
  rcases handleRead_cases _ _ _ _ _ _ h with ⟨w1, hn, ⟨_, rfl⟩ | ⟨_, hs⟩⟩ | ⟨_, hs⟩
  · exact handleNormalRead_keeps T e cl hp _ _ _ _ hn
  · exact (handleSpliceRead_keeps T e cl _ _ _ _ hs).trans (handleNormalRead_keeps T e cl hp _ _ _ _ hn)
  · exact handleSpliceRead_keeps T e cl _ _ _ _ hs

namespace Spec

/-- The request may change byte `i` of the export: a write, trim or write-zeroes whose range holds `i`. -/
def Changes (r : Req) (i : Nat) : Prop := r.type % 65536 ∈ [1, 4, 6] ∧ r.start ≤ i ∧ i < r.start + r.len

end Spec

/-- What one request leaves alone. -/
theorem handleRequest_keeps (e : Endian) (cl cl' : Client) (hp : Plain cl) (w w' : World) (r : Req) (p : Payload)
    (msgs : List Msg) (hlen : r.len < 2 ^ 32) (hpl : p.fits r) (h : handleRequest e cl w r p = .val (cl', w', msgs)) :
    cl' = cl ∧ Keeps (fun x => ∀ i, i < cl.ex.exportsize → home cl.ex i = some x → Changes r i) w w' := by
  cases handleRequest_handled _ _ _ _ _ _ _ _ h with
  | refused n hn why => exact ⟨rfl, .refl _ _⟩
  | read hf ht hr _ _ hq => exact ⟨rfl, handleRead_keeps _ e cl hp _ _ _ _ hq⟩
  | write hf ht hw hr _ _ _ hq =>
    have hrange := inRange hp.good hlen hr
    have hcl := (handleWrite_plain e cl cl' hp w w' r p hpl msgs hrange hw hq).1
    refine ⟨hcl, ?_⟩
    obtain ⟨ok, _, hc⟩ := handleWrite_cases _ _ _ _ _ _ _ _ hq
    have hm : ∀ x, Touch cl.ex r.start r.len x → ∀ i, i < cl.ex.exportsize → home cl.ex i = some x → Changes r i := by
      intro x hx i hi hxi
      exact ⟨by simp [ht], hx i hi hxi⟩
    rcases hc with ⟨bs, rfl, hq2⟩ | ⟨bs, rfl, _, hq2⟩
    · have hl : bs.length = r.len := hpl
      have := expwrite_keeps cl hp w r.start bs _ (by omega) (notReadonly hw) _ _ _ hq2
      rw [hl] at this
      exact this.mono hm
    · have hl : bs.length = r.len := hpl
      exact (expspliceOut_keeps cl.ex hp.good w r.start r.len bs _ hl hrange (notReadonly hw) _ _ hq2).mono hm
  | flush hf ht => exact ⟨rfl, expflush_keeps _ cl w⟩
  | trim hf ht hw hr _ _ hq =>
    have hrange := inRange hp.good hlen hr
    unfold handleTrim at hq
    split at hq
    · cases hq
    · cases hq
    · rename_i hq1
      cases hq
      refine ⟨rfl, (exptrim_keeps cl hp.good w _ r.start r.len hrange hq1).mono ?_⟩
      intro x hx i hi hxi
      exact ⟨by simp [ht], hx i hi hxi⟩
  | zeroes hf ht hw hr _ _ _ hq =>
    have hrange := inRange hp.good hlen hr
    unfold handleWriteZeroes at hq
    split at hq
    · cases hq
    · cases hq
    · rename_i cl1 w1 ok hq1
      cases hq
      obtain ⟨rfl, _⟩ := (expwriteZeroes_plain cl hp w r.start r.len _ hrange (notReadonly hw)).2 _ _ _ hq1
      refine ⟨rfl, (expwriteZeroes_keeps cl' hp w r.start r.len _ hrange (notReadonly hw) _ _ _ hq1).mono ?_⟩
      intro x hx i hi hxi
      exact ⟨by simp [ht], hx i hi hxi⟩

/-- A whole session leaves alone what none of its requests may change. -/
theorem fetch_keeps (T : FileId × Nat → Prop) (e : Endian) (cl : Client) (w w' : World) (stream : List Byte) (x : Fetched)
    (h : fetch e cl w stream = .val (w', x)) : Keeps T w w' := by
  unfold fetch at h
  split at h
  · cases h; exact .refl _ _
  · simp only [] at h
    split at h
    · cases h; exact .refl _ _
    · split at h
      · have hk : Keeps T w (if has cl.ex.flags F_SPLICE then mkpipe w (loadReq e (stream.take 28)).len else (w, false)).1 := by
          split
          · exact mkpipe_keeps T w _
          · exact .refl _ _
        generalize (if has cl.ex.flags F_SPLICE = true then _ else _ : World × Bool) = mp at h hk
        split at h
        · cases h
        · split at h <;> cases h <;> exact hk
      · split at h <;> cases h <;> exact .refl _ _

theorem fetch_push_fits (e : Endian) (cl : Client) (w w' : World) (stream : List Byte) (r : Req) (p : Payload)
    (rest : List Byte) (h : fetch e cl w stream = .val (w', .push r p rest)) : r.len < 2 ^ 32 ∧ p.fits r := by
  unfold fetch at h
  split at h
  · cases h
  · simp only [] at h
    split at h
    · cases h
    · split at h
      · generalize (if has cl.ex.flags F_SPLICE = true then _ else _ : World × Bool) = mp at h
        split at h
        · cases h
        · split at h
          · cases h
          · rename_i hl
            cases h
            refine ⟨UInt32.toNat_lt _, ?_⟩
            split <;> (simp only [Payload.fits, List.length_take]; omega)
      · rename_i ht
        split at h
        · cases h
        · cases h
          exact ⟨UInt32.toNat_lt _, ht⟩

theorem mainloop_clock (e : Endian) (stream : List Byte) : ∀ (cl : Client) (w : World), Plain cl →
    (mainloop e cl w stream).w.orc = w.orc ∧ w.tick ≤ (mainloop e cl w stream).w.tick := by
  intro cl w
  fun_induction mainloop e cl w stream with
  | case1 => intro _; exact ⟨rfl, Nat.le_refl _⟩
  | case2 => intro _; exact ⟨rfl, Nat.le_refl _⟩
  | case3 cl w stream w1 hf =>
    intro _
    have h := fetch_keeps (fun _ => False) _ _ _ _ _ _ hf
    exact ⟨h.orc, h.tick⟩
  | case4 cl w stream w1 rest hf =>
    intro _
    have h := fetch_keeps (fun _ => False) _ _ _ _ _ _ hf
    exact ⟨h.orc, h.tick⟩
  | case5 cl w stream w1 r p rest hf =>
    intro _
    have h := fetch_keeps (fun _ => False) _ _ _ _ _ _ hf
    exact ⟨h.orc, h.tick⟩
  | case6 cl w stream w1 r p rest hf =>
    intro _
    have h := fetch_keeps (fun _ => False) _ _ _ _ _ _ hf
    exact ⟨h.orc, h.tick⟩
  | case7 cl w stream w1 r p rest hf cl' w' msgs hq ih =>
    intro hp
    have h := fetch_keeps (fun _ => False) _ _ _ _ _ _ hf
    obtain ⟨hl, hfit⟩ := fetch_push_fits _ _ _ _ _ _ _ _ hf
    obtain ⟨rfl, hk⟩ := handleRequest_keeps e cl cl' hp w1 w' r p msgs hl hfit hq
    obtain ⟨h1, h2⟩ := ih hp
    exact ⟨h1.trans (hk.orc.trans h.orc), Nat.le_trans h.tick (Nat.le_trans hk.tick h2)⟩

/-- The part of a session before, at and after one of its requests. -/
structure SplitAt (e : Endian) (cl : Client) (w : World) (run : Run) (d : Done) (post : List Done) (w1 w2 : World)
    (rest : List Byte) : Prop where
  handle : handleRequest e cl w1 d.req d.payload = .val (cl, w2, d.msgs)
  len : d.req.len < 2 ^ 32
  fits : d.payload.fits d.req
  orc : w1.orc = w.orc
  tick : w.tick ≤ w1.tick
  post : (mainloop e cl w2 rest).handled = post
  final : (mainloop e cl w2 rest).w = run.w
  ending : (mainloop e cl w2 rest).ending = run.ending

theorem mainloop_splitAt (e : Endian) (stream : List Byte) : ∀ (cl : Client) (w : World), Plain cl →
    ∀ pre d post, (mainloop e cl w stream).handled = pre ++ d :: post →
      ∃ w1 w2 rest, SplitAt e cl w (mainloop e cl w stream) d post w1 w2 rest := by
  intro cl w
  fun_induction mainloop e cl w stream with
  | case1 => intro _ pre d post h; simp at h
  | case2 => intro _ pre d post h; simp at h
  | case3 => intro _ pre d post h; simp at h
  | case4 => intro _ pre d post h; simp at h
  | case5 => intro _ pre d post h; simp at h
  | case6 => intro _ pre d post h; simp at h
  | case7 cl w stream w1 r p rest hf cl' w' msgs hq ih =>
    intro hp pre d post h
    have hk0 := fetch_keeps (fun _ => False) _ _ _ _ _ _ hf
    obtain ⟨hl, hfit⟩ := fetch_push_fits _ _ _ _ _ _ _ _ hf
    obtain ⟨rfl, hk⟩ := handleRequest_keeps e cl cl' hp w1 w' r p msgs hl hfit hq
    simp only [Run.cons] at h
    cases pre with
    | nil =>
      simp only [List.nil_append, List.cons.injEq] at h
      obtain ⟨rfl, hpost⟩ := h
      exact ⟨w1, w', rest, hq, hl, hfit, hk0.orc, hk0.tick, hpost, rfl, rfl⟩
    | cons d0 pre =>
      simp only [List.cons_append, List.cons.injEq] at h
      obtain ⟨a, b, c, hs⟩ := ih hp pre d post h.2
      exact ⟨a, b, c, hs.handle, hs.len, hs.fits, hs.orc.trans (hk.orc.trans hk0.orc),
        Nat.le_trans hk0.tick (Nat.le_trans hk.tick hs.tick), hs.post, hs.final, hs.ending⟩

/-- The value of a byte is not affected by requests that do not name it. -/
theorem handleRequest_viewkept (e : Endian) (cl cl' : Client) (hp : Plain cl) (w w' : World) (r : Req) (p : Payload)
    (msgs : List Msg) (hlen : r.len < 2 ^ 32) (hpl : p.fits r) (h : handleRequest e cl w r p = .val (cl', w', msgs))
    (i : Nat) (hi : ¬ Changes r i) : view cl.ex w' i = view cl.ex w i := by
  cases handleRequest_handled _ _ _ _ _ _ _ _ h with
  | refused n hn why => rfl
  | read hf ht hr _ _ hq =>
    have hdf : has r.type CMD_FLAG_DF = false := has_df_of_flags (by omega)
    have hs := (handleRead_plain e cl hp w w' r msgs hdf (inRange hp.good hlen hr) hq).1
    rw [hs.view]
  | write hf ht hw hr _ _ _ hq =>
    have hrange := inRange hp.good hlen hr
    obtain ⟨_, n, hn, hst, _⟩ := handleWrite_plain e cl cl' hp w w' r p hpl msgs hrange hw hq
    have hbl : p.bytes.length ≤ r.len := by
      cases p <;> simp only [Payload.fits, Payload.bytes, List.length_nil] at hpl ⊢ <;> omega
    rw [hst.view_take hp.good (by omega)]
    apply Flat.write_outside
    have : ¬ (r.start ≤ i ∧ i < r.start + r.len) := fun hc => hi ⟨by simp [ht], hc⟩
    have := List.length_take_le n p.bytes
    have : (p.bytes.take n).length ≤ p.bytes.length := by rw [List.length_take]; omega
    omega
  | flush hf ht =>
    have hs : SameContent w (handleFlush e cl w r).1 := expflush_same cl w
    rw [hs.view]
  | trim hf ht hw hr _ _ hq =>
    unfold handleTrim at hq
    have hsp := exptrim_trimmed cl hp.good w r.start r.len (inRange hp.good hlen hr)
    split at hq
    · cases hq
    · cases hq
    · rename_i w1 hq1
      cases hq
      refine (hsp.2 _ hq1).view.2 i ?_
      have : ¬ (r.start ≤ i ∧ i < r.start + r.len) := fun hc => hi ⟨by simp [ht], hc⟩
      omega
  | zeroes hf ht hw hr _ _ _ hq =>
    have hrange := inRange hp.good hlen hr
    unfold handleWriteZeroes at hq
    split at hq
    · cases hq
    · cases hq
    · rename_i cl1 w1 ok hq1
      cases hq
      obtain ⟨rfl, n, hn, hst, _⟩ := (expwriteZeroes_plain cl hp w r.start r.len _ hrange (notReadonly hw)).2 _ _ _ hq1
      rw [hst.view hp.good (by rw [Flat.zeros_length]; omega)]
      apply Flat.write_outside
      rw [Flat.zeros_length]
      have : ¬ (r.start ≤ i ∧ i < r.start + r.len) := fun hc => hi ⟨by simp [ht], hc⟩
      omega

end Nbd
