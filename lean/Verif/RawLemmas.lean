import Verif.Raw
import Verif.LayoutLemmas
import Verif.Spec
/-! # Refinement of plain reads and writes to a flat byte array -/

namespace Nbd

/-- The byte currently stored at a position of a file (0 where nothing was ever stored). -/
def content (w : World) (x : FileId × Nat) : Byte :=
  match w.files x.1 with
  | none => 0
  | some f => f.data x.2

/-- What the export contains, seen as one flat array. -/
def view (ex : Export) (w : World) : Flat := fun a =>
  if a < ex.exportsize then
    match home ex a with
    | some x => content w x
    | none => 0
  else 0

/-- Nothing stored anywhere differs. -/
def SameContent (w w' : World) : Prop := ∀ x, content w' x = content w x

theorem SameContent.refl (w : World) : SameContent w w := fun _ => rfl
theorem SameContent.trans {w1 w2 w3 : World} (h1 : SameContent w1 w2) (h2 : SameContent w2 w3) :
    SameContent w1 w3 := fun x => (h2 x).trans (h1 x)

theorem SameContent.view {w w' : World} (h : SameContent w w') (ex : Export) :
    view ex w' = view ex w := by
  funext a
  unfold Nbd.view
  split
  · split
    · exact h _
    · rfl
  · rfl

/-- `bs` has been stored at export offset `a`, and no other byte of any file has changed. -/
structure Stored (ex : Export) (w w' : World) (a : Nat) (bs : List Byte) : Prop where
  inside : ∀ k (hk : k < bs.length), ∃ x, home ex (a + k) = some x ∧ content w' x = bs[k]
  outside : ∀ x, (∀ k, k < bs.length → home ex (a + k) ≠ some x) → content w' x = content w x

theorem Stored.nil {ex : Export} {w w' : World} (h : SameContent w w') (a : Nat) :
    Stored ex w w' a [] :=
  ⟨fun k hk => absurd hk (by simp), fun x _ => h x⟩

theorem Stored.append {ex : Export} (hg : GoodExport ex) {w w1 w2 : World} {a : Nat}
    {xs ys : List Byte} (hr : a + xs.length + ys.length ≤ ex.exportsize)
    (h1 : Stored ex w w1 a xs) (h2 : Stored ex w1 w2 (a + xs.length) ys) :
    Stored ex w w2 a (xs ++ ys) := by
  constructor
  · intro k hk
    rw [List.length_append] at hk
    by_cases hx : k < xs.length
    · obtain ⟨x, hx1, hx2⟩ := h1.inside k hx
      refine ⟨x, hx1, ?_⟩
      rw [h2.outside x, hx2, List.getElem_append_left hx]
      intro j hj hjx
      have := home_inj ex hg _ _ (by omega) (by omega) x hx1 hjx
      omega
    · obtain ⟨x, hx1, hx2⟩ := h2.inside (k - xs.length) (by omega)
      refine ⟨x, ?_, ?_⟩
      · rw [← hx1]; congr 1; omega
      · rw [hx2, List.getElem_append_right (by omega)]
  · intro x hx
    rw [h2.outside x, h1.outside x]
    · intro k hk
      exact hx k (by rw [List.length_append]; omega)
    · intro k hk
      have := hx (xs.length + k) (by rw [List.length_append]; omega)
      rwa [← Nat.add_assoc] at this

theorem Stored.congr_left {ex : Export} {w w0 w' : World} {a : Nat} {bs : List Byte}
    (h : SameContent w w0) (hs : Stored ex w0 w' a bs) : Stored ex w w' a bs :=
  ⟨hs.inside, fun x hx => (hs.outside x hx).trans (h x)⟩

theorem Stored.congr_right {ex : Export} {w w0 w' : World} {a : Nat} {bs : List Byte}
    (hs : Stored ex w w0 a bs) (h : SameContent w0 w') : Stored ex w w' a bs :=
  ⟨fun k hk => by
    obtain ⟨x, h1, h2⟩ := hs.inside k hk
    exact ⟨x, h1, (h x).trans h2⟩,
   fun x hx => (h x).trans (hs.outside x hx)⟩

theorem Stored.view {ex : Export} (hg : GoodExport ex) {w w' : World} {a : Nat} {bs : List Byte}
    (hr : a + bs.length ≤ ex.exportsize) (hs : Stored ex w w' a bs) :
    view ex w' = (view ex w).write a bs := by
  funext i
  rw [Flat.write_apply]
  split
  · rename_i h
    obtain ⟨x, h1, h2⟩ := hs.inside (i - a) h.2
    have hi : a + (i - a) = i := by omega
    rw [hi] at h1
    unfold Nbd.view
    rw [if_pos (by omega), h1]
    exact h2
  · rename_i h
    unfold Nbd.view
    split
    · rename_i hi
      cases hx : home ex i with
      | none => rfl
      | some x =>
        apply hs.outside
        intro k hk hk'
        have := home_inj ex hg _ _ hi (by omega) x hx hk'
        omega
    · rfl

/-! ### Opening tree files and finding positions -/

theorem content_set (w : World) (id : FileId) (f : File) (x : FileId × Nat) :
    content (w.set id f) x = if x.1 = id then f.data x.2 else content w x := by
  unfold content World.set
  by_cases h : x.1 = id <;> simp [h]

theorem content_create (w : World) (p : List Char) (f : File) (x : FileId × Nat) :
    content (w.create p f) x = if x.1 = .path p then f.data x.2 else content w x := by
  unfold content World.create
  by_cases h : x.1 = .path p <;> simp [h]

@[simp] theorem content_step (w : World) : content w.step = content w := rfl
@[simp] theorem content_fail (w : World) (e : Nat) : content (w.fail e) = content w := rfl

theorem openTreefile_spec (w : World) (name : List Char) (rdwr : Bool) (size pos : Nat) :
    openTreefile w name rdwr size pos ≠ .ub ∧
    ∀ w' h, openTreefile w name rdwr size pos = .val (w', h) →
      SameContent w w' ∧
      (∀ id, h = .file id → ∃ p, treeFilename name size pos = some p ∧ id = .path p) ∧
      (h = .dummy → rdwr = false ∧ ∃ p, treeFilename name size pos = some p ∧
        w.files (.path p) = none) := by
  unfold openTreefile
  cases ht : treeFilename name size pos with
  | none => simp
  | some p =>
    simp only []
    cases hf : w.files (.path p) with
    | some f =>
      simp only []
      cases hn : w.next with
      | done n =>
        simp only []
        refine ⟨by simp, ?_⟩
        intro w' h heq
        simp only [Out.val.injEq, Prod.mk.injEq] at heq
        obtain ⟨rfl, rfl⟩ := heq
        exact ⟨fun x => rfl, by intro id hid; cases hid; exact ⟨p, rfl, rfl⟩, by simp⟩
      | err e =>
        simp only []
        refine ⟨by simp, ?_⟩
        intro w' h heq
        simp only [Out.val.injEq, Prod.mk.injEq] at heq
        obtain ⟨rfl, rfl⟩ := heq
        exact ⟨fun x => rfl, by simp, by simp⟩
    | none =>
      simp only []
      have hc : ∀ o, content w (.path p, o) = 0 := by
        intro o; simp [content, hf]
      cases hn : w.next with
      | err e =>
        simp only []
        refine ⟨by simp, ?_⟩
        intro w' h heq
        simp only [Out.val.injEq, Prod.mk.injEq] at heq
        obtain ⟨rfl, rfl⟩ := heq
        exact ⟨fun x => rfl, by simp, by simp⟩
      | done n =>
        simp only []
        cases rdwr with
        | false =>
          simp only [Bool.false_eq_true, if_false]
          cases (w.fail ENOENT).next with
          | err e => simp
          | done n =>
            simp only []
            refine ⟨by simp, ?_⟩
            intro w' h heq
            simp only [Out.val.injEq, Prod.mk.injEq] at heq
            obtain ⟨rfl, rfl⟩ := heq
            exact ⟨fun x => rfl, by simp, by simp [hf]⟩
        | true =>
          simp only [if_true]
          cases (w.fail ENOENT).next with
          | err e => simp
          | done n =>
            simp only []
            generalize hn2 : World.next _ = kr
            cases kr with
            | err e => simp
            | done m =>
              cases m with
              | zero => simp
              | succ m =>
                simp only []
                refine ⟨by simp, ?_⟩
                intro w' h heq
                simp only [Out.val.injEq, Prod.mk.injEq] at heq
                obtain ⟨rfl, rfl⟩ := heq
                refine ⟨?_, by intro id hid; cases hid; exact ⟨p, rfl, rfl⟩, by simp⟩
                intro x
                obtain ⟨id, o⟩ := x
                rw [content_set]
                split
                · rename_i hx
                  simp only at hx
                  subst hx
                  rw [hc]
                  simp only [File.pwrite, File.clean]
                  rw [Flat.write_apply]
                  split
                  · rename_i hlt
                    simp at hlt
                    have : o - (TREEPAGESIZE - 1) = 0 := by omega
                    simp [this]
                  · rfl
                · rw [content_step, content_create, if_neg (by assumption)]
                  rfl

/-- What `get_filepos` promises for an in-range offset of a good export. -/
theorem getFilepos_spec (ex : Export) (hg : GoodExport ex) (w : World) (a : Nat)
    (ha : a < ex.exportsize) :
    getFilepos ex w a ≠ .ub ∧
    ∀ w' r, getFilepos ex w a = .val (w', r) → SameContent w w' ∧
      ∃ h off mb, r = some (h, off, mb) ∧
        (∀ id, h = .file id → ∀ k, (mb = 0 ∨ k < mb) → a + k < ex.exportsize →
          home ex (a + k) = some (id, off + k)) ∧
        (h = .dummy → has ex.flags F_READONLY = true ∧ mb ≠ 0 ∧
          ∀ k, k < mb → a + k < ex.exportsize → view ex w (a + k) = 0) := by
  have hsz := hg.size
  cases ht : has ex.flags F_TREEFILES with
  | false =>
    obtain ⟨fi, nx, hl, heq⟩ := getFilepos_files ex w a (by omega) ht (hg.files ht)
    rw [heq]
    refine ⟨by simp, ?_⟩
    intro w' r h
    simp only [Out.val.injEq, Prod.mk.injEq] at h
    obtain ⟨rfl, rfl⟩ := h
    refine ⟨SameContent.refl w, _, _, _, rfl, ?_, by simp⟩
    intro id hid k hk hlt
    cases hid
    obtain ⟨i, hi, hle, hnx, hn⟩ := locate_index _ _ _ _ hl
    have hl' := locate_of_index ex.files (a + k) (hg.files ht).sorted i fi hi (by omega) (by
      intro g hgi
      rw [hgi] at hnx
      subst hnx
      have := hn _ rfl
      simp at hk
      omega)
    unfold home
    rw [ht, hl']
    simp
    omega
  | true =>
    unfold getFilepos
    rw [if_neg (by omega), ht]
    simp only [if_true]
    obtain ⟨hub, hsp⟩ := openTreefile_spec w ex.name (!has ex.flags F_READONLY) ex.exportsize a
    cases ho : openTreefile w ex.name (!has ex.flags F_READONLY) ex.exportsize a with
    | ub => exact absurd ho hub
    | exit => simp
    | val p =>
      obtain ⟨w1, h⟩ := p
      simp only []
      refine ⟨by simp, ?_⟩
      intro w' r hr
      simp only [Out.val.injEq, Prod.mk.injEq] at hr
      obtain ⟨rfl, rfl⟩ := hr
      obtain ⟨hsame, hfile, hdummy⟩ := hsp w1 h ho
      have hmb : (1 + a / TREEPAGESIZE) * TREEPAGESIZE - a ≠ 0 := by
        simp only [TREEPAGESIZE]; omega
      have hblk : ∀ k, k < (1 + a / TREEPAGESIZE) * TREEPAGESIZE - a →
          (a + k) / 4096 = a / 4096 ∧ (a + k) % 4096 = a % 4096 + k := by
        intro k hk
        simp only [TREEPAGESIZE] at hk
        omega
      refine ⟨hsame, h, _, _, rfl, ?_, ?_⟩
      · intro id hid k hk hlt
        obtain ⟨p, hp, rfl⟩ := hfile id hid
        have hk' : k < (1 + a / TREEPAGESIZE) * TREEPAGESIZE - a := by
          rcases hk with hk | hk
          · exact absurd hk hmb
          · exact hk
        obtain ⟨h1, h2⟩ := hblk k hk'
        have hp' := (treeFilename_eq_iff ex.name ex.exportsize a (a + k) ha hlt p hp).mpr h1.symm
        unfold home
        rw [ht, hp']
        simp [TREEPAGESIZE, h2]
      · intro hd
        obtain ⟨hro, p, hp, hnone⟩ := hdummy hd
        refine ⟨by simpa using hro, hmb, ?_⟩
        intro k hk hlt
        obtain ⟨h1, h2⟩ := hblk k hk
        have hp' := (treeFilename_eq_iff ex.name ex.exportsize a (a + k) ha hlt p hp).mpr h1.symm
        unfold view
        rw [if_pos hlt]
        unfold home
        rw [ht, hp']
        simp [content, hnone]

theorem clip_le (mb len : Nat) : clip mb len ≤ len := by unfold clip; split <;> omega
theorem clip_lt {mb len k : Nat} (h : k < clip mb len) : mb = 0 ∨ k < mb := by
  unfold clip at h; split at h <;> omega

/-! ### One raw read -/

theorem rawexpread_spec (ex : Export) (hg : GoodExport ex) (w : World) (a len : Nat)
    (hr : a + len ≤ ex.exportsize) (hlen : 0 < len) :
    rawexpread ex w a len ≠ .ub ∧
    ∀ w' r, rawexpread ex w a len = .val (w', r) → SameContent w w' ∧
      ∀ bs, r = some bs → bs.length ≤ len ∧ bs = (view ex w).read a bs.length := by
  obtain ⟨hub, hsp⟩ := getFilepos_spec ex hg w a (by omega)
  unfold rawexpread
  cases hq : getFilepos ex w a with
  | ub => exact absurd hq hub
  | exit => simp
  | val p =>
    obtain ⟨w1, r1⟩ := p
    obtain ⟨hsame, h, off, mb, rfl, hfile, hdummy⟩ := hsp w1 r1 hq
    simp only []
    refine ⟨by simp, ?_⟩
    intro w' r heq
    simp only [Out.val.injEq] at heq
    unfold handlePread at heq
    have hv : view ex w1 = view ex w := hsame.view ex
    cases h with
    | bad =>
      simp only [Prod.mk.injEq] at heq
      obtain ⟨rfl, rfl⟩ := heq
      exact ⟨hsame, by simp⟩
    | dummy =>
      simp only at heq
      cases hn : w1.next with
      | err e =>
        rw [hn] at heq
        simp only [Prod.mk.injEq] at heq
        obtain ⟨rfl, rfl⟩ := heq
        exact ⟨hsame, by simp⟩
      | done n =>
        rw [hn] at heq
        simp only [Prod.mk.injEq] at heq
        obtain ⟨rfl, rfl⟩ := heq
        refine ⟨hsame, ?_⟩
        intro bs hbs
        cases hbs
        obtain ⟨_, hmb0, hz⟩ := hdummy rfl
        simp only [File.pread, Flat.read_length]
        have hcl := clip_le mb len
        refine ⟨by omega, ?_⟩
        apply List.ext_getElem?
        intro i
        rw [Flat.read_getElem?, Flat.read_getElem?]
        split
        · rename_i hi
          have hi' : i < clip mb len := by omega
          rcases clip_lt hi' with hh | hh
          · exact absurd hh hmb0
          · rw [hz i hh (by omega)]
            rfl
        · rfl
    | file id =>
      simp only [sysPread] at heq
      cases hf : w1.files id with
      | none =>
        rw [hf] at heq
        simp only [Prod.mk.injEq] at heq
        obtain ⟨rfl, rfl⟩ := heq
        exact ⟨hsame, by simp⟩
      | some f =>
        rw [hf] at heq
        cases hn : w1.next with
        | err e =>
          rw [hn] at heq
          simp only [Prod.mk.injEq] at heq
          obtain ⟨rfl, rfl⟩ := heq
          exact ⟨hsame, by simp⟩
        | done n =>
          rw [hn] at heq
          simp only [Prod.mk.injEq] at heq
          obtain ⟨rfl, rfl⟩ := heq
          refine ⟨hsame, ?_⟩
          intro bs hbs
          cases hbs
          simp only [File.pread, Flat.read_length]
          have hcl := clip_le mb len
          refine ⟨by omega, ?_⟩
          apply List.ext_getElem?
          intro i
          rw [Flat.read_getElem?, Flat.read_getElem?]
          split
          · rename_i hi
            have hi' : i < clip mb len := by omega
            have hh := hfile id rfl i (clip_lt hi') (by omega)
            rw [← hv]
            unfold view
            rw [if_pos (by omega), hh]
            simp [content, hf]
          · rfl

/-! ### One raw write -/

theorem handleSyncIgnored_content (w : World) (h : Handle) : SameContent w (handleSyncIgnored w h) := by
  intro x
  unfold handleSyncIgnored
  cases h with
  | bad => rfl
  | dummy => simp only []; split <;> rfl
  | file id =>
    simp only [sysFsync]
    cases hf : w.files id with
    | none => rfl
    | some f =>
      simp only []
      split
      · rfl
      · rw [content_set]
        split
        · rename_i hx
          obtain ⟨i, o⟩ := x
          simp only at hx
          subst hx
          simp [content, hf, File.sync]
        · rfl

theorem rawexpwrite_spec (ex : Export) (hg : GoodExport ex) (w : World) (a : Nat)
    (buf : List Byte) (fua : Bool) (hr : a + buf.length ≤ ex.exportsize) (hlen : 0 < buf.length)
    (hw : has ex.flags F_READONLY = false) :
    rawexpwrite ex w a buf fua ≠ .ub ∧
    ∀ w' r, rawexpwrite ex w a buf fua = .val (w', r) →
      (r = none → SameContent w w') ∧
      ∀ n, r = some n → n ≤ buf.length ∧ Stored ex w w' a (buf.take n) := by
  obtain ⟨hub, hsp⟩ := getFilepos_spec ex hg w a (by omega)
  unfold rawexpwrite
  cases hq : getFilepos ex w a with
  | ub => exact absurd hq hub
  | exit => simp
  | val p =>
    obtain ⟨w1, r1⟩ := p
    obtain ⟨hsame, h, off, mb, rfl, hfile, hdummy⟩ := hsp w1 r1 hq
    simp only []
    refine ⟨by simp, ?_⟩
    intro w' r heq
    simp only [Out.val.injEq, Prod.mk.injEq] at heq
    obtain ⟨heq1, heq2⟩ := heq
    have hsync : ∀ w2 : World,
        SameContent w2 (if (has ex.flags F_SYNC || fua) = true then handleSyncIgnored w2 h else w2) := by
      intro w2
      split
      · exact handleSyncIgnored_content w2 h
      · exact SameContent.refl w2
    generalize hp : handlePwrite w1 h off (buf.take (clip mb buf.length)) = pr at heq1 heq2
    obtain ⟨w2, r2⟩ := pr
    simp only at heq1 heq2
    subst heq2
    have hs2 := hsync w2
    rw [heq1] at hs2
    unfold handlePwrite at hp
    cases h with
    | bad =>
      simp only [Prod.mk.injEq] at hp
      obtain ⟨rfl, rfl⟩ := hp
      exact ⟨fun _ => hsame.trans hs2, by simp⟩
    | dummy =>
      have := (hdummy rfl).1
      rw [hw] at this
      cases this
    | file id =>
      simp only [sysPwrite] at hp
      cases hf : w1.files id with
      | none =>
        rw [hf] at hp
        simp only [Prod.mk.injEq] at hp
        obtain ⟨rfl, rfl⟩ := hp
        exact ⟨fun _ => hsame.trans hs2, by simp⟩
      | some f =>
        rw [hf] at hp
        cases hn : w1.next with
        | err e =>
          rw [hn] at hp
          simp only [Prod.mk.injEq] at hp
          obtain ⟨rfl, rfl⟩ := hp
          exact ⟨fun _ => hsame.trans hs2, by simp⟩
        | done n =>
          rw [hn] at hp
          simp only [Prod.mk.injEq] at hp
          obtain ⟨rfl, rfl⟩ := hp
          refine ⟨by simp, ?_⟩
          intro m hm
          simp only [Option.some.injEq, List.length_take] at hm
          have hcl := clip_le mb buf.length
          refine ⟨by omega, ?_⟩
          apply Stored.congr_left hsame
          refine Stored.congr_right ?_ hs2
          have htake : List.take n (List.take (clip mb buf.length) buf) = buf.take m := by
            rw [List.take_take]
            congr 1
            omega
          rw [htake]
          have hmlen : (buf.take m).length = m := by rw [List.length_take]; omega
          constructor
          · intro k hk
            rw [hmlen] at hk
            have hh := hfile id rfl k (clip_lt (show k < clip mb buf.length by omega)) (by omega)
            refine ⟨_, hh, ?_⟩
            rw [content_set]
            simp only [if_true, File.pwrite]
            rw [Flat.write_inside _ _ _ _ (by omega)]
          · intro x hx
            rw [content_set]
            split
            · rename_i hxid
              obtain ⟨i, o⟩ := x
              simp only at hxid
              subst hxid
              simp only [File.pwrite]
              rw [Flat.write_outside]
              · simp [content, hf]
              · rw [hmlen]
                by_cases ho : off ≤ o ∧ o < off + m
                · exfalso
                  have hh := hfile i rfl (o - off)
                    (clip_lt (show o - off < clip mb buf.length by omega)) (by omega)
                  apply hx (o - off) (by omega)
                  rw [hh]
                  congr 2
                  omega
                · omega
            · rfl

/-! ### The `_fully` loops -/

/-- `rawexpwrite_fully`: never undefined behaviour; exactly a prefix of the data has been
stored, the whole of it when success is reported. -/
theorem rawexpwriteFully_spec (ex : Export) (hg : GoodExport ex) (w : World) (a : Nat)
    (buf : List Byte) (fua : Bool) (hr : a + buf.length ≤ ex.exportsize)
    (hw : has ex.flags F_READONLY = false) :
    rawexpwriteFully ex w a buf fua ≠ .ub ∧
    ∀ w' ok, rawexpwriteFully ex w a buf fua = .val (w', ok) →
      ∃ n, n ≤ buf.length ∧ Stored ex w w' a (buf.take n) ∧ (ok = true → n = buf.length) := by
  fun_induction rawexpwriteFully ex w a buf fua with
  | case1 w a buf h =>
    refine ⟨by simp, ?_⟩
    intro w' ok heq
    simp only [Out.val.injEq, Prod.mk.injEq] at heq
    obtain ⟨rfl, rfl⟩ := heq
    exact ⟨0, by omega, by simpa using Stored.nil (SameContent.refl w) a, fun _ => h.symm⟩
  | case2 w a buf h hq => exact absurd hq (rawexpwrite_spec ex hg w a buf fua hr (by omega) hw).1
  | case3 => simp
  | case4 w a buf h w1 hq =>
    have hsp := (rawexpwrite_spec ex hg w a buf fua hr (by omega) hw).2 _ _ hq
    refine ⟨by simp, ?_⟩
    intro w' ok heq
    simp only [Out.val.injEq, Prod.mk.injEq] at heq
    obtain ⟨rfl, rfl⟩ := heq
    exact ⟨0, by omega, by simpa using Stored.nil (hsp.1 rfl) a, by simp⟩
  | case5 w a buf h w1 hq =>
    have hsp := (rawexpwrite_spec ex hg w a buf fua hr (by omega) hw).2 _ _ hq
    refine ⟨by simp, ?_⟩
    intro w' ok heq
    simp only [Out.val.injEq, Prod.mk.injEq] at heq
    obtain ⟨rfl, rfl⟩ := heq
    exact ⟨0, by omega, (hsp.2 0 rfl).2, by simp⟩
  | case6 w a buf h w1 n hq ih =>
    have hsp := (rawexpwrite_spec ex hg w a buf fua hr (by omega) hw).2 _ _ hq
    obtain ⟨hle, hst⟩ := hsp.2 (n + 1) rfl
    have hdl : (buf.drop (n + 1)).length = buf.length - (n + 1) := List.length_drop
    obtain ⟨hub, hih⟩ := ih (by omega)
    refine ⟨hub, ?_⟩
    intro w' ok heq
    obtain ⟨m, hm, hst2, hok⟩ := hih w' ok heq
    refine ⟨n + 1 + m, by omega, ?_, fun h => by have := hok h; omega⟩
    have htl : (buf.take (n + 1)).length = n + 1 := by rw [List.length_take]; omega
    have hdm : ((buf.drop (n + 1)).take m).length = m := by rw [List.length_take]; omega
    have hst3 : Stored ex w1 w' (a + (buf.take (n + 1)).length) ((buf.drop (n + 1)).take m) := by
      rw [htl]; exact hst2
    have := Stored.append hg (by rw [htl, hdm]; omega) hst hst3
    rwa [← List.take_add] at this

/-- What a read loop has delivered so far: `n` bytes starting at `curOff`. -/
structure Delivered (v : Flat) (c c' : ReadCtx) (n : Nat) : Prop where
  start : c'.start = c.start
  reqLen : c'.reqLen = c.reqLen
  structured : c'.structured = c.structured
  df : c'.df = c.df
  curOff : c'.curOff = c.curOff + n
  curLen : c'.curLen = c.curLen - n
  le : n ≤ c.curLen
  /-- simple replies: the buffer holds the bytes -/
  buf : c.chunked = false →
    c'.buf = bufSet c.buf c.curOff (v.read (c.start + c.curOff) n)
  bufKept : c.chunked = true → c'.buf = c.buf
  /-- structured replies: non-empty chunks, consecutive, that concatenate to the bytes -/
  chunks : ∃ cs, c'.chunks = c.chunks ++ cs ∧
    (c.chunked = false → cs = []) ∧
    (c.chunked = true → Spec.Tiles (c.start + c.curOff) cs (v.read (c.start + c.curOff) n))

theorem bufSet_length (buf : List (Option Byte)) (off : Nat) (bs : List Byte)
    (h : off + bs.length ≤ buf.length) : (bufSet buf off bs).length = buf.length := by
  simp [bufSet]; omega

theorem bufSet_nil (buf : List (Option Byte)) (off : Nat) : bufSet buf off [] = buf := by
  simp [bufSet]

theorem bufSet_append (buf : List (Option Byte)) (off : Nat) (xs ys : List Byte)
    (h : off + xs.length + ys.length ≤ buf.length) :
    bufSet (bufSet buf off xs) (off + xs.length) ys = bufSet buf off (xs ++ ys) := by
  unfold bufSet
  have h1 : (buf.take off ++ xs.map some).length = off + xs.length := by simp; omega
  rw [List.take_append_of_le_length (by omega), ← h1, List.take_length, h1]
  have h2 : List.drop (off + xs.length + ys.length)
      (List.take off buf ++ List.map some xs ++ List.drop (off + xs.length) buf)
      = List.drop ys.length (List.drop (off + xs.length) buf) := by
    rw [← h1, List.drop_append]
    simp
  rw [h2, List.drop_drop]
  simp [List.append_assoc, Nat.add_assoc]

theorem deliver_spec (c : ReadCtx) (bs : List Byte) (hle : bs.length ≤ c.curLen)
    (hbuf : c.chunked = false → c.curOff + c.curLen ≤ c.buf.length) :
    ∃ c', c.deliver bs = .val c' ∧ c'.start = c.start ∧ c'.reqLen = c.reqLen ∧
      c'.structured = c.structured ∧ c'.df = c.df ∧
      (c.chunked = false → c'.buf = bufSet c.buf c.curOff bs ∧ c'.chunks = c.chunks) ∧
      (c.chunked = true → c'.buf = c.buf ∧ c'.chunks = c.chunks ++ [(c.start + c.curOff, bs)]) := by
  unfold ReadCtx.deliver
  cases hc : c.chunked with
  | true =>
    simp only [if_true]
    rw [if_neg (by omega)]
    exact ⟨_, rfl, rfl, rfl, rfl, rfl, by simp, by simp⟩
  | false =>
    have := hbuf hc
    simp only [Bool.false_eq_true, if_false]
    rw [if_neg (by omega)]
    exact ⟨_, rfl, rfl, rfl, rfl, rfl, by simp, by simp⟩

theorem rawexpread_max (ex : Export) (w w' : World) (a len : Nat) (bs : List Byte)
    (h : rawexpread ex w a len = .val (w', some bs)) : bs.length ≤ MAX_RW_COUNT := by
  unfold rawexpread at h
  split at h
  · cases h
  · cases h
  · cases h
  · simp only [Out.val.injEq] at h
    unfold handlePread sysPread at h
    split at h
    · split at h
      · cases h
      · split at h
        · cases h
        · cases h
          simp only [File.pread, Flat.read_length]
          omega
    · cases h
    · split at h
      · cases h
      · cases h
        simp only [File.pread, Flat.read_length]
        omega

/-- `rawexpread_fully`: never undefined behaviour, changes nothing, and delivers exactly a
prefix of the export's bytes, all of them when success is reported. -/
theorem rawexpreadFully_spec (ex : Export) (hg : GoodExport ex) (w : World) (c : ReadCtx)
    (hr : c.start + c.curOff + c.curLen ≤ ex.exportsize)
    (hbuf : c.chunked = false → c.curOff + c.curLen ≤ c.buf.length) :
    rawexpreadFully ex w c ≠ .ub ∧
    ∀ w' c' ok, rawexpreadFully ex w c = .val (w', c', ok) →
      SameContent w w' ∧ ∃ n, Delivered (view ex w) c c' n ∧ (ok = true → n = c.curLen) := by
  fun_induction rawexpreadFully ex w c with
  | case1 w c h =>
    refine ⟨by simp, ?_⟩
    intro w' c' ok heq
    simp only [Out.val.injEq, Prod.mk.injEq] at heq
    obtain ⟨rfl, rfl, rfl⟩ := heq
    refine ⟨SameContent.refl w, 0, ?_, fun _ => h.symm⟩
    constructor <;> simp [bufSet_nil, Spec.Tiles.nil]
  | case2 w c h hq => exact absurd hq (rawexpread_spec ex hg w _ _ hr (by omega)).1
  | case3 => simp
  | case4 w c h w1 hq =>
    have hsp := (rawexpread_spec ex hg w _ _ hr (by omega)).2 _ _ hq
    refine ⟨by simp, ?_⟩
    intro w' c' ok heq
    simp only [Out.val.injEq, Prod.mk.injEq] at heq
    obtain ⟨rfl, rfl, rfl⟩ := heq
    refine ⟨hsp.1, 0, ?_, by simp⟩
    constructor <;> simp [bufSet_nil, Spec.Tiles.nil]
  | case5 w c h w1 hq =>
    have hsp := (rawexpread_spec ex hg w _ _ hr (by omega)).2 _ _ hq
    refine ⟨by simp, ?_⟩
    intro w' c' ok heq
    simp only [Out.val.injEq, Prod.mk.injEq] at heq
    obtain ⟨rfl, rfl, rfl⟩ := heq
    refine ⟨hsp.1, 0, ?_, by simp⟩
    constructor <;> simp [bufSet_nil, Spec.Tiles.nil]
  | case6 w c h w1 b bs hq hd =>
    have hsp := (rawexpread_spec ex hg w _ _ hr (by omega)).2 _ _ hq
    obtain ⟨hle, _⟩ := hsp.2 _ rfl
    obtain ⟨c1, h1, _⟩ := deliver_spec c (b :: bs) hle hbuf
    rw [hd] at h1
    cases h1
  | case7 w c h w1 b bs hq hd => simp
  | case8 w c h w1 b bs hq c1 hd ih =>
    have hsp := (rawexpread_spec ex hg w _ _ hr (by omega)).2 _ _ hq
    obtain ⟨hle, hbs⟩ := hsp.2 _ rfl
    obtain ⟨c2, h1, e1, e2, e3, e4, e5, e6⟩ := deliver_spec c (b :: bs) hle hbuf
    rw [hd] at h1
    cases h1
    have hv : view ex w1 = view ex w := hsp.1.view ex
    generalize hxs : b :: bs = xs at *
    have hxne : xs ≠ [] := by rw [← hxs]; simp
    have hchunk : ∀ (o l : Nat), ReadCtx.chunked { c1 with curOff := o, curLen := l } = c.chunked := by
      intro o l; simp [ReadCtx.chunked, e3, e4]
    obtain ⟨hub, hih⟩ := ih (by simp only [e1]; omega) (by
      intro hc
      rw [hchunk] at hc
      have := hbuf hc
      simp only []
      rw [(e5 hc).1, bufSet_length _ _ _ (by omega)]
      omega)
    refine ⟨hub, ?_⟩
    intro w' c' ok heq
    obtain ⟨hsame, n, hdel, hok⟩ := hih w' c' ok heq
    refine ⟨hsp.1.trans hsame, xs.length + n, ?_, fun h => ?_⟩
    · rw [hv] at hdel
      have hadd : c.start + (c.curOff + xs.length) = c.start + c.curOff + xs.length := by omega
      have hnle := hdel.le
      simp only at hnle
      constructor
      · rw [hdel.start]; exact e1
      · rw [hdel.reqLen]; exact e2
      · rw [hdel.structured]; exact e3
      · rw [hdel.df]; exact e4
      · rw [hdel.curOff]; simp only []; omega
      · rw [hdel.curLen]; simp only []; omega
      · omega
      · intro hc
        have hc' := hbuf hc
        rw [hdel.buf (by rw [hchunk]; exact hc)]
        simp only [e1]
        rw [(e5 hc).1, Flat.read_add, ← hbs, ← hadd]
        exact bufSet_append c.buf c.curOff xs _ (by rw [Flat.read_length]; omega)
      · intro hc
        rw [hdel.bufKept (by rw [hchunk]; exact hc)]
        exact (e6 hc).1
      · obtain ⟨cs, k1, k2, k3⟩ := hdel.chunks
        simp only [hchunk] at k2 k3
        cases hc : c.chunked with
        | false =>
          refine ⟨[], ?_, by simp, by simp⟩
          rw [k1, k2 hc]
          simp [(e5 hc).2]
        | true =>
          have k4 := k3 hc
          refine ⟨(c.start + c.curOff, xs) :: cs, ?_, by simp, ?_⟩
          · rw [k1]
            simp [(e6 hc).2]
          · intro _
            simp only [e1, hadd] at k4
            rw [Flat.read_add, ← hbs]
            exact .cons _ _ _ _ hxne (by have := rawexpread_max _ _ _ _ _ _ hq; unfold MAX_RW_COUNT at this; omega) k4
    · have := hok h
      simp only at this
      omega

end Nbd
