import Verif.SchedTree
import Verif.LinearLemmas
/-! # What the program of one request does to the array of a tree export, step by step -/

set_option autoImplicit false

namespace Nbd

namespace Spec

/-- `l` is `l0` with additional zero bytes stored at bytes in `E`, at any points. -/
inductive Woven (E : Nat → Prop) : List Act → List Act → Prop
  | nil : Woven E [] []
  | keep (x : Act) (l0 l : List Act) (h : Woven E l0 l) : Woven E (x :: l0) (x :: l)
  | extra (i : Nat) (l0 l : List Act) (hi : E i) (h : Woven E l0 l) : Woven E l0 (.put i 0 :: l)

/-- The last byte of a block of which the command has a byte in its range. -/
def Edge (c : Cmd) (i : Nat) : Prop :=
  i % 4096 = 4095 ∧ ∃ k, c.start ≤ k ∧ k < c.start + c.len ∧ k / 4096 = i / 4096

/-- Everything done for command `c` on a tree of block files: what would be done on a plain file, and zero bytes stored at the ends
of blocks, when block files are created; the last thing done is a message. -/
def CompleteT (size : Nat) (ro : Bool) (framing : List Bool) (c : Cmd) (l : List Act) : Prop :=
  ∃ l0, Woven (Edge c) l0 l ∧ Complete size ro framing c l0 ∧ ∃ init m, l = init ++ [.msg m]

end Spec

open Spec

/-! ### Woven lists -/

theorem Spec.Woven.refl {E : Nat → Prop} (l : List Act) : Woven E l l := by
  induction l with
  | nil => exact .nil
  | cons x l ih => exact .keep _ _ _ ih

theorem Spec.Woven.append {E : Nat → Prop} {a0 a b0 b : List Act} (h : Woven E a0 a) (h' : Woven E b0 b) :
    Woven E (a0 ++ b0) (a ++ b) := by
  induction h with
  | nil => exact h'
  | keep x l0 l h ih => exact .keep _ _ _ ih
  | extra i l0 l hi h ih => exact .extra _ _ _ hi ih

theorem Spec.Woven.snoc {E : Nat → Prop} {a0 a : List Act} (h : Woven E a0 a) (es : List Act) : Woven E (a0 ++ es) (a ++ es) :=
  h.append (.refl es)

theorem Spec.Woven.put {E : Nat → Prop} {a0 a : List Act} (h : Woven E a0 a) {i : Nat} (hi : E i) : Woven E a0 (a ++ [.put i 0]) := by
  have := h.append (Woven.extra i [] [] hi .nil)
  rwa [List.append_nil] at this

theorem Spec.Woven.msg_split {E : Nat → Prop} {l0 u t : List Act} {m : Msg} (h : Woven E l0 (u ++ .msg m :: t)) :
    ∃ u0 t0, l0 = u0 ++ .msg m :: t0 ∧ Woven E u0 u ∧ Woven E t0 t := by
  generalize hl : u ++ .msg m :: t = l at h
  induction h generalizing u with
  | nil => simp at hl
  | keep x l0 l h ih =>
    cases u with
    | nil =>
      simp only [List.nil_append, List.cons.injEq] at hl
      obtain ⟨rfl, rfl⟩ := hl
      exact ⟨[], l0, rfl, .nil, h⟩
    | cons y u =>
      simp only [List.cons_append, List.cons.injEq] at hl
      obtain ⟨rfl, hl⟩ := hl
      obtain ⟨u0, t0, rfl, h1, h2⟩ := ih hl
      exact ⟨y :: u0, t0, rfl, .keep _ _ _ h1, h2⟩
  | extra i l0 l hi h ih =>
    cases u with
    | nil => simp at hl
    | cons y u =>
      simp only [List.cons_append, List.cons.injEq] at hl
      obtain ⟨rfl, hl⟩ := hl
      obtain ⟨u0, t0, rfl, h1, h2⟩ := ih hl
      exact ⟨u0, t0, rfl, .extra _ _ _ hi h1, h2⟩

theorem Spec.Woven.mem {E : Nat → Prop} {l0 l : List Act} (h : Woven E l0 l) {x : Act} (hx : x ∈ l) :
    x ∈ l0 ∨ ∃ i, E i ∧ x = .put i 0 := by
  induction h with
  | nil => cases hx
  | keep y l0 l h ih =>
    rcases List.mem_cons.mp hx with rfl | hx
    · exact .inl List.mem_cons_self
    · exact (ih hx).imp (List.mem_cons_of_mem _) id
  | extra i l0 l hi h ih =>
    rcases List.mem_cons.mp hx with rfl | hx
    · exact .inr ⟨i, hi, rfl⟩
    · exact ih hx

theorem Spec.Woven.of_mem {E : Nat → Prop} {l0 l : List Act} (h : Woven E l0 l) {x : Act} (hx : x ∈ l0) : x ∈ l := by
  induction h with
  | nil => cases hx
  | keep y l0 l h ih =>
    rcases List.mem_cons.mp hx with rfl | hx
    · exact List.mem_cons_self
    · exact List.mem_cons_of_mem _ (ih hx)
  | extra i l0 l hi h ih => exact List.mem_cons_of_mem _ (ih hx)

theorem Spec.Woven.mono {E E' : Nat → Prop} (hE : ∀ i, E i → E' i) {l0 l : List Act} (h : Woven E l0 l) : Woven E' l0 l := by
  induction h with
  | nil => exact .nil
  | keep x l0 l h ih => exact .keep _ _ _ ih
  | extra i l0 l hi h ih => exact .extra _ _ _ (hE i hi) ih

/-! ### What is done for a command -/

section
variable {size : Nat} {ro : Bool} {fr : List Bool} {c : Cmd}

theorem Spec.CompleteT.of {l0 l : List Act} {m : Msg} (hw : Woven (Edge c) l0 l) (hc : Complete size ro fr c (l0 ++ [.msg m])) :
    CompleteT size ro fr c (l ++ [.msg m]) :=
  ⟨_, hw.snoc _, hc, l, m, rfl⟩

theorem Spec.CompleteT.law (hsize : size ≤ 2 ^ 63) (ro : Bool) (fr : List Bool) :
    Law (fun i => i % 4096 ≠ 4095) (CompleteT size ro fr) where
  finished := by
    rintro c l u t m ⟨l0, hw, hc, init, last, hl⟩ hu hf
    subst hu
    obtain ⟨u0, t0, rfl, h1, h2⟩ := hw.msg_split
    have := Complete.finished hc rfl hf
    subst this
    rcases List.eq_nil_or_concat t with rfl | ⟨zs, z, rfl⟩
    · rfl
    · exfalso
      rw [List.concat_eq_append] at hl h2
      rw [show u ++ .msg m :: (zs ++ [z]) = (u ++ .msg m :: zs) ++ [z] by simp] at hl
      have hz := (List.append_inj' hl rfl).2
      simp only [List.cons.injEq, and_true] at hz
      rcases h2.mem (x := z) (by simp) with h | ⟨i, _, h⟩
      · cases h
      · rw [hz] at h; cases h
  finishes := by
    rintro c l m ⟨l0, hw, hc, _⟩ h0 hm
    rcases hw.mem hm with h | ⟨i, _, h⟩
    · exact Complete.finishes hc h0 h
    · cases h
  stores := by
    rintro c l m i b hg ⟨l0, hw, hc, _⟩ hs hm hok
    rcases hw.mem hm with h | ⟨i, _, h⟩
    · obtain ⟨p1, p2⟩ := Complete.stores hc hs h hok
      refine ⟨hw.of_mem p1, ?_⟩
      intro b' hb
      rcases hw.mem hb with h | ⟨i', he, h⟩
      · exact p2 b' h
      · cases h; exact absurd he.1 hg
    · cases h
  puts := by
    rintro c l i b ⟨l0, hw, hc, _⟩ hd hp
    rcases hw.mem hp with h | ⟨i', he, h⟩
    · exact .inl ((Complete.law hsize ro fr).mayStore trivial hc hd h)
    · cases h; exact .inr ⟨fun hg => hg he.1, rfl⟩
  delivers := by
    rintro c l m i b ⟨l0, hw, hc, _⟩ h0 hm hb
    rcases hw.mem hm with h | ⟨i', _, h⟩
    · exact hw.of_mem ((Complete.law hsize ro fr).delivers hc h0 h hb)
    · cases h

end

/-! ### The calls on a block file -/

theorem tree_home {ex : Export} (ht : has ex.flags F_TREEFILES = true) {a : Nat} (ha : a < ex.exportsize) {p : List Char}
    (hp : treeFilename ex.name ex.exportsize a = some p) {k : Nat} (hk : k < ex.exportsize) (hb : k / 4096 = a / 4096) :
    home ex k = some (.path p, k % 4096) := by
  have := (treeFilename_eq_iff ex.name ex.exportsize a k ha hk p hp).mpr hb.symm
  unfold home
  rw [ht, this]
  simp [TREEPAGESIZE]

/-- A handle that `open_treefile` returns for byte `a` of a writable export. -/
def HandleOf (ex : Export) (a : Nat) (h : Handle) : Prop :=
  h = .bad ∨ ∃ p, treeFilename ex.name ex.exportsize a = some p ∧ h = .file (.path p)

theorem block_run {a len k : Nat} (h : k < clip ((1 + a / TREEPAGESIZE) * TREEPAGESIZE - a) len) :
    (a + k) / 4096 = a / 4096 ∧ (a + k) % 4096 = a % 4096 + k := by
  have hmb : (1 + a / TREEPAGESIZE) * TREEPAGESIZE - a ≠ 0 := by simp only [TREEPAGESIZE]; omega
  have := (clip_lt h).resolve_left hmb
  simp only [TREEPAGESIZE] at this
  omega

theorem tree_pwrite {ex : Export} (ht : has ex.flags F_TREEFILES = true) {a : Nat} {buf : List Byte}
    (hr : a + buf.length ≤ ex.exportsize) (hlen : 0 < buf.length) {h : Handle} (hh : HandleOf ex a h) (w w' : World) (r : Option Nat)
    (heq : handlePwrite w h (a % TREEPAGESIZE)
      (buf.take (clip ((1 + a / TREEPAGESIZE) * TREEPAGESIZE - a) buf.length)) = (w', r)) :
    (r = none → SameContent w w') ∧ ∀ n, r = some n → n ≤ buf.length ∧ Stored ex w w' a (buf.take n) := by
  have hcl := clip_le ((1 + a / TREEPAGESIZE) * TREEPAGESIZE - a) buf.length
  have hbr : ∀ k, k < clip ((1 + a / TREEPAGESIZE) * TREEPAGESIZE - a) buf.length → _ := fun k hk => block_run hk
  generalize clip ((1 + a / TREEPAGESIZE) * TREEPAGESIZE - a) buf.length = cl at heq hcl hbr
  rcases hh with rfl | ⟨p, hp, rfl⟩
  · cases heq
    exact ⟨fun _ => fun _ => rfl, by simp⟩
  · simp only [handlePwrite, sysPwrite] at heq
    cases hf : w.files (.path p) with
    | none =>
      rw [hf] at heq
      cases heq
      exact ⟨fun _ => fun _ => rfl, by simp⟩
    | some f =>
      rw [hf] at heq
      cases hn : w.next with
      | err e =>
        rw [hn] at heq
        cases heq
        exact ⟨fun _ => fun _ => rfl, by simp⟩
      | done n =>
        rw [hn] at heq
        simp only [Prod.mk.injEq] at heq
        obtain ⟨rfl, rfl⟩ := heq
        refine ⟨by simp, ?_⟩
        intro m hm
        simp only [Option.some.injEq, List.length_take] at hm
        refine ⟨by omega, ?_⟩
        have htake : List.take n (List.take cl buf) = buf.take m := by
          rw [List.take_take]
          congr 1
          omega
        rw [htake]
        have hmlen : (buf.take m).length = m := by rw [List.length_take]; omega
        have hfile : ∀ k, k < cl → home ex (a + k) = some (.path p, a % TREEPAGESIZE + k) := by
          intro k hk
          obtain ⟨q1, q2⟩ := hbr k hk
          rw [tree_home ht (by omega) hp (by omega) q1, q2]
          rfl
        constructor
        · intro k hk
          rw [hmlen] at hk
          refine ⟨_, hfile k (by omega), ?_⟩
          rw [content_set]
          simp only [if_true, File.pwrite]
          rw [Flat.write_inside _ _ _ _ (by omega)]
        · intro x hx
          rw [content_set]
          split
          · rename_i hxid
            obtain ⟨i, o⟩ := x
            simp only at hxid
            subst hxid
            simp only [File.pwrite]
            rw [Flat.write_outside]
            · simp [content, hf]
            · rw [hmlen]
              by_cases ho : a % TREEPAGESIZE ≤ o ∧ o < a % TREEPAGESIZE + m
              · exfalso
                have hh := hfile (o - a % TREEPAGESIZE) (by omega)
                apply hx (o - a % TREEPAGESIZE) (by omega)
                rw [hh]
                congr 2
                omega
              · omega
          · rfl

theorem tree_pread {ex : Export} (ht : has ex.flags F_TREEFILES = true) {a len : Nat} (hr : a + len ≤ ex.exportsize)
    (hlen : 0 < len) {h : Handle} (hh : HandleOf ex a h) (w w' : World) (r : Option (List Byte))
    (heq : handlePread w h (a % TREEPAGESIZE) (clip ((1 + a / TREEPAGESIZE) * TREEPAGESIZE - a) len) = (w', r)) :
    SameContent w w' ∧ ∀ bs, r = some bs → bs.length ≤ len ∧ bs.length ≤ MAX_RW_COUNT ∧ bs = (view ex w).read a bs.length := by
  have hcl := clip_le ((1 + a / TREEPAGESIZE) * TREEPAGESIZE - a) len
  have hbr : ∀ k, k < clip ((1 + a / TREEPAGESIZE) * TREEPAGESIZE - a) len → _ := fun k hk => block_run hk
  generalize clip ((1 + a / TREEPAGESIZE) * TREEPAGESIZE - a) len = cl at heq hcl hbr
  rcases hh with rfl | ⟨p, hp, rfl⟩
  · cases heq
    exact ⟨fun _ => rfl, by simp⟩
  · simp only [handlePread, sysPread] at heq
    cases hf : w.files (.path p) with
    | none =>
      rw [hf] at heq
      cases heq
      exact ⟨fun _ => rfl, by simp⟩
    | some f =>
      rw [hf] at heq
      cases hn : w.next with
      | err e =>
        rw [hn] at heq
        cases heq
        exact ⟨fun _ => rfl, by simp⟩
      | done n =>
        rw [hn] at heq
        simp only [Prod.mk.injEq] at heq
        obtain ⟨rfl, rfl⟩ := heq
        refine ⟨fun _ => rfl, ?_⟩
        intro bs hbs
        cases hbs
        simp only [File.pread, Flat.read_length]
        refine ⟨by omega, by omega, ?_⟩
        apply List.ext_getElem?
        intro i
        rw [Flat.read_getElem?, Flat.read_getElem?]
        split
        · rename_i hi
          have hi' : i < cl := by omega
          obtain ⟨q1, q2⟩ := hbr i hi'
          unfold view
          rw [if_pos (by omega), tree_home ht (by omega) hp (by omega) q1]
          simp [content, hf, TREEPAGESIZE, q2]
        · rfl

/-- Opening a block file: a zero byte may be stored at the end of the block. -/
theorem openTreeP_good {ex : Export} (ht : has ex.flags F_TREEFILES = true) (hw : has ex.flags F_READONLY = false)
    {P Q : List Act → Prop} {E : Nat → Prop} {a : Nat} (ha : a < ex.exportsize) (hE : E (a / 4096 * 4096 + 4095))
    (k : Handle → Nat → Prog World) {l0 : List Act} (hQ : ∀ l, Woven E l0 l → Q l)
    (hk : ∀ h en l, HandleOf ex a h → Woven E l0 l → (k h en).Good (view ex) P Q l)
    (en : Nat) {l : List Act} (hl : Woven E l0 l) : (openTreeP ex a k en).Good (view ex) P Q l := by
  unfold openTreeP
  cases hp : treeFilename ex.name ex.exportsize a with
  | none => exact ⟨hQ l hl, by intro s s' a hf; cases hf⟩
  | some p =>
    dsimp only
    refine call_same (hQ l hl) ?_
    intro w w' h hf
    unfold openOld at hf
    cases hfile : w.files (.path p) with
    | some f =>
      rw [hfile] at hf
      dsimp only at hf
      cases hn : w.next with
      | done n =>
        rw [hn] at hf; cases hf
        exact ⟨fun _ => rfl, fun en' => hk _ _ _ (.inr ⟨p, hp, rfl⟩) hl⟩
      | err e =>
        rw [hn] at hf; cases hf
        exact ⟨fun _ => rfl, fun en' => hk _ _ _ (.inl rfl) hl⟩
    | none =>
      rw [hfile] at hf
      dsimp only at hf
      cases hn : w.next with
      | err e =>
        rw [hn] at hf; cases hf
        exact ⟨fun _ => rfl, fun en' => hk _ _ _ (.inl rfl) hl⟩
      | done n =>
        rw [hn] at hf; cases hf
        refine ⟨fun _ => rfl, fun en' => ?_⟩
        dsimp only
        rw [if_pos (by simp [hw])]
        refine call_same (hQ l hl) ?_
        clear hfile hn
        intro w w' u hf
        unfold openNew at hf
        have hsame : SameContent w w' := by
          cases hn : w.next with
          | err e => rw [hn] at hf; cases hf
          | done n =>
            rw [hn] at hf
            dsimp only at hf
            cases hfile : w.files (.path p) with
            | some f => rw [hfile] at hf; cases hf; exact fun _ => rfl
            | none =>
              rw [hfile] at hf; cases hf
              intro x
              rw [content_create]
              split
              · rename_i hx
                unfold content
                rw [hx, hfile]
                rfl
              · rfl
        refine ⟨hsame, fun en' => ?_⟩
        clear hsame hf
        refine call_good (hQ l hl) ?_
        intro w w' u hf
        unfold extend at hf
        cases hn : w.next with
        | err e => rw [hn] at hf; cases hf
        | done n =>
          rw [hn] at hf
          cases n with
          | zero => cases hf
          | succ n =>
            dsimp only at hf
            cases hfile : w.files (.path p) with
            | none =>
              rw [hfile] at hf; cases hf
              refine ⟨[], (by intro x hx; cases hx), .nil _, fun en' => ?_⟩
              rw [List.append_nil]
              exact hk _ _ _ (.inr ⟨p, hp, rfl⟩) hl
            | some f =>
              rw [hfile] at hf; cases hf
              by_cases hin : a / 4096 * 4096 + 4095 < ex.exportsize
              · refine ⟨[.put (a / 4096 * 4096 + 4095) 0], ?_, ?_, fun en' => hk _ _ _ (.inr ⟨p, hp, rfl⟩) (hl.put hE)⟩
                · intro x hx m hm
                  simp only [List.mem_singleton] at hx
                  rw [hx] at hm; cases hm
                · have hst : view ex (w.step.set (.path p) (f.pwrite (TREEPAGESIZE - 1) [0])) =
                      (view ex w).write (a / 4096 * 4096 + 4095) [0] := by
                    funext i
                    rw [Flat.write_apply]
                    unfold view
                    by_cases hi : i < ex.exportsize
                    · rw [if_pos hi, if_pos hi]
                      cases hx : home ex i with
                      | none =>
                        have : i ≠ a / 4096 * 4096 + 4095 := by
                          rintro rfl
                          rw [tree_home ht ha hp hi (by omega)] at hx
                          cases hx
                        rw [dif_neg (by simp only [List.length_singleton]; omega)]
                      | some x =>
                        obtain ⟨id, o⟩ := x
                        dsimp only
                        rw [content_set]
                        by_cases hid : id = .path p
                        · subst hid
                          rw [if_pos rfl]
                          have hh := hx
                          unfold home at hh
                          rw [ht, if_pos rfl] at hh
                          simp only [Option.map_eq_some_iff, Prod.mk.injEq, FileId.path.injEq] at hh
                          obtain ⟨q, hq, rfl, rfl⟩ := hh
                          have hblk := (treeFilename_eq_iff ex.name ex.exportsize a i ha hi _ hp).mp hq
                          simp only [File.pwrite, TREEPAGESIZE]
                          rw [Flat.write_apply]
                          by_cases he : i = a / 4096 * 4096 + 4095
                          · rw [dif_pos (by simp only [List.length_singleton]; omega),
                              dif_pos (by simp only [List.length_singleton]; omega)]
                            simp
                          · rw [dif_neg (by simp only [List.length_singleton]; omega),
                              dif_neg (by simp only [List.length_singleton]; omega)]
                            simp [content, hfile]
                        · rw [if_neg hid, content_step]
                          have : i ≠ a / 4096 * 4096 + 4095 := by
                            rintro rfl
                            rw [tree_home ht ha hp hi (by omega)] at hx
                            cases hx
                            exact hid rfl
                          rw [dif_neg (by simp only [List.length_singleton]; omega)]
                    · rw [if_neg hi, if_neg hi, dif_neg (by simp only [List.length_singleton]; omega)]
                  rw [hst]
                  exact legal_puts _ _ [0]
              · refine ⟨[], (by intro x hx; cases hx), ?_, fun en' => ?_⟩
                · have hst : view ex (w.step.set (.path p) (f.pwrite (TREEPAGESIZE - 1) [0])) = view ex w := by
                    funext i
                    unfold view
                    by_cases hi : i < ex.exportsize
                    · rw [if_pos hi, if_pos hi]
                      cases hx : home ex i with
                      | none => rfl
                      | some x =>
                        obtain ⟨id, o⟩ := x
                        dsimp only
                        rw [content_set]
                        by_cases hid : id = .path p
                        · subst hid
                          rw [if_pos rfl]
                          have hh := hx
                          unfold home at hh
                          rw [ht, if_pos rfl] at hh
                          simp only [Option.map_eq_some_iff, Prod.mk.injEq, FileId.path.injEq] at hh
                          obtain ⟨q, hq, rfl, rfl⟩ := hh
                          have hblk := (treeFilename_eq_iff ex.name ex.exportsize a i ha hi _ hp).mp hq
                          simp only [File.pwrite, TREEPAGESIZE]
                          rw [Flat.write_apply, dif_neg (by simp only [List.length_singleton]; omega)]
                          simp [content, hfile]
                        · rw [if_neg hid]
                          rfl
                    · rw [if_neg hi, if_neg hi]
                  rw [hst]
                  exact .nil _
                · rw [List.append_nil]
                  exact hk _ _ _ (.inr ⟨p, hp, rfl⟩) hl

/-! ### Writes -/

theorem writeFullyT_good {ex : Export} (hg : GoodExport ex) (ht : has ex.flags F_TREEFILES = true)
    (hw : has ex.flags F_READONLY = false) {P Q : List Act → Prop} {E : Nat → Prop} (fua : Bool)
    (k : Bool → Nat → Prog World) (a0 : Nat) (full : List Byte) (l0 : List Act)
    (hr : a0 + full.length ≤ ex.exportsize)
    (hE : ∀ x, a0 ≤ x → x < a0 + full.length → E (x / 4096 * 4096 + 4095))
    (hQ : ∀ d rest l, d ++ rest = full → Woven E (l0 ++ puts a0 d) l → Q l)
    (hk : ∀ ok en d rest l, d ++ rest = full → (ok = true → rest = []) → Woven E (l0 ++ puts a0 d) l →
      (k ok en).Good (view ex) P Q l)
    (n : Nat) : ∀ (d buf : List Byte) (en : Nat) (l : List Act), buf.length = n → d ++ buf = full →
      Woven E (l0 ++ puts a0 d) l → (writeFullyT ex fua k (a0 + d.length) buf en).Good (view ex) P Q l := by
  induction n using Nat.strongRecOn with
  | _ n ih =>
    intro d buf en l hn hd hl
    unfold writeFullyT
    have hsz := hg.size
    have hlen : d.length + buf.length = full.length := by rw [← hd, List.length_append]
    split
    · rename_i h0
      exact hk _ _ d buf l hd (fun _ => List.eq_nil_of_length_eq_zero h0) hl
    · rename_i h0
      rw [if_neg (by omega)]
      refine openTreeP_good ht hw (by omega) (hE _ (by omega) (by omega)) _ (fun l => hQ d buf l hd) ?_ en hl
      clear hl l en
      intro h en l hh hl
      have hsync : ∀ (l : List Act) (next : Nat → Prog World), Q l → (∀ en, (next en).Good (view ex) P Q l) →
          ∀ en, (if has ex.flags F_SYNC || fua then
            call (fun w => .val (handleSyncIgnored w h, ())) en fun _ en => next en
            else next en).Good (view ex) P Q l := by
        intro l next hq hn en
        split
        · refine call_same hq ?_
          intro w w' a hh
          cases hh
          exact ⟨handleSyncIgnored_content w h, hn⟩
        · exact hn en
      refine call_good (hQ d buf l hd hl) ?_
      intro w w' r hf
      simp only [Out.val.injEq] at hf
      obtain ⟨s1, s2⟩ := tree_pwrite ht (by omega) (by omega) hh w w' r hf
      cases r with
      | none =>
        refine ⟨[], (by intro x hx; cases hx), by rw [(s1 rfl).view ex]; exact .nil _, fun en' => ?_⟩
        rw [List.append_nil]
        exact hsync l (fun en => k false en) (hQ d buf l hd hl) (fun en => hk _ _ d buf l hd (by simp) hl) en'
      | some m =>
        obtain ⟨t1, t2⟩ := s2 m rfl
        have hview := t2.view hg (by rw [List.length_take]; omega)
        cases m with
        | zero =>
          refine ⟨[], (by intro x hx; cases hx), ?_, fun en' => ?_⟩
          · rw [hview]
            have : (view ex w).write (a0 + d.length) (buf.take 0) = view ex w := by
              funext i; simp [Flat.write_apply]
            rw [this]; exact .nil _
          · rw [List.append_nil]
            exact hsync l (fun en => k false en) (hQ d buf l hd hl) (fun en => hk _ _ d buf l hd (by simp) hl) en'
        | succ m =>
          refine ⟨puts (a0 + d.length) (buf.take (m + 1)), puts_quiet _ _, ?_, fun en' => ?_⟩
          · rw [hview]; exact legal_puts _ _ _
          · have hl' := hl.snoc (puts (a0 + d.length) (buf.take (m + 1)))
            rw [List.append_assoc, ← puts_append] at hl'
            have hsplit : (d ++ buf.take (m + 1)) ++ buf.drop (m + 1) = full := by
              rw [List.append_assoc, List.take_append_drop, hd]
            have hlt : (d ++ buf.take (m + 1)).length = d.length + (m + 1) := by
              rw [List.length_append, List.length_take, Nat.min_eq_left t1]
            refine hsync _ (fun en => writeFullyT ex fua k (a0 + d.length + (m + 1)) (buf.drop (m + 1)) en)
              (hQ _ _ _ hsplit hl') (fun en => ?_) en'
            have := ih (buf.drop (m + 1)).length (by rw [List.length_drop]; omega)
              (d ++ buf.take (m + 1)) (buf.drop (m + 1)) en _ rfl hsplit hl'
            rw [hlt, ← Nat.add_assoc] at this
            exact this

/-! ### Write-zeroes -/

theorem writeZeroesT_good {ex : Export} (hg : GoodExport ex) (ht : has ex.flags F_TREEFILES = true)
    (hw : has ex.flags F_READONLY = false) {P Q : List Act → Prop} {E : Nat → Prop} (fua : Bool)
    (k : Bool → Nat → Prog World) (start len : Nat) (hr : start + len ≤ ex.exportsize)
    (hE : ∀ x, start ≤ x → x < start + len → E (x / 4096 * 4096 + 4095))
    (hQ : ∀ l0 l, Zeroing start len l0 → Woven E l0 l → Q l)
    (hk : ∀ ok en l0 l, Zeroing start len l0 → Woven E l0 l →
      (ok = true → puts start (Flat.zeros (min len ZEROCHUNK)) <+: l0 ∧
        (len ≤ ZEROCHUNK → l0 = puts start (Flat.zeros len))) →
      (k ok en).Good (view ex) P Q l)
    (n : Nat) : ∀ (l0 l : List Act) (en : Nat), n ≤ len → Zeroing start len l0 → Woven E l0 l →
      (n = len ∧ l0 = []) ∨ (puts start (Flat.zeros (min len ZEROCHUNK)) <+: l0 ∧
        (len ≤ ZEROCHUNK → n = 0 ∧ l0 = puts start (Flat.zeros len))) →
      (writeZeroesT ex fua k start n en).Good (view ex) P Q l := by
  induction n using Nat.strongRecOn with
  | _ n ih =>
    intro l0 l en hn hz hl hl0
    unfold writeZeroesT
    split
    · rename_i h0
      refine hk _ _ _ _ hz hl ?_
      intro _
      rcases hl0 with ⟨h1, h2⟩ | ⟨h1, h2⟩
      · subst h2
        have : len = 0 := by omega
        subst this
        exact ⟨List.prefix_refl _, fun _ => rfl⟩
      · exact ⟨h1, fun hsm => (h2 hsm).2⟩
    · rename_i h0
      have hzl : (Flat.zeros (min n ZEROCHUNK)).length = min n ZEROCHUNK := by simp [Flat.zeros]
      have hpre : ∀ d rest, d ++ rest = Flat.zeros (min n ZEROCHUNK) →
          d = Flat.zeros d.length ∧ d.length ≤ len := by
        intro d rest hd
        have hlen := congrArg List.length hd
        rw [hzl, List.length_append] at hlen
        refine ⟨?_, by omega⟩
        unfold Flat.zeros at hd ⊢
        apply List.eq_replicate_iff.mpr
        refine ⟨rfl, ?_⟩
        intro b hb
        have : b ∈ List.replicate (min n ZEROCHUNK) (0 : Byte) := by
          rw [← hd]; exact List.mem_append_left _ hb
        exact List.eq_of_mem_replicate this
      have hzd : ∀ d rest, d ++ rest = Flat.zeros (min n ZEROCHUNK) →
          Zeroing start len (l0 ++ puts start d) := by
        intro d rest hd
        obtain ⟨h1, h2⟩ := hpre d rest hd
        rw [h1]
        exact Zeroing.append hz (zeroing_puts start len start _ (by omega) (by omega))
      have := writeFullyT_good hg ht hw (P := P) (Q := Q) (E := E) fua
        (fun ok en => if ok then writeZeroesT ex fua k start (n - min n ZEROCHUNK) en else k false en)
        start (Flat.zeros (min n ZEROCHUNK)) l0 (by rw [hzl]; omega)
        (by intro x h1 h2; rw [hzl] at h2; exact hE x h1 (by omega))
        (fun d rest l hd hl => hQ _ l (hzd d rest hd) hl) ?_ (min n ZEROCHUNK) [] _ en l hzl rfl
        (by simpa [puts] using hl)
      · simpa using this
      · intro ok en d rest l hd hok hl
        have hz' := hzd d rest hd
        cases ok with
        | false => exact hk _ _ _ _ hz' hl (by simp)
        | true =>
          have hrest := hok rfl
          subst hrest
          rw [List.append_nil] at hd
          have hpos : 0 < ZEROCHUNK := by decide
          rw [if_pos rfl]
          refine ih _ (by omega) _ _ _ (by omega) hz' hl ?_
          right
          rcases hl0 with ⟨h1, h2⟩ | ⟨h1, h2⟩
          · rw [h2, hd, List.nil_append, h1]
            exact ⟨List.prefix_refl _, fun hsm => ⟨by omega, by rw [Nat.min_eq_left hsm]⟩⟩
          · exact ⟨h1.trans (List.prefix_append _ _), fun hsm => absurd (h2 hsm).1 h0⟩

/-! ### Reads -/

theorem preadOnce_of {ex : Export} {r : Req} {st : Bool} {c : ReadCtx}
    {d : List Byte} {l : List Act} (hi : Reading r st c d l) {h : Handle} (w w' : World)
    (hh : ∀ w1 y, handlePread w h ((c.start + c.curOff) % TREEPAGESIZE)
        (clip ((1 + (c.start + c.curOff) / TREEPAGESIZE) * TREEPAGESIZE - (c.start + c.curOff)) c.curLen) = (w1, y) →
      SameContent w w1 ∧ ∀ bs, y = some bs → bs.length ≤ c.curLen ∧ bs.length ≤ MAX_RW_COUNT ∧
        bs = (view ex w).read (c.start + c.curOff) bs.length)
    (x : Option (ReadCtx × List Byte × Nat)) (heq : preadOnce c h w = .val (w', x)) :
    (x = none → SameContent w w') ∧
    ∀ c' bs n, x = some (c', bs, n) → SameContent w w' ∧ bs.length = n + 1 ∧
      bs = (view ex w).read (r.start + d.length) bs.length ∧ bs.length + 8 < 2 ^ 32 ∧
      d.length + bs.length ≤ r.len ∧
      c'.start = c.start ∧ c'.reqLen = c.reqLen ∧ c'.structured = c.structured ∧ c'.df = c.df ∧
      (st = false → c'.buf = (d ++ bs).map some ++ List.replicate (r.len - (d ++ bs).length) none) := by
  have hlen := hi.len
  unfold preadOnce at heq
  dsimp only at heq
  cases hq : handlePread w h ((c.start + c.curOff) % TREEPAGESIZE)
      (clip ((1 + (c.start + c.curOff) / TREEPAGESIZE) * TREEPAGESIZE - (c.start + c.curOff)) c.curLen) with
  | mk w1 y =>
    obtain ⟨hs, hb⟩ := hh w1 y hq
    rw [hq] at heq
    cases y with
    | none => cases heq; exact ⟨fun _ => hs, by simp⟩
    | some y =>
      cases y with
      | nil => cases heq; exact ⟨fun _ => hs, by simp⟩
      | cons b bs =>
        obtain ⟨hle, hmax, hbs⟩ := hb _ rfl
        have hch : c.chunked = st := by
          unfold ReadCtx.chunked; rw [hi.structured, hi.df]; simp
        obtain ⟨c', k0, k1, k2, k3, k4, k5, k6⟩ := deliver_spec c (b :: bs) hle (by
          intro hc
          rw [hch] at hc
          rw [(hi.buf hc).2, hi.off, List.length_append, List.length_map, List.length_replicate]
          omega)
        dsimp only at heq
        rw [k0] at heq
        cases heq
        refine ⟨by simp, ?_⟩
        intro c2 bs2 n2 hx
        cases hx
        refine ⟨hs, by simp, ?_, ?_, ?_, k1, k2, k3, k4, ?_⟩
        · rw [hi.start, hi.off] at hbs; exact hbs
        · have : MAX_RW_COUNT + 8 < 2 ^ 32 := by decide
          omega
        · omega
        · intro hst
          rw [(k5 (by rw [hch]; exact hst)).1, (hi.buf hst).2, hi.off]
          unfold bufSet
          rw [List.take_left' (by simp), List.drop_append]
          simp only [List.length_map, List.map_append, List.length_append, List.drop_replicate]
          rw [List.drop_of_length_le (by simp), List.nil_append]
          congr 2
          omega

theorem preadOnce_spec {ex : Export} (ht : has ex.flags F_TREEFILES = true) {r : Req} {st : Bool} {c : ReadCtx}
    {d : List Byte} {l : List Act} (hi : Reading r st c d l) (hr : r.start + r.len ≤ ex.exportsize)
    (h0 : c.curLen ≠ 0) {h : Handle} (hh : HandleOf ex (c.start + c.curOff) h) (w w' : World)
    (x : Option (ReadCtx × List Byte × Nat)) (heq : preadOnce c h w = .val (w', x)) :
    (x = none → SameContent w w') ∧
    ∀ c' bs n, x = some (c', bs, n) → SameContent w w' ∧ bs.length = n + 1 ∧
      bs = (view ex w).read (r.start + d.length) bs.length ∧ bs.length + 8 < 2 ^ 32 ∧
      d.length + bs.length ≤ r.len ∧
      c'.start = c.start ∧ c'.reqLen = c.reqLen ∧ c'.structured = c.structured ∧ c'.df = c.df ∧
      (st = false → c'.buf = (d ++ bs).map some ++ List.replicate (r.len - (d ++ bs).length) none) :=
  preadOnce_of hi w w' (fun w1 y => tree_pread ht (by have := hi.len; rw [hi.start, hi.off]; omega) (by omega) hh w w1 y) x heq

/-- What was done can be completed. -/
def PartialT (size : Nat) (ro : Bool) (framing : List Bool) (c : Cmd) (l : List Act) : Prop :=
  ∃ more, CompleteT size ro framing c (l ++ more)

section
variable {e : Endian} {size : Nat} {ro : Bool} {r : Req} {p : Payload} {st : Bool}

theorem Reading.permittedT {c : ReadCtx} {d : List Byte} {l0 l : List Act}
    (hc : (cmdOf r p).code = 0) (hr : r.start + r.len ≤ size) (hi : Reading r st c d l0) (hl : Woven (Edge (cmdOf r p)) l0 l) :
    PartialT size ro [st] (cmdOf r p) l := by
  obtain ⟨m, _, _, h⟩ := read_fails (e := .little) (ro := ro) hc hr d (by have := hi.len; omega) l0 hi.seen 0
    d.length (fun h => by rw [List.take_length]; exact hi.chunks h) (fun h => (hi.buf h).1)
  exact ⟨_, .of hl h⟩

theorem edge_of {x : Nat} (h1 : r.start ≤ x) (h2 : x < r.start + r.len) : Edge (cmdOf r p) (x / 4096 * 4096 + 4095) :=
  ⟨by omega, x, h1, h2, by omega⟩

theorem readFullyT_good {ex : Export} (hg : GoodExport ex) (ht : has ex.flags F_TREEFILES = true)
    (hw : has ex.flags F_READONLY = false) (hsz : size = ex.exportsize)
    (hc : (cmdOf r p).code = 0) (hr : r.start + r.len ≤ size) (lg : Bool)
    (k : ReadCtx → Bool → Nat → Prog World)
    (hk : ∀ c d l0 l ok en, Reading r st c d l0 → Woven (Edge (cmdOf r p)) l0 l → (ok = true → c.curLen = 0) →
      (k c ok en).Good (view ex) (CompleteT size ro [st] (cmdOf r p))
        (PartialT size ro [st] (cmdOf r p)) l)
    (n : Nat) : ∀ (c : ReadCtx) (d : List Byte) (l0 l : List Act) (en : Nat), c.curLen = n →
      Reading r st c d l0 → Woven (Edge (cmdOf r p)) l0 l →
      (readFullyT e ex r.cookie lg k c en).Good (view ex) (CompleteT size ro [st] (cmdOf r p))
        (PartialT size ro [st] (cmdOf r p)) l := by
  induction n using Nat.strongRecOn with
  | _ n ih =>
    intro c d l0 l en hn hi hl
    have hlen := hi.len
    have hgs := hg.size
    unfold readFullyT
    split
    · rename_i h0
      exact hk _ _ _ _ _ _ hi hl (fun _ => h0)
    · rename_i h0
      have hst := hi.start
      have hoff := hi.off
      rw [if_neg (by omega)]
      refine openTreeP_good ht hw (by omega) (edge_of (by omega) (by omega)) _ (fun l hl => hi.permittedT hc hr hl) ?_ en hl
      clear hl l en
      intro h en l hh hl
      refine call_good (hi.permittedT hc hr hl) ?_
      intro w w' x hf
      obtain ⟨s1, s2⟩ := preadOnce_spec ht hi (by omega) h0 hh w w' x hf
      cases x with
      | none =>
        refine ⟨[], (by intro x hx; cases hx), by rw [(s1 rfl).view ex]; exact .nil _, ?_⟩
        rw [List.append_nil]
        exact fun en' => hk _ _ _ _ _ _ hi hl (by simp)
      | some x =>
        obtain ⟨c', bs, m⟩ := x
        obtain ⟨t1, t2, t3, t4, t5, t6, t7, t8, t9, t10⟩ := s2 c' bs m rfl
        refine ⟨gets (r.start + d.length) bs, gets_quiet _ _, ?_, ?_⟩
        · rw [t1.view ex]; exact legal_gets _ _ _ t3
        · intro en'
          have hch : c.chunked = st := by
            unfold ReadCtx.chunked; rw [hi.structured, hi.df]; simp
          have hl' := hl.snoc (gets (r.start + d.length) bs)
          have hacc : Act.accesses (l0 ++ gets (r.start + d.length) bs) = gets r.start (d ++ bs) := by
            rw [accesses_append, hi.seen, accesses_quiet (gets_quiet _ _), gets_append]
          have hmsg : Act.msgs (l0 ++ gets (r.start + d.length) bs) = Act.msgs l0 := by
            rw [msgs_append, msgs_quiet (gets_quiet _ _), List.append_nil]
          have hcur : (d ++ bs).length + (c.curLen - (m + 1)) = r.len := by
            rw [List.length_append]; omega
          dsimp only
          cases st with
          | false =>
            rw [hch, if_neg (by simp)]
            refine ih _ ?_ _ (d ++ bs) _ _ _ rfl ?_ hl'
            · dsimp only; omega
            · refine ⟨?_, ?_, ?_, ?_, ?_, ?_, ?_, by simp, ?_⟩
              · exact t6.trans hi.start
              · exact t7.trans hi.reqLen
              · exact t8.trans hi.structured
              · exact t9.trans hi.df
              · dsimp only; rw [hi.off, List.length_append, t2]
              · exact hcur
              · exact hacc
              · intro _
                exact ⟨by rw [hmsg]; exact (hi.buf rfl).1, t10 rfl⟩
          | true =>
            rw [hch, if_pos rfl]
            obtain ⟨cs, q1, q2⟩ := hi.chunks rfl
            have hpend : PartialT size ro [true] (cmdOf r p) (l ++ gets (r.start + d.length) bs) := by
              obtain ⟨mm, _, _, h⟩ := read_fails (e := .little) (ro := ro) (st := true) hc hr (d ++ bs)
                (by rw [List.length_append]; omega) _ hacc 0 d.length
                (fun _ => ⟨cs, by rw [List.take_left' rfl]; exact q1, by rw [hmsg]; exact q2⟩)
                (fun h => by cases h)
              exact ⟨_, .of hl' h⟩
            have hnext : Reading r true { c' with curOff := c.curOff + (m + 1), curLen := c.curLen - (m + 1) }
                (d ++ bs) (l0 ++ gets (r.start + d.length) bs ++
                  [.msg (dataMsg e r.cookie (c.start + c.curOff, bs))]) := by
              refine ⟨?_, ?_, ?_, ?_, ?_, ?_, ?_, ?_, by simp⟩
              · exact t6.trans hi.start
              · exact t7.trans hi.reqLen
              · exact t8.trans hi.structured
              · exact t9.trans hi.df
              · dsimp only; rw [hi.off, List.length_append, t2]
              · exact hcur
              · rw [accesses_snoc, hacc]
              · intro _
                refine ⟨cs ++ [(r.start + d.length, bs)], Tiles.snoc q1 (by intro hh; rw [hh] at t2; cases t2) t4, ?_⟩
                rw [msgs_snoc, hmsg, List.map_append, q2, List.map_append]
                congr 1
                simp only [List.map_cons, List.map_nil]
                rw [hi.start, hi.off]
                rw [dataMsg_bytes'' e r.cookie _ t4 (by have := hg.size; dsimp only; omega)]
            have hl'' := hl'.snoc [.msg (dataMsg e r.cookie (c.start + c.curOff, bs))]
            have hrest := fun en => ih _ (by dsimp only; omega) _ (d ++ bs) _ _ en rfl hnext hl''
            unfold sendChunkP
            refine ⟨hpend, ?_⟩
            split
            · exact ⟨hnext.permittedT hc hr hl'', hrest _⟩
            · exact hrest _

theorem readT_good {cl : Client} (hg : GoodExport cl.ex) (ht : has cl.ex.flags F_TREEFILES = true)
    (hw : has cl.ex.flags F_READONLY = false) (hc : (cmdOf r p).code = 0)
    (hdf : has r.type CMD_FLAG_DF = false)
    (hr : r.start + r.len ≤ cl.ex.exportsize) (lg : Bool) (en : Nat) :
    (readT e cl lg r en).Good (view cl.ex)
      (CompleteT cl.ex.exportsize ro [cl.structured] (cmdOf r p))
      (PartialT cl.ex.exportsize ro [cl.structured] (cmdOf r p)) [] := by
  unfold readT
  simp only [hdf, Bool.and_false, Bool.false_and, Bool.false_eq_true, if_false, Bool.false_or]
  refine readFullyT_good hg ht hw rfl hc hr lg _ ?_ r.len _ [] [] [] en rfl ?_ .nil
  · intro c d l0 l ok en hi hl hok
    have hq := hi.permittedT (ro := ro) hc hr hl
    have hsz := hg.size
    have hlen := hi.len
    unfold completeReadP completeRead
    rw [hi.structured, hi.df]
    have hchunk : ∀ m, Complete cl.ex.exportsize ro [cl.structured] (cmdOf r p) (l0 ++ [.msg m]) →
        (sendChunksP lg [m] (.done en)).Good (view cl.ex)
          (CompleteT cl.ex.exportsize ro [cl.structured] (cmdOf r p))
          (PartialT cl.ex.exportsize ro [cl.structured] (cmdOf r p)) l := by
      intro m hm
      have hm' := CompleteT.of hl hm
      unfold sendChunksP sendChunkP sendChunksP
      refine ⟨hq, ?_⟩
      split
      · exact ⟨⟨[], by rw [List.append_nil]; exact hm'⟩, hm'⟩
      · exact hm'
    cases ok with
    | false =>
      obtain ⟨m, m1, m2, hm⟩ := read_fails (e := e) (ro := ro) hc hr d (by omega) l0 hi.seen en
        d.length (fun h => by rw [List.take_length]; exact hi.chunks h) (fun h => (hi.buf h).1)
      cases hst : cl.structured with
      | true =>
        rw [hst] at hchunk hm
        simp only [Bool.false_and, Bool.false_eq_true, if_false, if_true, List.nil_append]
        rw [← m1 hst]
        exact hchunk m hm
      | false =>
        rw [hst] at hm hq
        simp only [Bool.false_eq_true, if_false]
        rw [← m2 hst]
        exact sendReplyP_good hq (.of hl hm)
    | true =>
      have hcur := hok rfl
      cases hst : cl.structured with
      | true =>
        rw [hst] at hchunk
        simp only [Bool.false_and, Bool.false_eq_true, if_false, if_true, List.nil_append]
        refine hchunk _ ?_
        obtain ⟨cs, q1, q2⟩ := hi.chunks hst
        refine ⟨cs.map (fun x => dataChunk r.cookie x.1 x.2) ++ [doneChunk r.cookie], ?_, ?_, l0, _, rfl⟩
        · rw [msgs_snoc, List.map_append, List.map_append, q2, List.map_map, List.map_cons,
            List.map_nil, doneMsg_bytes]
          rfl
        · rw [accesses_snoc, hi.seen]
          exact .read d _ hc hr (by show d.length = r.len; omega) true (by simp) (.structured cs q1)
      | false =>
        rw [hst] at hq
        simp only [Bool.false_eq_true, if_false, if_true]
        obtain ⟨q1, q2⟩ := hi.buf hst
        have hd : d.length = r.len := by omega
        rw [q2, hd, Nat.sub_self, List.replicate_zero, List.append_nil, allInit_map]
        refine sendReplyP_good hq (.of hl (Complete.single q1 (simple_bytes_zero e _ _) ?_))
        rw [hi.seen]
        exact .read d _ hc hr hd false (by simp) .simple
  · refine ⟨rfl, rfl, rfl, rfl, rfl, by simp, rfl, fun _ => ⟨[], .nil _, rfl⟩, ?_⟩
    intro hst
    refine ⟨rfl, ?_⟩
    simp [hst]

end

/-! ### Every request -/

/-- The program for any request does what its command says. -/
theorem requestT_good (e : Endian) (cl : Client) (hcl : Treefile cl) (hwr : has cl.ex.flags F_READONLY = false) (lg : Bool)
    (en : Nat) (j : Job) (hj : j.Wf) :
    (requestT e cl lg en j.req j.payload).Good (view cl.ex)
      (CompleteT cl.ex.exportsize (badWrite cl) [cl.structured] (cmdOf j.req j.payload))
      (PartialT cl.ex.exportsize (badWrite cl) [cl.structured] (cmdOf j.req j.payload)) [] := by
  obtain ⟨id, r, p⟩ := j
  have hlen : r.len < 2 ^ 32 := hj.len
  have hg := hcl.plain.good
  have hsz := hg.size
  have hsplit : ∀ n : Nat, ((cmdOf r p).code ∉ [0, 1, 3, 4, 6] ∨
        ((cmdOf r p).code ∈ [1, 4, 6] ∧ badWrite cl = true) ∨
        ((cmdOf r p).code ∈ [0, 1, 4, 6] ∧ cl.ex.exportsize < (cmdOf r p).start + (cmdOf r p).len)) →
      (sendReplyP lg (simpleMsg e r (some (nbdErrno e n))) (.done en)).Good (view cl.ex)
        (CompleteT cl.ex.exportsize (badWrite cl) [cl.structured] (cmdOf r p))
        (PartialT cl.ex.exportsize (badWrite cl) [cl.structured] (cmdOf r p)) [] := by
    intro n why
    have hm : Complete cl.ex.exportsize (badWrite cl) [cl.structured] (cmdOf r p)
        ([] ++ [.msg (simpleMsg e r (some (nbdErrno e n)))]) := by
      refine Complete.single rfl (r := .simple (errnoWire n).toNat r.cookie []) ?_
        (.refused _ (errnoWire_toNat_mem _) why)
      unfold simpleMsg
      rw [Option.getD_some, nbdErrno_eq, simple_bytes]
    exact sendReplyP_good ⟨_, .of .nil hm⟩ (.of .nil hm)
  have hanswer : ∀ (ok : Bool) (en : Nat) (l0 l : List Act), Woven (Edge (cmdOf r p)) l0 l → Act.msgs l0 = [] →
      (ok = true → Does cl.ex.exportsize (badWrite cl) [cl.structured] (cmdOf r p)
        (Act.accesses l0) [.simple 0 r.cookie []]) →
      (ok = false → ∀ err ∈ errnos, Does cl.ex.exportsize (badWrite cl) [cl.structured] (cmdOf r p)
        (Act.accesses l0) [.simple err r.cookie []]) →
      (answerP e lg r ok en).Good (view cl.ex)
        (CompleteT cl.ex.exportsize (badWrite cl) [cl.structured] (cmdOf r p))
        (PartialT cl.ex.exportsize (badWrite cl) [cl.structured] (cmdOf r p)) l := by
    intro ok en l0 l hl hm h1 h2
    have : Complete cl.ex.exportsize (badWrite cl) [cl.structured] (cmdOf r p)
        (l0 ++ [.msg (simpleMsg e r (if ok = true then none else some (nbdErrno e en)))]) := by
      cases ok with
      | true =>
        refine Complete.single hm (r := .simple 0 r.cookie []) ?_ (h1 rfl)
        exact simple_bytes_zero e _ _
      | false =>
        refine Complete.single hm (r := .simple (errnoWire en).toNat r.cookie []) ?_
          (h2 rfl _ (errnoWire_toNat_mem _))
        unfold simpleMsg
        rw [if_neg (by simp), Option.getD_some, nbdErrno_eq, simple_bytes]
    exact sendReplyP_good ⟨_, .of hl this⟩ (.of hl this)
  show (requestT e cl lg en r p).Good _ _ _ []
  unfold requestT
  dsimp only
  split
  · rename_i hf
    refine hsplit _ (.inl ?_)
    have : ¬ r.type < 262144 := by omega
    simp [cmdOf, this]
  · rename_i hf
    have hty : r.type < 262144 := by omega
    have hcode : (cmdOf r p).code = r.type % 65536 := by simp [cmdOf, hty]
    have hrange : ∀ h : badRange cl r = true, cl.ex.exportsize < r.start + r.len := by
      intro h
      unfold badRange at h
      simp only [gt_iff_lt, Bool.or_eq_true, decide_eq_true_eq] at h
      rcases h with h | h
      · omega
      · have := Nat.mod_le (r.start + r.len) (2 ^ 64); omega
    have hin : ∀ h : ¬ badRange cl r = true, r.start + r.len ≤ cl.ex.exportsize := by
      intro h
      exact inRange hg hlen (by simpa using h)
    split
    · rename_i ht
      have hc0 : (cmdOf r p).code = 0 := by rw [hcode, ht]; rfl
      split
      · rename_i hb
        exact hsplit _ (.inr (.inr ⟨by rw [hc0]; simp, hrange hb⟩))
      · rename_i hb
        exact readT_good hg hcl.tree hwr hc0 (has_df_of_flags (by omega)) (hin hb) lg en
    · split
      · rename_i ht
        have hc1 : (cmdOf r p).code = 1 := by rw [hcode, ht]; rfl
        split
        · rename_i hb
          exact hsplit _ (.inr (.inl ⟨by rw [hc1]; simp, hb⟩))
        · rename_i hb
          have hb' : badWrite cl = false := by simpa using hb
          split
          · rename_i hbr
            exact hsplit _ (.inr (.inr ⟨by rw [hc1]; simp, hrange hbr⟩))
          · rename_i hbr
            have hrr := hin hbr
            obtain ⟨bs, hp, hbl⟩ := hj.data ht
            change p = .data bs at hp
            subst hp
            change bs.length = r.len at hbl
            have hwf : ∀ (d rest : List Byte), d ++ rest = bs → ∀ err ∈ errnos,
                Does cl.ex.exportsize (badWrite cl) [cl.structured] (cmdOf r (.data bs))
                  (puts r.start d) [.simple err r.cookie []] := by
              intro d rest hd err herr
              have := Does.writeFails (size := cl.ex.exportsize) (ro := badWrite cl)
                (framing := [cl.structured]) (c := cmdOf r (.data bs)) hc1 hb' hrr err d.length herr
              have htake : (cmdOf r (.data bs)).data.take d.length = d := by
                show bs.take d.length = d
                rw [← hd, List.take_left' rfl]
              rw [htake] at this
              exact this
            have hmsg : ∀ d : List Byte, Act.msgs ([] ++ puts r.start d) = [] := by
              intro d; rw [List.nil_append, msgs_quiet (puts_quiet _ _)]
            have hacc : ∀ d : List Byte, Act.accesses ([] ++ puts r.start d) = puts r.start d := by
              intro d; rw [List.nil_append, accesses_quiet (puts_quiet _ _)]
            have := writeFullyT_good hg hcl.tree hwr
              (P := CompleteT cl.ex.exportsize (badWrite cl) [cl.structured] (cmdOf r (.data bs)))
              (Q := PartialT cl.ex.exportsize (badWrite cl) [cl.structured] (cmdOf r (.data bs)))
              (E := Edge (cmdOf r (.data bs)))
              (has r.type CMD_FLAG_FUA) (answerP e lg r) r.start bs [] (by omega)
              (by intro x h1 h2; exact edge_of h1 (by omega))
              (by
                intro d rest l hd hl
                refine ⟨[.msg ⟨simpleHdr e (nbdErrno e 0) r.cookie, []⟩], .of hl ?_⟩
                refine Complete.single (hmsg d) (r := .simple (errnoWire 0).toNat r.cookie []) ?_ ?_
                · rw [nbdErrno_eq, simple_bytes]
                · rw [hacc]; exact hwf d rest hd _ (errnoWire_toNat_mem _))
              (by
                intro ok en d rest l hd hok hl
                refine hanswer ok en _ _ hl (hmsg d) ?_ ?_
                · intro h
                  have := hok h
                  subst this
                  rw [List.append_nil] at hd
                  subst hd
                  rw [hacc]
                  exact .write hc1 hb' hrr
                · intro h err herr
                  rw [hacc]
                  exact hwf d rest hd err herr)
              bs.length [] bs en [] rfl rfl .nil
            simpa using this
      · split
        · rename_i ht
          have hc3 : (cmdOf r p).code = 3 := by rw [hcode, ht]; rfl
          have hq : PartialT cl.ex.exportsize (badWrite cl) [cl.structured] (cmdOf r p) [] :=
            ⟨[.msg ⟨simpleHdr e 0 r.cookie, []⟩],
              .of .nil (Complete.single (l := []) rfl (simple_bytes_zero e _ _) (.flush hc3 0 (.inl rfl)))⟩
          refine call_same hq ?_
          intro w w' ok hf
          simp only [Out.val.injEq] at hf
          have hs := expflush_same cl w
          rw [hf] at hs
          refine ⟨hs, fun en' => ?_⟩
          refine hanswer ok en' [] [] .nil rfl (fun _ => .flush hc3 0 (.inl rfl)) ?_
          intro _ err herr
          exact .flush hc3 err (.inr herr)
        · split
          · rename_i ht
            have hc4 : (cmdOf r p).code = 4 := by rw [hcode, ht]; rfl
            split
            · rename_i hb
              exact hsplit _ (.inr (.inl ⟨by rw [hc4]; simp, hb⟩))
            · rename_i hb
              have hb' : badWrite cl = false := by simpa using hb
              split
              · rename_i hbr
                exact hsplit _ (.inr (.inr ⟨by rw [hc4]; simp, hrange hbr⟩))
              · rename_i hbr
                have hrr := hin hbr
                have hz0 : Zeroing r.start r.len [] := by intro x hx; cases hx
                refine call_good ⟨[.msg ⟨simpleHdr e 0 r.cookie, []⟩],
                    .of .nil (Complete.single rfl (simple_bytes_zero e _ _) (.trim hc4 hb' hrr [] hz0))⟩ ?_
                intro w w' u hf
                cases hx : exptrim cl w r.start r.len with
                | ub => rw [hx] at hf; cases hf
                | exit => rw [hx] at hf; cases hf
                | val w1 =>
                  rw [hx] at hf
                  cases hf
                  obtain ⟨h1, h2⟩ := ((exptrim_trimmed cl hg w r.start r.len hrr).2 _ hx).view
                  obtain ⟨es, z1, z2⟩ := legal_zeroing r.start r.len _ _ h1 h2
                  refine ⟨es, Zeroing.quiet z1, z2, fun en' => ?_⟩
                  rw [List.nil_append]
                  refine hanswer true en' es es (.refl _) (msgs_quiet (Zeroing.quiet z1)) ?_ (by simp)
                  intro _
                  rw [accesses_quiet (Zeroing.quiet z1)]
                  exact .trim hc4 hb' hrr es z1
          · split
            · rename_i ht
              have hc6 : (cmdOf r p).code = 6 := by rw [hcode, ht]; rfl
              split
              · rename_i hb
                exact hsplit _ (.inr (.inl ⟨by rw [hc6]; simp, hb⟩))
              · rename_i hb
                have hb' : badWrite cl = false := by simpa using hb
                split
                · rename_i hbr
                  exact hsplit _ (.inr (.inr ⟨by rw [hc6]; simp, hrange hbr⟩))
                · rename_i hbr
                  have hrr := hin hbr
                  refine writeZeroesT_good hg hcl.tree hwr (E := Edge (cmdOf r p)) _ _ r.start r.len hrr
                    (fun x h1 h2 => edge_of h1 h2) ?_ ?_ r.len [] [] en
                    (by omega) (by intro x hx; cases hx) .nil (.inl ⟨rfl, rfl⟩)
                  · intro l0 l hz hl
                    refine ⟨[.msg ⟨simpleHdr e (nbdErrno e 0) r.cookie, []⟩], .of hl ?_⟩
                    refine Complete.single (msgs_quiet (Zeroing.quiet hz))
                      (r := .simple (errnoWire 0).toNat r.cookie []) ?_ ?_
                    · rw [nbdErrno_eq, simple_bytes]
                    · rw [accesses_quiet (Zeroing.quiet hz)]
                      exact .zeroesFails hc6 hb' hrr _ l0 hz (errnoWire_toNat_mem _)
                  · intro ok en l0 l hz hl hok
                    refine hanswer ok en l0 l hl (msgs_quiet (Zeroing.quiet hz)) ?_ ?_
                    · intro hh
                      rw [accesses_quiet (Zeroing.quiet hz)]
                      by_cases hsm : r.len ≤ ZEROCHUNK
                      · rw [(hok hh).2 hsm]
                        exact .zeroes hc6 hb' hrr hsm
                      · refine .zeroesBig hc6 hb' hrr (Nat.lt_of_not_le hsm) l0 hz fun i h1 h2 => ?_
                        exact zeroes_first (hok hh).1 (by omega) h1 h2
                    · intro _ err herr
                      rw [accesses_quiet (Zeroing.quiet hz)]
                      exact .zeroesFails hc6 hb' hrr _ l0 hz herr
            · rename_i h0 h1 h3 h4 h6
              refine hsplit _ (.inl ?_)
              rw [hcode]
              simp only [List.mem_cons, List.not_mem_nil, or_false, not_or]
              exact ⟨h0, h1, h3, h4, h6⟩

/-- The server for a writable tree export meets its specification. -/
theorem treeServer_meets (e : Endian) (cl : Client) (hcl : Treefile cl) (hwr : has cl.ex.flags F_READONLY = false) (lg : Bool) :
    (treeServer e cl lg).Meets (view cl.ex) Job.Wf
      (fun j => CompleteT cl.ex.exportsize (badWrite cl) [cl.structured] (cmdOf j.req j.payload))
      (fun j => PartialT cl.ex.exportsize (badWrite cl) [cl.structured] (cmdOf j.req j.payload)) := by
  refine ⟨?_, fun en j hj => requestT_good e cl hcl hwr lg en j hj, ?_, fun _ l h => ⟨[], by rw [List.append_nil]; exact h⟩⟩
  · intro n r p st st' stream rest h
    exact fetch_wf e cl hcl.splice _ _ _ _ _ _ _ h
  · intro st st' stream x h
    have := fetch_files e cl _ _ _ _ h
    unfold view content
    rw [this]

end Nbd
