import Verif.CowLemmas
/-! # Failing system calls: an operation that reports success has seen no system call fail -/

set_option autoImplicit false

namespace Nbd

/-- No system call between `w` and `w'` failed. -/
structure Unfailing (w w' : World) : Prop where
  orc : w'.orc = w.orc
  le : w.tick ≤ w'.tick
  fine : ∀ t, w.tick ≤ t → t < w'.tick → ∃ n, w.orc t = .done n

theorem Unfailing.refl (w : World) : Unfailing w w := ⟨rfl, Nat.le_refl _, fun t h1 h2 => by omega⟩

theorem Unfailing.trans {a b c : World} (h1 : Unfailing a b) (h2 : Unfailing b c) : Unfailing a c := by
  refine ⟨h2.orc.trans h1.orc, Nat.le_trans h1.le h2.le, ?_⟩
  intro t ha hc
  by_cases hb : t < b.tick
  · exact h1.fine t ha hb
  · obtain ⟨n, h⟩ := h2.fine t (by omega) hc
    exact ⟨n, by rw [← h1.orc]; exact h⟩

/-- One system call that succeeded. -/
theorem Unfailing.one {w w' : World} {n : Nat} (h : w.next = .done n) (ho : w'.orc = w.orc) (ht : w'.tick = w.tick + 1) :
    Unfailing w w' := by
  refine ⟨ho, by omega, ?_⟩
  intro t h1 h2
  have : t = w.tick := by omega
  subst this
  exact ⟨n, h⟩

theorem sysPread_quiet {w w' : World} {id : FileId} {off len : Nat} {bs : List Byte}
    (h : sysPread w id off len = (w', some bs)) : Unfailing w w' := by
  unfold sysPread at h
  split at h
  · cases h
  · split at h
    · cases h
    · rename_i n hn
      cases h
      exact .one hn rfl rfl

theorem handlePread_quiet {w w' : World} {hd : Handle} {off len : Nat} {bs : List Byte}
    (h : handlePread w hd off len = (w', some bs)) : Unfailing w w' := by
  unfold handlePread at h
  split at h
  · exact sysPread_quiet h
  · cases h
  · split at h
    · cases h
    · rename_i n hn
      cases h
      exact .one hn rfl rfl

theorem sysPwrite_quiet {w w' : World} {id : FileId} {off k : Nat} {bs : List Byte}
    (h : sysPwrite w id off bs = (w', some k)) : Unfailing w w' := by
  unfold sysPwrite at h
  split at h
  · cases h
  · split at h
    · cases h
    · rename_i n hn
      cases h
      exact .one hn rfl rfl

theorem handlePwrite_quiet {w w' : World} {hd : Handle} {off k : Nat} {bs : List Byte}
    (h : handlePwrite w hd off bs = (w', some k)) : Unfailing w w' := by
  unfold handlePwrite at h
  split at h
  · exact sysPwrite_quiet h
  · cases h
  · split at h
    · cases h
    · rename_i n hn
      cases h
      exact .one hn rfl rfl

theorem sysFsync_quiet {w w' : World} {id : FileId} (h : sysFsync w id = (w', true)) : Unfailing w w' := by
  unfold sysFsync at h
  split at h
  · cases h
  · split at h
    · cases h
    · rename_i n hn
      cases h
      exact .one hn rfl rfl

theorem openTreefile_quiet {w w' : World} {name : List Char} {rdwr : Bool} {size pos : Nat} {hd : Handle}
    (h : openTreefile w name rdwr size pos = .val (w', hd)) (hb : hd ≠ .bad) : Unfailing w w' := by
  unfold openTreefile at h
  split at h
  · cases h
  · rename_i p hp
    split at h
    · split at h
      · rename_i n hn
        cases h
        exact .one hn rfl rfl
      · cases h
        exact absurd rfl hb
    · split at h
      · cases h
        exact absurd rfl hb
      · rename_i n hn
        have q1 : Unfailing w (w.fail ENOENT) := .one hn rfl rfl
        dsimp only at h
        split at h
        · split at h
          · cases h
          · rename_i n2 hn2
            have q2 : Unfailing (w.fail ENOENT) ((w.fail ENOENT).step.create p (File.clean (fun _ => 0) 0)) := .one hn2 rfl rfl
            split at h
            · cases h
            · cases h
            · rename_i n3 hn3
              cases h
              exact (q1.trans q2).trans (.one hn3 rfl rfl)
        · split at h
          · cases h
          · rename_i n2 hn2
            cases h
            exact q1.trans (.one hn2 rfl rfl)

theorem getFilepos_quiet {ex : Export} {w w' : World} {a off mx : Nat} {hd : Handle}
    (h : getFilepos ex w a = .val (w', some (hd, off, mx))) (hb : hd ≠ .bad) : Unfailing w w' := by
  unfold getFilepos at h
  split at h
  · cases h
  · split at h
    · split at h
      · rename_i w1 hd1 hq
        cases h
        exact openTreefile_quiet hq hb
      · cases h
      · cases h
    · split at h
      · cases h
      · split at h
        · cases h
        · split at h
          · cases h
          · split at h
            · cases h
              exact .refl _
            · cases h
              exact .refl _

theorem rawexpread_quiet {ex : Export} {w w' : World} {a len : Nat} {bs : List Byte}
    (h : rawexpread ex w a len = .val (w', some bs)) : Unfailing w w' := by
  unfold rawexpread at h
  split at h
  · cases h
  · cases h
  · cases h
  · rename_i w1 hd off mx hq
    simp only [Out.val.injEq] at h
    have hb : hd ≠ .bad := by
      rintro rfl
      cases h
    exact (getFilepos_quiet hq hb).trans (handlePread_quiet h)

theorem rawexpwrite_quiet {ex : Export} {w w' : World} {a k : Nat} {bs : List Byte} (hs : has ex.flags F_SYNC = false)
    (h : rawexpwrite ex w a bs false = .val (w', some k)) : Unfailing w w' := by
  unfold rawexpwrite at h
  split at h
  · cases h
  · cases h
  · cases h
  · rename_i w1 hd off mx hq
    simp only [hs, Bool.or_self, Bool.false_eq_true, if_false, Out.val.injEq] at h
    have hb : hd ≠ .bad := by
      rintro rfl
      cases h
    exact (getFilepos_quiet hq hb).trans (handlePwrite_quiet h)

theorem rawexpreadFully_quiet (ex : Export) (w : World) (c : ReadCtx) : ∀ (w' : World) (c' : ReadCtx),
    rawexpreadFully ex w c = .val (w', c', true) → Unfailing w w' := by
  fun_induction rawexpreadFully ex w c with
  | case1 => intro w' c' h; cases h; exact .refl _
  | case2 => intro w' c' h; cases h
  | case3 => intro w' c' h; cases h
  | case4 => intro w' c' h; cases h
  | case5 => intro w' c' h; cases h
  | case6 => intro w' c' h; cases h
  | case7 => intro w' c' h; cases h
  | case8 w c h w1 b bs hq c1 hd ih =>
    intro w' c' h'
    exact (rawexpread_quiet hq).trans (ih _ _ h')

theorem rawexpwriteFully_quiet (ex : Export) (hs : has ex.flags F_SYNC = false) (w : World) (a : Nat) (bs : List Byte) :
    ∀ (w' : World), rawexpwriteFully ex w a bs false = .val (w', true) → Unfailing w w' := by
  fun_induction rawexpwriteFully ex w a bs false with
  | case1 => intro w' h; cases h; exact .refl _
  | case2 => intro w' h; cases h
  | case3 => intro w' h; cases h
  | case4 => intro w' h; cases h
  | case5 => intro w' h; cases h
  | case6 w a bs h w1 n hq ih =>
    intro w' h'
    exact (rawexpwrite_quiet hs hq).trans (ih _ h')

theorem pageIn_quiet (ex : Export) (w : World) (pb : List (Option Byte)) (ps dn rdlen : Nat) :
    ∀ (w' : World) (pb' : List (Option Byte)), pageIn ex w pb ps dn rdlen = .val (w', pb', true) → Unfailing w w' := by
  fun_induction pageIn ex w pb ps dn rdlen with
  | case1 => intro w' pb' h; cases h; exact .refl _
  | case2 => intro w' pb' h; cases h
  | case3 => intro w' pb' h; cases h
  | case4 => intro w' pb' h; cases h
  | case5 w pb ps dn rdlen h w1 hq => intro w' pb' h; cases h; exact rawexpread_quiet hq
  | case6 w pb ps dn rdlen h w1 b bs hq ih =>
    intro w' pb' h'
    exact (rawexpread_quiet hq).trans (ih _ _ h')

theorem expreadPages_quiet (cl : Client) (n : Nat) : ∀ (w : World) (c : ReadCtx) (mapcnt a len : Nat) (w' : World) (c' : ReadCtx),
    expreadPages cl n w c mapcnt a len = .val (w', c', true) → Unfailing w w' := by
  induction n with
  | zero => intro w c mapcnt a len w' c' h; cases h; exact .refl _
  | succ n ih =>
    intro w c mapcnt a len w' c' h
    unfold expreadPages at h
    dsimp only at h
    split at h
    · cases h
    · split at h
      · split at h
        · cases h
        · rename_i w1 bs hq
          split at h
          · cases h
          · cases h
          · split at h
            · cases h
            · exact (sysPread_quiet hq).trans (ih _ _ _ _ _ _ _ h)
      · split at h
        · cases h
        · split at h
          · cases h
          · cases h
          · cases h
          · rename_i w1 c1 hq
            exact (rawexpreadFully_quiet _ _ _ _ _ hq).trans (ih _ _ _ _ _ _ _ h)

theorem expread_quiet (cl : Client) (w : World) (c : ReadCtx) (w' : World) (c' : ReadCtx)
    (h : expread cl w c = .val (w', c', true)) : Unfailing w w' := by
  unfold expread at h
  split at h
  · exact expreadPages_quiet _ _ _ _ _ _ _ _ _ h
  · exact rawexpreadFully_quiet _ _ _ _ _ h

theorem expwritePages_quiet (n : Nat) : ∀ (cl : Client) (w : World) (pb : List (Option Byte)) (mapcnt a : Nat) (bs : List Byte)
    (cl' : Client) (w' : World), expwritePages n cl w pb mapcnt a bs = .val (cl', w', true) → Unfailing w w' := by
  induction n with
  | zero => intro cl w pb mapcnt a bs cl' w' h; cases h; exact .refl _
  | succ n ih =>
    intro cl w pb mapcnt a bs cl' w' h
    unfold expwritePages at h
    dsimp only at h
    split at h
    · cases h
    · split at h
      · split at h
        · cases h
        · rename_i w1 k hq
          split at h
          · cases h
          · exact (sysPwrite_quiet hq).trans (ih _ _ _ _ _ _ _ _ h)
      · split at h
        · cases h
        · split at h
          · cases h
          · cases h
          · cases h
          · rename_i w1 pb1 hq
            have q1 : Unfailing w w1 := by
              split at hq
              · exact pageIn_quiet _ _ _ _ _ _ _ _ hq
              · cases hq; exact .refl _
            split at h
            · cases h
            · split at h
              · cases h
              · rename_i w2 cl2 k hq2
                split at h
                · cases h
                · have q2 : Unfailing w1 w2 := by
                    unfold diffAppend at hq2
                    split at hq2
                    · cases hq2
                    · rename_i hp
                      cases hq2
                      exact sysPwrite_quiet hp
                  exact (q1.trans q2).trans (ih _ _ _ _ _ _ _ _ h)

theorem expwrite_quiet (cl : Client) (hs : has cl.ex.flags F_SYNC = false) (w : World) (a : Nat) (bs : List Byte) (cl' : Client)
    (w' : World) (h : expwrite cl w a bs false = .val (cl', w', true)) : Unfailing w w' := by
  unfold expwrite at h
  split at h
  · split at h
    · cases h
    · cases h
    · cases h
    · rename_i cl1 w1 hq
      have q := expwritePages_quiet _ _ _ _ _ _ _ _ _ hq
      split at h
      · rename_i hsy
        have := (expwritePages_keptOff _ _ _ _ _ _ _ _ _ _ hq).2.ex
        rw [this, hs] at hsy
        cases hsy
      · cases h
        exact q
  · split at h
    · cases h
    · cases h
    · rename_i w1 ok hq
      cases h
      exact rawexpwriteFully_quiet _ hs _ _ _ _ hq

theorem flushFiles_quiet : ∀ (fs : List FileInfo) (w w' : World), flushFiles fs w = (w', true) → Unfailing w w'
  | [], w, w', h => by cases h; exact .refl _
  | fi :: rest, w, w', h => by
    unfold flushFiles at h
    split at h
    · cases h
    · rename_i w1 hq
      exact (sysFsync_quiet hq).trans (flushFiles_quiet rest _ _ h)

end Nbd
