import Verif.SafeLemmas
/-! # Copy-on-write: which files a request can change -/

set_option autoImplicit false

namespace Nbd

/-- Apart from the file `d` nothing changed, except that on tree exports (`tree`) a block that did not exist may now
exist, holding zeroes (which is how a missing block reads). -/
def KeptOff (d : Nat) (tree : Bool) (w w' : World) : Prop :=
  ∀ id, id ≠ .fd d → w'.files id = w.files id ∨
    (tree = true ∧ w.files id = none ∧ ∃ f, w'.files id = some f ∧ ∀ o, f.data o = 0)

theorem KeptOff.refl (d : Nat) (tree : Bool) (w : World) : KeptOff d tree w w := fun _ _ => .inl rfl

theorem KeptOff.trans {d : Nat} {tree : Bool} {w1 w2 w3 : World} (h1 : KeptOff d tree w1 w2)
    (h2 : KeptOff d tree w2 w3) : KeptOff d tree w1 w3 := by
  intro id hid
  rcases h1 id hid with a | ⟨a1, a2, f, a3, a4⟩ <;> rcases h2 id hid with b | ⟨b1, b2, g, b3, b4⟩
  · exact .inl (b.trans a)
  · exact .inr ⟨b1, a ▸ b2, g, b3, b4⟩
  · exact .inr ⟨a1, a2, f, b ▸ a3, a4⟩
  · rw [a3] at b2; cases b2

theorem KeptOff.of_files {d : Nat} {tree : Bool} {w w' : World} (h : w'.files = w.files) :
    KeptOff d tree w w' := fun _ _ => .inl (by rw [h])

theorem KeptOff.of_set {d : Nat} {tree : Bool} {w w' : World} (f : File)
    (h : w'.files = (w.set (.fd d) f).files) : KeptOff d tree w w' := by
  intro id hid
  left
  rw [h, World.set_files_ne _ _ hid]

theorem KeptOff.content {d : Nat} {tree : Bool} {w w' : World} (h : KeptOff d tree w w') (x : FileId × Nat)
    (hx : x.1 ≠ .fd d) : content w' x = content w x := by
  unfold Nbd.content
  rcases h x.1 hx with a | ⟨_, a2, f, a3, a4⟩
  · rw [a]
  · rw [a2, a3]; exact a4 _


theorem sysPwrite_keptOff (d : Nat) (tree : Bool) (w : World) (off : Nat) (bs : List Byte) :
    KeptOff d tree w (sysPwrite w (.fd d) off bs).1 := by
  unfold sysPwrite
  split
  · exact .of_files rfl
  · split
    · exact .of_files rfl
    · exact .of_set _ rfl

theorem sysFsync_keptOff (d : Nat) (tree : Bool) (w : World) : KeptOff d tree w (sysFsync w (.fd d)).1 := by
  unfold sysFsync
  split
  · exact .of_files rfl
  · split
    · exact .of_files rfl
    · exact .of_set _ rfl

theorem openTreefile_keptOff (d : Nat) (w : World) (name : List Char) (rdwr : Bool) (size pos : Nat) (w' : World)
    (h : Handle) (hq : openTreefile w name rdwr size pos = .val (w', h)) : KeptOff d true w w' := by
  unfold openTreefile at hq
  split at hq
  · cases hq
  · rename_i p hp
    split at hq
    · split at hq
      · cases hq; exact .of_files rfl
      · cases hq; exact .of_files rfl
    · rename_i hn
      split at hq
      · cases hq; exact .of_files rfl
      · simp only [] at hq
        split at hq
        · split at hq
          · cases hq
          · split at hq
            · cases hq
            · cases hq
            · cases hq
              intro id hid
              by_cases hpid : id = .path p
              · subst hpid
                refine .inr ⟨rfl, hn, _, World.set_files_same _ _ _, ?_⟩
                intro o
                simp only [File.pwrite, File.clean, Flat.write]
                split
                · rcases o - (TREEPAGESIZE - 1) with _ | k <;> simp
                · rfl
              · left
                rw [World.set_files_ne _ _ hpid, World.step_files, World.create_files, World.set_files_ne _ _ hpid]
                rfl
        · split at hq
          · cases hq
          · cases hq; exact .of_files rfl

theorem getFilepos_keptOff (d : Nat) (ex : Export) (w : World) (a : Nat) (w' : World)
    (r : Option (Handle × Nat × Nat)) (hq : getFilepos ex w a = .val (w', r)) :
    KeptOff d (has ex.flags F_TREEFILES) w w' := by
  unfold getFilepos at hq
  split at hq
  · cases hq; exact .refl _ _ _
  · split at hq
    · rename_i ht
      rw [ht]
      split at hq
      · rename_i ho
        cases hq
        exact openTreefile_keptOff d _ _ _ _ _ _ _ ho
      · cases hq
      · cases hq
    · split at hq
      · cases hq
      · split at hq
        · cases hq
        · split at hq
          · cases hq
          · split at hq <;> cases hq <;> exact .refl _ _ _


theorem rawexpread_keptOff (d : Nat) (ex : Export) (w : World) (a len : Nat) (w' : World) (r : Option (List Byte))
    (hq : rawexpread ex w a len = .val (w', r)) : KeptOff d (has ex.flags F_TREEFILES) w w' := by
  unfold rawexpread at hq
  split at hq
  · cases hq
  · cases hq
  · rename_i hg
    cases hq
    exact getFilepos_keptOff d _ _ _ _ _ hg
  · rename_i w1 h off mb hg
    simp only [Out.val.injEq] at hq
    refine (getFilepos_keptOff d _ _ _ _ _ hg).trans (.of_files ?_)
    have := handlePread_files w1 h off (clip mb len)
    rw [hq] at this
    exact this

theorem rawexpreadFully_keptOff (d : Nat) (ex : Export) (w : World) (c : ReadCtx) (w' : World) (c' : ReadCtx)
    (ok : Bool) (h : rawexpreadFully ex w c = .val (w', c', ok)) : KeptOff d (has ex.flags F_TREEFILES) w w' := by
  fun_induction rawexpreadFully ex w c with
  | case1 => cases h; exact .refl _ _ _
  | case2 => cases h
  | case3 => cases h
  | case4 w c hl w1 hq => cases h; exact rawexpread_keptOff d _ _ _ _ _ _ hq
  | case5 w c hl w1 hq => cases h; exact rawexpread_keptOff d _ _ _ _ _ _ hq
  | case6 => cases h
  | case7 => cases h
  | case8 w c hl w1 b bs hq c1 hd ih => exact (rawexpread_keptOff d _ _ _ _ _ _ hq).trans (ih h)

theorem expreadPages_keptOff (d : Nat) (cl : Client) (n : Nat) (w : World) (c : ReadCtx) (mapcnt a len : Nat)
    (w' : World) (c' : ReadCtx) (ok : Bool)
    (h : expreadPages cl n w c mapcnt a len = .val (w', c', ok)) : KeptOff d (has cl.ex.flags F_TREEFILES) w w' := by
  fun_induction expreadPages cl n w c mapcnt a len with
  | case1 => cases h; exact .refl _ _ _
  | case2 => cases h
  | case3 n w c mapcnt a len off rdlen m hm hne w1 hp =>
    cases h
    refine .of_files ?_
    have := sysPread_files w (.fd cl.difffile) (diffOffset m off) rdlen
    rw [hp] at this; exact this
  | case4 => cases h
  | case5 => cases h
  | case6 n w c mapcnt a len off rdlen m hm hne w1 bs hp c1 hd hlen =>
    cases h
    refine .of_files ?_
    have := sysPread_files w (.fd cl.difffile) (diffOffset m off) rdlen
    rw [hp] at this; exact this
  | case7 n w c mapcnt a len off rdlen m hm hne w1 bs hp c1 hd hlen ih =>
    refine KeptOff.trans (.of_files ?_) (ih h)
    have := sysPread_files w (.fd cl.difffile) (diffOffset m off) rdlen
    rw [hp] at this; exact this
  | case8 => cases h; exact .refl _ _ _
  | case9 => cases h
  | case10 => cases h
  | case11 n w c mapcnt a len off rdlen m hm hne hw w1 c1 hq =>
    cases h
    exact rawexpreadFully_keptOff d _ _ _ _ _ _ hq
  | case12 n w c mapcnt a len off rdlen m hm hne hw w1 c1 hq ih =>
    exact (rawexpreadFully_keptOff d _ _ _ _ _ _ hq).trans (ih h)

theorem expread_keptOff (d : Nat) (cl : Client) (w : World) (c : ReadCtx) (w' : World) (c' : ReadCtx)
    (ok : Bool) (h : expread cl w c = .val (w', c', ok)) : KeptOff d (has cl.ex.flags F_TREEFILES) w w' := by
  unfold expread at h
  split at h
  · exact expreadPages_keptOff d _ _ _ _ _ _ _ _ _ _ h
  · exact rawexpreadFully_keptOff d _ _ _ _ _ _ h

theorem pageIn_keptOff (d : Nat) (ex : Export) (w : World) (pb : List (Option Byte)) (ps dn rdlen : Nat) (w' : World)
    (pb' : List (Option Byte)) (ok : Bool) (h : pageIn ex w pb ps dn rdlen = .val (w', pb', ok)) :
    KeptOff d (has ex.flags F_TREEFILES) w w' := by
  fun_induction pageIn ex w pb ps dn rdlen with
  | case1 => cases h; exact .refl _ _ _
  | case2 => cases h
  | case3 => cases h
  | case4 => cases h; exact rawexpread_keptOff d _ _ _ _ _ _ ‹_›
  | case5 => cases h; exact rawexpread_keptOff d _ _ _ _ _ _ ‹_›
  | case6 w pb ps dn rdlen hl w1 b bs hq ih => exact (rawexpread_keptOff d _ _ _ _ _ _ hq).trans (ih h)

theorem diffAppend_keptOff (cl : Client) (tree : Bool) (w : World) (bs : List Byte) :
    KeptOff cl.difffile tree w (diffAppend cl w bs).1 ∧ (diffAppend cl w bs).2.1.ex = cl.ex ∧
      (diffAppend cl w bs).2.1.difffile = cl.difffile ∧ (diffAppend cl w bs).2.1.waiting = cl.waiting ∧
      (diffAppend cl w bs).2.1.structured = cl.structured ∧ (diffAppend cl w bs).2.1.tls = cl.tls := by
  have h := sysPwrite_keptOff cl.difffile tree w cl.diffpos bs
  unfold diffAppend
  split
  · rename_i hp; rw [hp] at h; exact ⟨h, rfl, rfl, rfl, rfl, rfl⟩
  · rename_i hp; rw [hp] at h; exact ⟨h, rfl, rfl, rfl, rfl, rfl⟩

/-- What a request never changes about the client. -/
structure SameSeat (cl cl' : Client) : Prop where
  ex : cl'.ex = cl.ex
  difffile : cl'.difffile = cl.difffile
  waiting : cl'.waiting = cl.waiting
  structured : cl'.structured = cl.structured
  tls : cl'.tls = cl.tls

theorem SameSeat.refl (cl : Client) : SameSeat cl cl := ⟨rfl, rfl, rfl, rfl, rfl⟩
theorem SameSeat.trans {a b c : Client} (h1 : SameSeat a b) (h2 : SameSeat b c) : SameSeat a c :=
  ⟨h2.1.trans h1.1, h2.2.trans h1.2, h2.3.trans h1.3, h2.4.trans h1.4, h2.5.trans h1.5⟩

theorem expwritePages_keptOff (n : Nat) (cl : Client) (w : World) (pb : List (Option Byte)) (mapcnt a : Nat)
    (buf : List Byte) (cl' : Client) (w' : World) (ok : Bool)
    (h : expwritePages n cl w pb mapcnt a buf = .val (cl', w', ok)) :
    KeptOff cl.difffile (has cl.ex.flags F_TREEFILES) w w' ∧ SameSeat cl cl' := by
  induction n generalizing cl w pb mapcnt a buf with
  | zero => simp only [expwritePages] at h; cases h; exact ⟨.refl _ _ _, .refl _⟩
  | succ n ih =>
    rw [expwritePages] at h
    simp only [] at h
    split at h
    · cases h
    · rename_i m hm
      split at h
      · have hk := sysPwrite_keptOff cl.difffile (has cl.ex.flags F_TREEFILES) w
          (diffOffset m (a - mapcnt * DIFFPAGESIZE))
          (List.take (pageLen (a - mapcnt * DIFFPAGESIZE) buf.length) buf)
        split at h
        · rename_i hp; rw [hp] at hk; cases h; exact ⟨hk, .refl _⟩
        · rename_i hp
          rw [hp] at hk
          split at h
          · cases h; exact ⟨hk, .refl _⟩
          · obtain ⟨i1, i2⟩ := ih _ _ _ _ _ _ h
            exact ⟨hk.trans i1, i2⟩
      · split at h
        · cases h; exact ⟨.refl _ _ _, rfl, rfl, rfl, rfl, rfl⟩
        · split at h
          · cases h
          · cases h
          · rename_i hf
            cases h
            refine ⟨?_, rfl, rfl, rfl, rfl, rfl⟩
            split at hf
            · exact pageIn_keptOff _ _ _ _ _ _ _ _ _ _ hf
            · cases hf
          · rename_i w1 pb1 hf
            have hk1 : KeptOff cl.difffile (has cl.ex.flags F_TREEFILES) w w1 := by
              split at hf
              · exact pageIn_keptOff _ _ _ _ _ _ _ _ _ _ hf
              · cases hf; exact .refl _ _ _
            split at h
            · cases h
            · rename_i page _
              obtain ⟨k1, k2, k3, k4, k5, k6⟩ := diffAppend_keptOff { cl with
                difmap := cl.difmap.set mapcnt (if has cl.ex.flags F_SPARSE then mapcnt % 2 ^ 32 else cl.difffilelen)
                difffilelen := if has cl.ex.flags F_SPARSE then cl.difffilelen else (cl.difffilelen + 1) % 2 ^ 32 }
                (has cl.ex.flags F_TREEFILES) w1 page
              split at h
              · rename_i hd
                rw [hd] at k1 k2 k3 k4 k5 k6
                cases h
                exact ⟨hk1.trans k1, k2, k3, k4, k5, k6⟩
              · rename_i cl2 _ hd
                rw [hd] at k1 k2 k3 k4 k5 k6
                simp only [] at k1 k2 k3 k4 k5 k6
                split at h
                · cases h
                  exact ⟨hk1.trans k1, k2, k3, k4, k5, k6⟩
                · obtain ⟨i1, i2⟩ := ih _ _ _ _ _ _ h
                  rw [k3, k2] at i1
                  exact ⟨(hk1.trans k1).trans i1, SameSeat.trans ⟨k2, k3, k4, k5, k6⟩ i2⟩

theorem expwrite_keptOff (cl : Client) (hcow : cl.paged = true) (w : World) (a : Nat)
    (buf : List Byte) (fua : Bool) (cl' : Client) (w' : World) (ok : Bool)
    (h : expwrite cl w a buf fua = .val (cl', w', ok)) :
    KeptOff cl.difffile (has cl.ex.flags F_TREEFILES) w w' ∧ SameSeat cl cl' := by
  unfold expwrite at h
  rw [hcow, if_pos rfl] at h
  split at h
  · cases h
  · cases h
  · rename_i hq
    cases h
    exact expwritePages_keptOff _ _ _ _ _ _ _ _ _ _ hq
  · rename_i hq
    obtain ⟨h1, h2⟩ := expwritePages_keptOff _ _ _ _ _ _ _ _ _ _ hq
    split at h
    · cases h
      refine ⟨h1.trans ?_, h2⟩
      rw [← h2.difffile]
      exact sysFsync_keptOff _ _ _
    · cases h; exact ⟨h1, h2⟩

theorem SameSeat.paged {cl cl' : Client} (h : SameSeat cl cl') : cl'.paged = cl.paged := by
  unfold Client.paged; rw [h.ex, h.waiting]

theorem expwriteZeroes_keptOff (cl : Client) (hcow : cl.paged = true) (w : World)
    (a len : Nat) (fua : Bool) (cl' : Client) (w' : World) (ok : Bool)
    (h : expwriteZeroes cl w a len fua = .val (cl', w', ok)) :
    KeptOff cl.difffile (has cl.ex.flags F_TREEFILES) w w' ∧ SameSeat cl cl' := by
  fun_induction expwriteZeroes cl w a len fua with
  | case1 => cases h; exact ⟨.refl _ _ _, .refl _⟩
  | case2 => cases h
  | case3 => cases h
  | case4 cl w len hl l cl1 w1 hq => cases h; exact expwrite_keptOff _ hcow _ _ _ _ _ _ _ hq
  | case5 cl w len hl l cl1 w1 hq ih =>
    obtain ⟨h1, h2⟩ := expwrite_keptOff _ hcow _ _ _ _ _ _ _ hq
    obtain ⟨h3, h4⟩ := ih (by rw [h2.paged]; exact hcow) h
    rw [h2.difffile, h2.ex] at h3
    exact ⟨h1.trans h3, h2.trans h4⟩

/-- Is the payload in a pipe? (only on exports that use splice) -/
def Payload.piped : Payload → Bool
  | .pipe _ => true
  | _ => false

theorem handleRequest_keptOff (e : Endian) (cl : Client) (hcow : has cl.ex.flags F_COPYONWRITE = true)
    (hns : has cl.ex.flags F_SPLICE = false) (w : World) (r : Req) (p : Payload) (hp : p.piped = false) (cl' : Client)
    (w' : World) (msgs : List Msg) (h : handleRequest e cl w r p = .val (cl', w', msgs)) :
    KeptOff cl.difffile (has cl.ex.flags F_TREEFILES) w w' ∧ SameSeat cl cl' := by
  have hpg : cl.paged = true := by unfold Client.paged; rw [hcow]; rfl
  cases handleRequest_handled e cl cl' w w' r p msgs h with
  | refused => exact ⟨.refl _ _ _, .refl _⟩
  | read hf ht hr _ _ hq =>
    unfold handleRead at hq
    rw [hns, if_neg (by simp)] at hq
    obtain ⟨c', ok, hx, _⟩ := handleNormalRead_replies e cl w w' r msgs (has_df_of_flags (by omega)) hq
    exact ⟨expread_keptOff _ _ _ _ _ _ _ hx, .refl _⟩
  | write hf ht hw hr _ _ _ hq =>
    unfold handleWrite at hq
    cases p with
    | nothing => cases hq
    | pipe => cases hp
    | data bs =>
      simp only [] at hq
      split at hq
      · cases hq
      · cases hq
      · rename_i hx
        cases hq
        exact expwrite_keptOff _ hpg _ _ _ _ _ _ _ hx
  | flush hf ht =>
    refine ⟨?_, .refl _⟩
    unfold handleFlush expflush
    rw [hcow]
    exact sysFsync_keptOff _ _ _
  | trim hf ht hw hr _ _ hq =>
    refine ⟨?_, .refl _⟩
    unfold handleTrim exptrim at hq
    rw [hcow] at hq
    split at hq
    · cases hq
    · cases hq
    · rename_i hx
      cases hq
      split at hx
      · cases hx
      · split at hx
        · cases hx
        · cases hx; exact .refl _ _ _
  | zeroes hf ht hw hr _ _ _ hq =>
    unfold handleWriteZeroes at hq
    split at hq
    · cases hq
    · cases hq
    · rename_i hx
      cases hq
      exact expwriteZeroes_keptOff _ hpg _ _ _ _ _ _ _ hx


theorem fetch_piped (e : Endian) (cl : Client) (hns : has cl.ex.flags F_SPLICE = false) (w w1 : World)
    (stream : List Byte) (r : Req) (p : Payload) (rest : List Byte)
    (h : fetch e cl w stream = .val (w1, .push r p rest)) : p.piped = false := by
  unfold fetch at h
  rw [hns] at h
  split at h
  · cases h
  · simp only [] at h
    split at h
    · cases h
    · split at h
      · simp only [Bool.false_eq_true, if_false, Bool.false_and] at h
        split at h
        · cases h
        · cases h; rfl
      · split at h
        · cases h
        · cases h; rfl

theorem mainloop_keptOff (e : Endian) (cl : Client) (hcow : has cl.ex.flags F_COPYONWRITE = true)
    (hns : has cl.ex.flags F_SPLICE = false) (w : World) (stream : List Byte) :
    KeptOff cl.difffile (has cl.ex.flags F_TREEFILES) w (mainloop e cl w stream).w ∧
      SameSeat cl (mainloop e cl w stream).cl := by
  fun_induction mainloop e cl w stream with
  | case1 => exact ⟨.refl _ _ _, .refl _⟩
  | case2 => exact ⟨.refl _ _ _, .refl _⟩
  | case3 => exact ⟨.of_files (fetch_files _ _ _ _ _ _ ‹_›), .refl _⟩
  | case4 => exact ⟨.of_files (fetch_files _ _ _ _ _ _ ‹_›), .refl _⟩
  | case5 => exact ⟨.of_files (fetch_files _ _ _ _ _ _ ‹_›), .refl _⟩
  | case6 => exact ⟨.of_files (fetch_files _ _ _ _ _ _ ‹_›), .refl _⟩
  | case7 cl w stream w1 r p rest hf cl' w' msgs hq ih =>
    obtain ⟨h1, h2⟩ := handleRequest_keptOff e cl hcow hns w1 r p (fetch_piped _ _ hns _ _ _ _ _ _ hf) _ _ _ hq
    obtain ⟨h3, h4⟩ := ih (by rw [h2.ex]; exact hcow) (by rw [h2.ex]; exact hns)
    rw [h2.difffile, h2.ex] at h3
    exact ⟨(KeptOff.of_files (fetch_files _ _ _ _ _ _ hf)).trans (h1.trans h3), h2.trans h4⟩

end Nbd
