import Verif.Res
/-!
# Lemmas about memory and descriptors

The functions of `Verif.Res` compute what those of `Verif.Request` compute, and what they take
they give back, except for the block that a failing structured read leaves behind.
-/

set_option autoImplicit false

namespace Nbd

/-- `y` does what `x` does, and afterwards `P` holds of the value and what is held. -/
def Agree {α β : Type} (x : Out α) (y : Out (α × β)) (P : α → β → Prop) : Prop :=
  match x with
  | .ub => y = .ub
  | .exit => y = .exit
  | .val v => ∃ b, y = .val (v, b) ∧ P v b

theorem lt_unused : ∀ (l : List Nat) (x : Nat), x ∈ l → x < unused l
  | [], _, h => by cases h
  | n :: l, x, h => by
    simp only [unused]
    rcases List.mem_cons.mp h with rfl | h
    · exact Nat.lt_of_lt_of_le (Nat.lt_succ_self _) (Nat.le_max_left _ _)
    · exact Nat.lt_of_lt_of_le (lt_unused l x h) (Nat.le_max_right _ _)

theorem unused_not_mem (l : List Nat) : unused l ∉ l := fun h => Nat.lt_irrefl _ (lt_unused l _ h)

theorem free_mid (front rest : List (Nat × Nat)) (fds : List Nat) (p n : Nat)
    (h : p ∉ front.map Prod.fst) :
    Res.free ⟨front ++ (p, n) :: rest, fds⟩ (some p) = .val ⟨front ++ rest, fds⟩ := by
  simp only [Res.free, List.map_append, List.map_cons, List.mem_append, List.mem_cons, true_or,
    or_true, if_true]
  congr 2
  rw [List.eraseP_append_right]
  · simp
  · intro b hb
    simp only [beq_iff_eq]
    intro hp
    exact h (hp ▸ List.mem_map_of_mem hb)

theorem close_mid (front rest : List Nat) (mem : List (Nat × Nat)) (fd : Nat) (h : fd ∉ front) :
    Res.close ⟨mem, front ++ fd :: rest⟩ (some fd) = .val ⟨mem, front ++ rest⟩ := by
  simp only [Res.close, List.mem_append, List.mem_cons, true_or, or_true, if_true]
  congr 2
  rw [List.erase_append_right _ h]
  simp

theorem close_open (res : Res) : res.open.2.close (some res.open.1) = .val res :=
  close_mid [] res.fds res.mem _ (by simp)

theorem free_malloc (res : Res) (n : Nat) :
    (res.malloc n).2.free (some (res.malloc n).1) = .val res :=
  free_mid [] res.mem res.fds _ n (by simp)

theorem closeR_openR (ex : Export) (h : Handle) (res : Res) :
    closeR ex (openR ex h res).1 (openR ex h res).2 = .val res := by
  unfold closeR openR
  by_cases ht : has ex.flags F_TREEFILES = true
  · rw [if_pos ht, if_pos ht]
    cases h with
    | bad => rfl
    | file id => exact close_open res
    | dummy => exact close_open res
  · rw [if_neg ht, if_neg ht]

/-! ### Reading and writing the files -/

theorem rawexpreadR_agree (ex : Export) (w : World) (a len : Nat) (res : Res) :
    Agree (rawexpread ex w a len) (rawexpreadR ex w a len res) (fun _ res' => res' = res) := by
  unfold rawexpread rawexpreadR
  rcases getFilepos ex w a with ⟨w', _ | ⟨h, fo, mb⟩⟩ | _ | _
  · exact ⟨_, rfl, rfl⟩
  · simp only [closeR_openR]
    exact ⟨_, rfl, rfl⟩
  · rfl
  · rfl

theorem rawexpwriteR_agree (ex : Export) (w : World) (a : Nat) (buf : List Byte) (fua : Bool)
    (res : Res) :
    Agree (rawexpwrite ex w a buf fua) (rawexpwriteR ex w a buf fua res)
      (fun _ res' => res' = res) := by
  unfold rawexpwrite rawexpwriteR
  rcases getFilepos ex w a with ⟨w', _ | ⟨h, fo, mb⟩⟩ | _ | _
  · exact ⟨_, rfl, rfl⟩
  · simp only [closeR_openR]
    exact ⟨_, rfl, rfl⟩
  · rfl
  · rfl

theorem rawexpwriteFullyR_agree (ex : Export) (fua : Bool) (res : Res) :
    ∀ (n : Nat) (w : World) (a : Nat) (buf : List Byte), buf.length ≤ n →
      Agree (rawexpwriteFully ex w a buf fua) (rawexpwriteFullyR ex w a buf fua res)
        (fun _ res' => res' = res) := by
  intro n
  induction n with
  | zero =>
    intro w a buf hn
    have h0 : buf.length = 0 := by omega
    unfold rawexpwriteFully rawexpwriteFullyR
    rw [if_pos h0, if_pos h0]
    exact ⟨_, rfl, rfl⟩
  | succ n ih =>
    intro w a buf hn
    unfold rawexpwriteFully rawexpwriteFullyR
    by_cases h0 : buf.length = 0
    · rw [if_pos h0, if_pos h0]
      exact ⟨_, rfl, rfl⟩
    · rw [if_neg h0, if_neg h0]
      have h1 := rawexpwriteR_agree ex w a buf fua res
      rcases hx : rawexpwrite ex w a buf fua with ⟨w', _ | _ | k⟩ | _ | _ <;> rw [hx] at h1
      · obtain ⟨_, hy, rfl⟩ := h1; rw [hy]; exact ⟨_, rfl, rfl⟩
      · obtain ⟨_, hy, rfl⟩ := h1; rw [hy]; exact ⟨_, rfl, rfl⟩
      · obtain ⟨_, hy, rfl⟩ := h1; rw [hy]
        exact ih w' _ _ (by rw [List.length_drop]; omega)
      · rw [show rawexpwriteR ex w a buf fua res = .ub from h1]; rfl
      · rw [show rawexpwriteR ex w a buf fua res = .exit from h1]; rfl

theorem pageInR_agree (ex : Export) (res : Res) :
    ∀ (n : Nat) (w : World) (pb : List (Option Byte)) (ps done rdlen : Nat), rdlen ≤ n →
      Agree (pageIn ex w pb ps done rdlen) (pageInR ex w pb ps done rdlen res)
        (fun _ res' => res' = res) := by
  intro n
  induction n with
  | zero =>
    intro w pb ps done rdlen hn
    have h0 : rdlen = 0 := by omega
    unfold pageIn pageInR
    rw [if_pos h0, if_pos h0]
    exact ⟨_, rfl, rfl⟩
  | succ n ih =>
    intro w pb ps done rdlen hn
    unfold pageIn pageInR
    by_cases h0 : rdlen = 0
    · rw [if_pos h0, if_pos h0]
      exact ⟨_, rfl, rfl⟩
    · rw [if_neg h0, if_neg h0]
      have h1 := rawexpreadR_agree ex w ps rdlen res
      rcases hx : rawexpread ex w ps rdlen with ⟨w', _ | _ | ⟨b, bs⟩⟩ | _ | _ <;> rw [hx] at h1
      · obtain ⟨_, hy, rfl⟩ := h1; rw [hy]; exact ⟨_, rfl, rfl⟩
      · obtain ⟨_, hy, rfl⟩ := h1; rw [hy]; exact ⟨_, rfl, rfl⟩
      · obtain ⟨_, hy, rfl⟩ := h1; rw [hy]
        exact ih w' _ _ _ _ (by simp only [List.length_cons]; omega)
      · rw [show rawexpreadR ex w ps rdlen res = .ub from h1]; rfl
      · rw [show rawexpreadR ex w ps rdlen res = .exit from h1]; rfl

theorem expspliceInR_agree (ex : Export) (res : Res) :
    ∀ (n : Nat) (w : World) (a len : Nat) (pipe : List Byte), len ≤ n →
      Agree (expspliceIn ex w a len pipe) (expspliceInR ex w a len pipe res)
        (fun _ res' => res' = res) := by
  intro n
  induction n with
  | zero =>
    intro w a len pipe hn
    have h0 : len = 0 := by omega
    unfold expspliceIn expspliceInR
    rw [if_pos h0, if_pos h0]
    exact ⟨_, rfl, rfl⟩
  | succ n ih =>
    intro w a len pipe hn
    unfold expspliceIn expspliceInR
    by_cases h0 : len = 0
    · rw [if_pos h0, if_pos h0]
      exact ⟨_, rfl, rfl⟩
    · rw [if_neg h0, if_neg h0]
      have h1 := rawexpreadR_agree ex w a len res
      rcases hx : rawexpread ex w a len with ⟨w', _ | _ | ⟨b, bs⟩⟩ | _ | _ <;> rw [hx] at h1
      · obtain ⟨_, hy, rfl⟩ := h1; rw [hy]; exact ⟨_, rfl, rfl⟩
      · obtain ⟨_, hy, rfl⟩ := h1; rw [hy]; exact ⟨_, rfl, rfl⟩
      · obtain ⟨_, hy, rfl⟩ := h1; rw [hy]
        exact ih w' _ _ _ (by simp only [List.length_cons]; omega)
      · rw [show rawexpreadR ex w a len res = .ub from h1]; rfl
      · rw [show rawexpreadR ex w a len res = .exit from h1]; rfl

theorem expspliceOutR_agree (ex : Export) (fua : Bool) (res : Res) :
    ∀ (n : Nat) (w : World) (a len : Nat) (pipe : List Byte), len ≤ n →
      Agree (expspliceOut ex w a len pipe fua) (expspliceOutR ex w a len pipe fua res)
        (fun _ res' => res' = res) := by
  intro n
  induction n with
  | zero =>
    intro w a len pipe hn
    have h0 : len = 0 := by omega
    unfold expspliceOut expspliceOutR
    rw [if_pos h0, if_pos h0]
    exact ⟨_, rfl, rfl⟩
  | succ n ih =>
    intro w a len pipe hn
    unfold expspliceOut expspliceOutR
    by_cases h0 : len = 0
    · rw [if_pos h0, if_pos h0]
      exact ⟨_, rfl, rfl⟩
    · rw [if_neg h0, if_neg h0]
      have h1 := rawexpwriteR_agree ex w a (pipe.take len) fua res
      rcases hx : rawexpwrite ex w a (pipe.take len) fua with ⟨w', _ | _ | k⟩ | _ | _ <;>
        rw [hx] at h1
      · obtain ⟨_, hy, rfl⟩ := h1; rw [hy]; exact ⟨_, rfl, rfl⟩
      · obtain ⟨_, hy, rfl⟩ := h1; rw [hy]; exact ⟨_, rfl, rfl⟩
      · obtain ⟨_, hy, rfl⟩ := h1; rw [hy]
        exact ih w' _ _ _ (by omega)
      · rw [show rawexpwriteR ex w a (pipe.take len) fua res = .ub from h1]; rfl
      · rw [show rawexpwriteR ex w a (pipe.take len) fua res = .exit from h1]; rfl

theorem expwritePagesR_agree (res : Res) :
    ∀ (n : Nat) (cl : Client) (w : World) (pb : List (Option Byte)) (mapcnt a : Nat)
      (buf : List Byte),
      Agree (expwritePages n cl w pb mapcnt a buf) (expwritePagesR n cl w pb mapcnt a buf res)
        (fun _ res' => res' = res) := by
  intro n
  induction n with
  | zero => intro cl w pb mapcnt a buf; exact ⟨_, rfl, rfl⟩
  | succ n ih =>
    intro cl w pb mapcnt a buf
    unfold expwritePages expwritePagesR
    simp only []
    rcases cl.difmap[mapcnt]? with _ | m
    · rfl
    · simp only []
      by_cases hm : m ≠ NOPAGE
      · rw [if_pos hm, if_pos hm]
        rcases sysPwrite w (.fd cl.difffile) _ _ with ⟨w', _ | k⟩
        · exact ⟨_, rfl, rfl⟩
        · simp only []
          by_cases hk : k ≠ pageLen (a - mapcnt * DIFFPAGESIZE) buf.length
          · rw [if_pos hk, if_pos hk]; exact ⟨_, rfl, rfl⟩
          · rw [if_neg hk, if_neg hk]; exact ih _ _ _ _ _ _
      · rw [if_neg hm, if_neg hm]
        generalize { cl with difmap := _, difffilelen := _ } = cl1
        by_cases hw : (a - mapcnt * DIFFPAGESIZE ≠ 0 ∨
            pageLen (a - mapcnt * DIFFPAGESIZE) buf.length ≠ DIFFPAGESIZE) ∧ cl.waiting = true
        · rw [if_pos hw, if_pos hw]; exact ⟨_, rfl, rfl⟩
        · rw [if_neg hw, if_neg hw]
          have hfill : Agree
              (if (a - mapcnt * DIFFPAGESIZE ≠ 0 ∨
                  pageLen (a - mapcnt * DIFFPAGESIZE) buf.length ≠ DIFFPAGESIZE) then
                pageIn cl.ex w pb (mapcnt * DIFFPAGESIZE) 0 DIFFPAGESIZE
               else .val (w, pb, true))
              (if (a - mapcnt * DIFFPAGESIZE ≠ 0 ∨
                  pageLen (a - mapcnt * DIFFPAGESIZE) buf.length ≠ DIFFPAGESIZE) then
                pageInR cl.ex w pb (mapcnt * DIFFPAGESIZE) 0 DIFFPAGESIZE res
               else .val ((w, pb, true), res))
              (fun _ res' => res' = res) := by
            by_cases hp : (a - mapcnt * DIFFPAGESIZE ≠ 0 ∨
                  pageLen (a - mapcnt * DIFFPAGESIZE) buf.length ≠ DIFFPAGESIZE)
            · rw [if_pos hp, if_pos hp]
              exact pageInR_agree cl.ex res _ w pb _ _ _ (Nat.le_refl _)
            · rw [if_neg hp, if_neg hp]; exact ⟨_, rfl, rfl⟩
          generalize (if (a - mapcnt * DIFFPAGESIZE ≠ 0 ∨
                  pageLen (a - mapcnt * DIFFPAGESIZE) buf.length ≠ DIFFPAGESIZE) then
                pageIn cl.ex w pb (mapcnt * DIFFPAGESIZE) 0 DIFFPAGESIZE
               else .val (w, pb, true)) = x at hfill ⊢
          generalize (if (a - mapcnt * DIFFPAGESIZE ≠ 0 ∨
                  pageLen (a - mapcnt * DIFFPAGESIZE) buf.length ≠ DIFFPAGESIZE) then
                pageInR cl.ex w pb (mapcnt * DIFFPAGESIZE) 0 DIFFPAGESIZE res
               else .val ((w, pb, true), res)) = y at hfill ⊢
          rcases x with ⟨w', pb', _ | _⟩ | _ | _
          · obtain ⟨_, rfl, rfl⟩ := hfill; exact ⟨_, rfl, rfl⟩
          · obtain ⟨_, rfl, rfl⟩ := hfill
            simp only []
            rcases allInit _ with _ | page
            · rfl
            · simp only []
              rcases diffAppend cl1 w' page with ⟨w'', cl2, _ | k⟩
              · exact ⟨_, rfl, rfl⟩
              · simp only []
                by_cases hk : k ≠ DIFFPAGESIZE
                · rw [if_pos hk, if_pos hk]; exact ⟨_, rfl, rfl⟩
                · rw [if_neg hk, if_neg hk]; exact ih _ _ _ _ _ _
          · rw [show y = .ub from hfill]; rfl
          · rw [show y = .exit from hfill]; rfl

theorem expwriteR_agree (cl : Client) (w : World) (a : Nat) (buf : List Byte) (fua : Bool)
    (res : Res) :
    Agree (expwrite cl w a buf fua) (expwriteR cl w a buf fua res) (fun _ res' => res' = res) := by
  unfold expwrite expwriteR
  by_cases hp : cl.paged = true
  · rw [if_pos hp, if_pos hp]
    have h1 := expwritePagesR_agree res (pageCount a buf.length) cl w
      (List.replicate DIFFPAGESIZE none) (a / DIFFPAGESIZE) a buf
    generalize expwritePages _ _ _ _ _ _ _ = x at h1 ⊢
    generalize expwritePagesR _ _ _ _ _ _ _ _ = y at h1 ⊢
    rcases x with ⟨cl', w', _ | _⟩ | _ | _
    · obtain ⟨_, rfl, rfl⟩ := h1; exact ⟨_, rfl, rfl⟩
    · obtain ⟨_, rfl, rfl⟩ := h1
      simp only []
      by_cases hs : (has cl'.ex.flags F_SYNC || fua) = true
      · rw [if_pos hs, if_pos hs]; exact ⟨_, rfl, rfl⟩
      · rw [if_neg hs, if_neg hs]; exact ⟨_, rfl, rfl⟩
    · rw [show y = .ub from h1]; rfl
    · rw [show y = .exit from h1]; rfl
  · rw [if_neg hp, if_neg hp]
    have h1 := rawexpwriteFullyR_agree cl.ex fua res _ w a buf (Nat.le_refl _)
    generalize rawexpwriteFully _ _ _ _ _ = x at h1 ⊢
    generalize rawexpwriteFullyR _ _ _ _ _ _ = y at h1 ⊢
    rcases x with ⟨w', ok⟩ | _ | _
    · obtain ⟨_, rfl, rfl⟩ := h1; exact ⟨_, rfl, rfl⟩
    · rw [show y = .ub from h1]; rfl
    · rw [show y = .exit from h1]; rfl

theorem zeroLoopR_agree (a : Nat) (fua : Bool) (ptr : Option Nat) (res res0 : Res)
    (hfree : res.free ptr = .val res0) :
    ∀ (n : Nat) (cl : Client) (w : World) (len : Nat), len ≤ n →
      Agree (expwriteZeroes cl w a len fua) (zeroLoopR cl w a len fua ptr res)
        (fun _ res' => res' = res0) := by
  intro n
  induction n with
  | zero =>
    intro cl w len hn
    have h0 : len = 0 := by omega
    unfold expwriteZeroes zeroLoopR
    rw [if_pos h0, if_pos h0, hfree]
    exact ⟨_, rfl, rfl⟩
  | succ n ih =>
    intro cl w len hn
    unfold expwriteZeroes zeroLoopR
    by_cases h0 : len = 0
    · rw [if_pos h0, if_pos h0, hfree]
      exact ⟨_, rfl, rfl⟩
    · rw [if_neg h0, if_neg h0]
      simp only []
      have hz : 0 < ZEROCHUNK := by decide
      have h1 := expwriteR_agree cl w a (Flat.zeros (min len ZEROCHUNK)) fua res
      generalize expwrite _ _ _ _ _ = x at h1 ⊢
      generalize expwriteR _ _ _ _ _ _ = y at h1 ⊢
      rcases x with ⟨cl', w', _ | _⟩ | _ | _
      · obtain ⟨_, rfl, rfl⟩ := h1
        simp only [hfree]; exact ⟨_, rfl, rfl⟩
      · obtain ⟨_, rfl, rfl⟩ := h1
        exact ih cl' w' _ (by omega)
      · rw [show y = .ub from h1]; rfl
      · rw [show y = .exit from h1]; rfl

theorem expwriteZeroesR_agree (cl : Client) (w : World) (a len : Nat) (fua : Bool) (res : Res) :
    Agree (expwriteZeroes cl w a len fua) (expwriteZeroesR cl w a len fua res)
      (fun _ res' => res' = res) :=
  zeroLoopR_agree a fua _ _ res (free_malloc res ZEROCHUNK) _ cl w len (Nat.le_refl _)

/-! ### Reads -/

/-- What is held afterwards is what was held before, and at most one block of at most `b` bytes
that nobody will free; that only if `cond` holds. -/
def Leaks (b : Nat) (cond : Prop) (res res' : Res) : Prop :=
  ∃ leak : List (Nat × Nat), res' = ⟨leak ++ res.mem, res.fds⟩ ∧
    (∀ x ∈ leak, x.1 ∉ res.mem.map Prod.fst) ∧
    (leak = [] ∨ (cond ∧ ∃ p n, leak = [(p, n)] ∧ n ≤ b))

theorem Leaks.none (b : Nat) (cond : Prop) (res : Res) : Leaks b cond res res :=
  ⟨[], rfl, by simp, .inl rfl⟩

theorem Leaks.one (b n : Nat) (cond : Prop) (res : Res) (hc : cond) (hn : n ≤ b) :
    Leaks b cond res (res.malloc n).2 :=
  ⟨[((res.malloc n).1, n)], rfl, by
    intro x hx
    rw [List.mem_singleton] at hx
    subst hx
    exact unused_not_mem _, .inr ⟨hc, _, _, rfl, hn⟩⟩

theorem deliver_chunked (c c' : ReadCtx) (bs : List Byte) (h : c.deliver bs = .val c') :
    c'.structured = c.structured ∧ c'.df = c.df ∧ c'.reqLen = c.reqLen ∧ c'.curLen = c.curLen := by
  unfold ReadCtx.deliver at h
  by_cases h1 : c.chunked = true
  · rw [if_pos h1] at h
    by_cases h2 : bs.length > c.curLen
    · rw [if_pos h2] at h; cases h
    · rw [if_neg h2] at h; cases h; exact ⟨rfl, rfl, rfl, rfl⟩
  · rw [if_neg h1] at h
    by_cases h2 : c.curOff + bs.length > c.buf.length
    · rw [if_pos h2] at h; cases h
    · rw [if_neg h2] at h; cases h; exact ⟨rfl, rfl, rfl, rfl⟩

/-- What a (partial) read leaves: the same kind of reply; `ctx->buf` only changes for chunked
reads; a block may stay behind if it failed. -/
def ReadLeft (b : Nat) (c : ReadCtx) (ptr : Option Nat) (res : Res) (v : World × ReadCtx × Bool)
    (q : Option Nat × Res) : Prop :=
  v.2.1.structured = c.structured ∧ v.2.1.df = c.df ∧ v.2.1.curLen ≤ b ∧
  (c.chunked = false → q.1 = ptr) ∧
  Leaks b (c.chunked = true ∧ v.2.2 = false) res q.2

theorem rawexpreadFullyR_agree (ex : Export) (b : Nat) (res : Res) :
    ∀ (n : Nat) (w : World) (c : ReadCtx) (ptr : Option Nat), c.curLen ≤ n → c.curLen ≤ b →
      Agree (rawexpreadFully ex w c) (rawexpreadFullyR ex w c ptr res) (ReadLeft b c ptr res) := by
  intro n
  induction n with
  | zero =>
    intro w c ptr hn hb
    have h0 : c.curLen = 0 := by omega
    unfold rawexpreadFully rawexpreadFullyR
    rw [if_pos h0, if_pos h0]
    exact ⟨_, rfl, rfl, rfl, hb, fun _ => rfl, Leaks.none _ _ _⟩
  | succ n ih =>
    intro w c ptr hn hb
    unfold rawexpreadFully rawexpreadFullyR
    by_cases h0 : c.curLen = 0
    · rw [if_pos h0, if_pos h0]
      exact ⟨_, rfl, rfl, rfl, hb, fun _ => rfl, Leaks.none _ _ _⟩
    · rw [if_neg h0, if_neg h0]
      simp only []
      have h1 := rawexpreadR_agree ex w (c.start + c.curOff) c.curLen (findReadBuf c ptr res).2
      have hfail : ∀ w' : World, ReadLeft b c ptr res (w', c, false) (findReadBuf c ptr res) := by
        intro w'
        unfold findReadBuf
        by_cases hc : c.chunked = true
        · rw [if_pos hc]
          exact ⟨rfl, rfl, hb, (by rw [hc]; intro h; cases h), Leaks.one b _ _ res ⟨hc, rfl⟩ hb⟩
        · rw [if_neg hc]
          exact ⟨rfl, rfl, hb, fun _ => rfl, Leaks.none _ _ _⟩
      generalize rawexpread ex w _ _ = x at h1 ⊢
      generalize rawexpreadR ex w _ _ _ = y at h1 ⊢
      rcases x with ⟨w', _ | _ | ⟨d, ds⟩⟩ | _ | _
      · obtain ⟨_, rfl, rfl⟩ := h1; exact ⟨_, rfl, hfail w'⟩
      · obtain ⟨_, rfl, rfl⟩ := h1; exact ⟨_, rfl, hfail w'⟩
      · obtain ⟨_, rfl, rfl⟩ := h1
        simp only []
        rcases hd : c.deliver (d :: ds) with c' | _ | _
        · simp only []
          obtain ⟨e1, e2, e3, e4⟩ := deliver_chunked c c' _ hd
          have hconf : confirmRead c (findReadBuf c ptr res).1 (findReadBuf c ptr res).2 =
              .val res := by
            unfold confirmRead findReadBuf
            by_cases hc : c.chunked = true
            · rw [if_pos hc, if_pos hc]; exact free_malloc res c.curLen
            · rw [if_neg hc, if_neg hc]
          rw [hconf]
          simp only []
          have h2 := ih w' { c' with
              curOff := c.curOff + (d :: ds).length
              curLen := c.curLen - (d :: ds).length } (findReadBuf c ptr res).1
            (by simp only [List.length_cons]; omega) (by simp only [List.length_cons]; omega)
          generalize rawexpreadFully ex w' _ = x2 at h2 ⊢
          generalize rawexpreadFullyR ex w' _ _ _ = y2 at h2 ⊢
          rcases x2 with v | _ | _
          · obtain ⟨q, rfl, g1, g2, g3, g4, g5⟩ := h2
            have hch : ({ c' with
              curOff := c.curOff + (d :: ds).length
              curLen := c.curLen - (d :: ds).length } : ReadCtx).chunked = c.chunked := by
              unfold ReadCtx.chunked; simp only [e1, e2]
            rw [hch] at g4 g5
            refine ⟨q, rfl, g1.trans e1, g2.trans e2, g3, ?_, g5⟩
            intro hc
            rw [g4 hc]
            unfold findReadBuf
            rw [if_neg (by rw [hc]; decide)]
          · exact h2
          · exact h2
        · rfl
        · rfl
      · rw [show y = .ub from h1]; rfl
      · rw [show y = .exit from h1]; rfl

theorem pageLen_le (o l : Nat) : pageLen o l ≤ l := by
  unfold pageLen; split <;> omega

theorem expreadPagesR_agree (cl : Client) (b : Nat) (res : Res) :
    ∀ (n : Nat) (w : World) (c : ReadCtx) (mapcnt a len : Nat) (ptr : Option Nat),
      c.curLen ≤ b → len ≤ b →
      Agree (expreadPages cl n w c mapcnt a len) (expreadPagesR cl n w c mapcnt a len ptr res)
        (ReadLeft b c ptr res) := by
  intro n
  induction n with
  | zero =>
    intro w c mapcnt a len ptr hb hl
    exact ⟨_, rfl, rfl, rfl, hb, fun _ => rfl, Leaks.none _ _ _⟩
  | succ n ih =>
    intro w c mapcnt a len ptr hb hl
    unfold expreadPages expreadPagesR
    simp only []
    rcases cl.difmap[mapcnt]? with _ | m
    · rfl
    · simp only []
      have hnext : ∀ (w' : World) (c' : ReadCtx) (ptr' : Option Nat) (a' len' : Nat),
          c'.structured = c.structured → c'.df = c.df → c'.curLen ≤ b → len' ≤ b →
          (c.chunked = false → ptr' = ptr) →
          Agree (expreadPages cl n w' c' (mapcnt + 1) a' len')
            (expreadPagesR cl n w' c' (mapcnt + 1) a' len' ptr' res) (ReadLeft b c ptr res) := by
        intro w' c' ptr' a' len' e1 e2 e3 e4 e5
        have h2 := ih w' c' (mapcnt + 1) a' len' ptr' e3 e4
        generalize expreadPages cl n w' _ _ _ _ = x2 at h2 ⊢
        generalize expreadPagesR cl n w' _ _ _ _ _ _ = y2 at h2 ⊢
        rcases x2 with v | _ | _
        · obtain ⟨q, rfl, g1, g2, g3, g4, g5⟩ := h2
          have hch : c'.chunked = c.chunked := by unfold ReadCtx.chunked; rw [e1, e2]
          rw [hch] at g4 g5
          exact ⟨q, rfl, g1.trans e1, g2.trans e2, g3, fun hc => (g4 hc).trans (e5 hc), g5⟩
        · exact h2
        · exact h2
      by_cases hm : m ≠ NOPAGE
      · rw [if_pos hm, if_pos hm]
        have hfail : ∀ w' : World, ReadLeft b c ptr res (w', c, false) (findReadBuf c ptr res) := by
          intro w'
          unfold findReadBuf
          by_cases hc : c.chunked = true
          · rw [if_pos hc]
            exact ⟨rfl, rfl, hb, (by rw [hc]; intro h; cases h), Leaks.one b _ _ res ⟨hc, rfl⟩ hb⟩
          · rw [if_neg hc]
            exact ⟨rfl, rfl, hb, fun _ => rfl, Leaks.none _ _ _⟩
        rcases sysPread w (.fd cl.difffile) _ _ with ⟨w', _ | bs⟩
        · exact ⟨_, rfl, hfail w'⟩
        · simp only []
          rcases hd : c.deliver bs with c' | _ | _
          · simp only []
            obtain ⟨e1, e2, e3, e4⟩ := deliver_chunked c c' _ hd
            by_cases hk : bs.length ≠ pageLen (a - mapcnt * DIFFPAGESIZE) len
            · rw [if_pos hk, if_pos hk]; exact ⟨_, rfl, hfail w'⟩
            · rw [if_neg hk, if_neg hk]
              have hconf : confirmRead c (findReadBuf c ptr res).1 (findReadBuf c ptr res).2 =
                  .val res := by
                unfold confirmRead findReadBuf
                by_cases hc : c.chunked = true
                · rw [if_pos hc, if_pos hc]; exact free_malloc res c.curLen
                · rw [if_neg hc, if_neg hc]
              rw [hconf]
              simp only []
              refine hnext w' c' _ _ _ e1 e2 (by omega) (by omega) ?_
              intro hc
              unfold findReadBuf
              rw [if_neg (by rw [hc]; decide)]
          · rfl
          · rfl
      · rw [if_neg hm, if_neg hm]
        by_cases hw : cl.waiting = true
        · rw [if_pos hw, if_pos hw]
          exact ⟨_, rfl, rfl, rfl, hb, fun _ => rfl, Leaks.none _ _ _⟩
        · rw [if_neg hw, if_neg hw]
          have hle : pageLen (a - mapcnt * DIFFPAGESIZE) len ≤ b :=
            Nat.le_trans (pageLen_le _ _) hl
          have h1 := rawexpreadFullyR_agree cl.ex b res _ w
            { c with curLen := pageLen (a - mapcnt * DIFFPAGESIZE) len } ptr (Nat.le_refl _) hle
          have hch : ({ c with curLen := pageLen (a - mapcnt * DIFFPAGESIZE) len } :
              ReadCtx).chunked = c.chunked := rfl
          generalize rawexpreadFully cl.ex w _ = x at h1 ⊢
          generalize rawexpreadFullyR cl.ex w _ _ _ = y at h1 ⊢
          rcases x with ⟨w', c', _ | _⟩ | _ | _
          · obtain ⟨q, rfl, g⟩ := h1; exact ⟨_, rfl, g⟩
          · obtain ⟨⟨ptr', res'⟩, rfl, g1, g2, g3, g4, ⟨lk, gr, gd, gl⟩⟩ := h1
            have hl0 : lk = [] := by
              rcases gl with h | ⟨⟨_, h⟩, _⟩
              · exact h
              · cases h
            subst hl0
            rw [hch] at g4
            have : res' = res := gr
            subst this
            exact hnext w' c' ptr' _ _ g1 g2 g3 (by omega) g4
          · rw [show y = .ub from h1]; rfl
          · rw [show y = .exit from h1]; rfl

theorem expreadR_agree (cl : Client) (w : World) (c : ReadCtx) (b : Nat) (ptr : Option Nat)
    (res : Res) (hb : c.curLen ≤ b) (hl : c.reqLen ≤ b) :
    Agree (expread cl w c) (expreadR cl w c ptr res) (ReadLeft b c ptr res) := by
  unfold expread expreadR
  by_cases hp : cl.paged = true
  · rw [if_pos hp, if_pos hp]
    exact expreadPagesR_agree cl b res _ w c _ _ _ ptr hb hl
  · rw [if_neg hp, if_neg hp]
    exact rawexpreadFullyR_agree cl.ex b res _ w c ptr (Nat.le_refl _) hb

/-! ### One request -/

/-- The answer to a structured read that went wrong: its last chunk is an error chunk. -/
def FailedRead (e : Endian) (cl : Client) (r : Req) (msgs : List Msg) : Prop :=
  cl.structured = true ∧ r.type % 65536 = CMD_READ ∧ ∃ err, errorMsg e r.cookie err ∈ msgs

theorem Leaks.mono {b : Nat} {P Q : Prop} {res res' : Res} (h : Leaks b P res res') (hpq : P → Q) :
    Leaks b Q res res' := by
  obtain ⟨lk, h1, h2, h3⟩ := h
  exact ⟨lk, h1, h2, h3.imp id (fun ⟨hp, h⟩ => ⟨hpq hp, h⟩)⟩

theorem handleNormalReadR_agree (e : Endian) (cl : Client) (w : World) (r : Req) (res : Res)
    (ht : r.type % 65536 = CMD_READ) :
    Agree (handleNormalRead e cl w r) (handleNormalReadR e cl w r res)
      (fun v res' => Leaks r.len (FailedRead e cl r v.2) res res') := by
  unfold handleNormalRead handleNormalReadR
  simp only []
  by_cases hov : (cl.structured && has r.type CMD_FLAG_DF && decide (r.len > 1048576)) = true
  · rw [if_pos hov, if_pos hov, free_malloc]
    exact ⟨_, rfl, Leaks.none _ _ _⟩
  · rw [if_neg hov, if_neg hov]
    by_cases hc : (has r.type CMD_FLAG_DF || !cl.structured) = true
    · -- one buffer for the whole reply
      simp only [if_pos hc]
      have h1 := expreadR_agree cl w
        { start := r.start, reqLen := r.len, structured := cl.structured,
          df := has r.type CMD_FLAG_DF, buf := List.replicate r.len none, curOff := 0,
          curLen := r.len, chunks := [] } r.len (some ((res.malloc CTXSIZE).2.malloc r.len).1)
        ((res.malloc CTXSIZE).2.malloc r.len).2 (Nat.le_refl _) (Nat.le_refl _)
      have hch : ReadCtx.chunked
        { start := r.start, reqLen := r.len, structured := cl.structured,
          df := has r.type CMD_FLAG_DF, buf := List.replicate r.len none, curOff := 0,
          curLen := r.len, chunks := [] } = false := by
        unfold ReadCtx.chunked
        simp only []
        revert hc
        cases cl.structured <;> cases has r.type CMD_FLAG_DF <;> simp
      generalize expread cl w _ = x at h1 ⊢
      generalize expreadR cl w _ _ _ = y at h1 ⊢
      rcases x with ⟨w', c', ok⟩ | _ | _
      · obtain ⟨⟨ptr', res'⟩, rfl, g1, g2, g3, g4, ⟨lk, gr, gd, gl⟩⟩ := h1
        have hl0 : lk = [] := by
          rcases gl with h | ⟨⟨h, _⟩, _⟩
          · exact h
          · rw [hch] at h; cases h
        subst hl0
        have gr : res' = ((res.malloc CTXSIZE).2.malloc r.len).2 := gr
        have gp : ptr' = some ((res.malloc CTXSIZE).2.malloc r.len).1 := g4 hch
        subst gr gp
        simp only []
        unfold completeReadR
        rcases completeRead e c' r.cookie _ with msgs | _ | _
        · simp only []
          have hn : ¬ (c'.structured && !c'.df) = true := by
            simp only [] at g1 g2
            rw [g1, g2]
            revert hc
            cases cl.structured <;> cases has r.type CMD_FLAG_DF <;> simp
          rw [if_neg hn, free_malloc]
          simp only []
          rw [free_malloc]
          exact ⟨_, rfl, Leaks.none _ _ _⟩
        · rfl
        · rfl
      · rw [show y = .ub from h1]; rfl
      · rw [show y = .exit from h1]; rfl
    · -- one buffer for each chunk
      simp only [if_neg hc]
      have h1 := expreadR_agree cl w
        { start := r.start, reqLen := r.len, structured := cl.structured,
          df := has r.type CMD_FLAG_DF, buf := [], curOff := 0,
          curLen := r.len, chunks := [] } r.len none
        (res.malloc CTXSIZE).2 (Nat.le_refl _) (Nat.le_refl _)
      have hst : cl.structured = true ∧ has r.type CMD_FLAG_DF = false := by
        revert hc
        cases cl.structured <;> cases has r.type CMD_FLAG_DF <;> simp
      generalize expread cl w _ = x at h1 ⊢
      generalize expreadR cl w _ _ _ = y at h1 ⊢
      rcases x with ⟨w', c', ok⟩ | _ | _
      · obtain ⟨⟨ptr', res'⟩, rfl, g1, g2, g3, g4, ⟨lk, gr, gd, gl⟩⟩ := h1
        simp only [] at gr gl g1 g2
        subst gr
        simp only []
        unfold completeReadR
        rcases hcr : completeRead e c' r.cookie _ with msgs | _ | _
        · simp only []
          have hn : (c'.structured && !c'.df) = true := by
            rw [g1, g2, hst.1, hst.2]; rfl
          rw [if_pos hn]
          simp only []
          have hfr : Res.free ⟨lk ++ (res.malloc CTXSIZE).2.mem, (res.malloc CTXSIZE).2.fds⟩
              (some (res.malloc CTXSIZE).1) = .val ⟨lk ++ res.mem, res.fds⟩ := by
            refine free_mid lk res.mem res.fds _ CTXSIZE ?_
            intro hin
            obtain ⟨x, hx, hxe⟩ := List.mem_map.mp hin
            exact gd x hx (by rw [hxe]; exact List.mem_cons_self ..)
          rw [hfr]
          refine ⟨_, rfl, lk, rfl, ?_, ?_⟩
          · intro x hx hin
            exact gd x hx (List.mem_cons_of_mem _ hin)
          · rcases gl with h | ⟨⟨_, hok⟩, h⟩
            · exact .inl h
            · refine .inr ⟨⟨hst.1, ht, nbdErrno e w'.errno, ?_⟩, h⟩
              rw [hok] at hcr
              unfold completeRead at hcr
              rw [if_pos (g1.trans hst.1)] at hcr
              simp only [Bool.false_eq_true, if_false, Out.val.injEq] at hcr
              simp only []
              rw [← hcr]
              simp
        · rfl
        · rfl
      · rw [show y = .ub from h1]; rfl
      · rw [show y = .exit from h1]; rfl

theorem mkpipeR_false (w w' : World) (len : Nat) (res : Res) (h : mkpipe w len = (w', false)) :
    mkpipeR w len res = .val ((w', none), res) := by
  unfold mkpipe at h
  unfold mkpipeR
  by_cases hl : len > MAX_PIPE_SIZE
  · rw [if_pos hl] at h ⊢
    cases h; rfl
  · rw [if_neg hl] at h ⊢
    simp only []
    rcases hx : w.next with n | er <;> rw [hx] at h
    · cases h
    · cases h
      simp only []
      have h1 := close_mid [res.open.2.open.1] res.fds res.mem res.open.1 (by
        simp only [List.mem_singleton]
        intro h
        have := lt_unused res.open.2.fds res.open.1 (List.mem_cons_self ..)
        simp only [Res.open] at h this
        omega)
      rw [show res.open.2.open.2 = ⟨res.mem, [res.open.2.open.1] ++ res.open.1 :: res.fds⟩ from rfl,
        h1]
      simp only []
      rw [show Res.close ⟨res.mem, [res.open.2.open.1] ++ res.fds⟩ (some res.open.2.open.1) =
        .val res from close_mid [] res.fds res.mem _ (by simp)]

theorem mkpipeR_true (w w' : World) (len : Nat) (res : Res) (h : mkpipe w len = (w', true)) :
    mkpipeR w len res = .val ((w', some (res.open.1, res.open.2.open.1)), res.open.2.open.2) := by
  unfold mkpipe at h
  unfold mkpipeR
  by_cases hl : len > MAX_PIPE_SIZE
  · rw [if_pos hl] at h; cases h
  · rw [if_neg hl] at h ⊢
    simp only []
    rcases hx : w.next with n | er <;> rw [hx] at h
    · cases h; rfl
    · cases h

theorem closeBoth_pipe (res : Res) :
    closeBoth (some res.open.1) (some res.open.2.open.1) res.open.2.open.2 = .val res := by
  unfold closeBoth
  have h1 := close_mid [res.open.2.open.1] res.fds res.mem res.open.1 (by
    simp only [List.mem_singleton]
    intro h
    have := lt_unused res.open.2.fds res.open.1 (List.mem_cons_self ..)
    simp only [Res.open] at h this
    omega)
  rw [show res.open.2.open.2 = ⟨res.mem, [res.open.2.open.1] ++ res.open.1 :: res.fds⟩ from rfl, h1]
  exact close_mid [] res.fds res.mem _ (by simp)

theorem closeBoth_pipe' (res : Res) :
    closeBoth (some res.open.2.open.1) (some res.open.1) res.open.2.open.2 = .val res := by
  unfold closeBoth
  rw [close_open res.open.2]
  exact close_open res

theorem handleSpliceReadR_agree (e : Endian) (cl : Client) (w : World) (r : Req) (res : Res) :
    Agree (handleSpliceRead e cl w r) (handleSpliceReadR e cl w r res)
      (fun _ res' => res' = res) := by
  unfold handleSpliceRead handleSpliceReadR
  by_cases ht : cl.tls = true
  · rw [if_pos ht, if_pos ht]; exact ⟨_, rfl, rfl⟩
  · rw [if_neg ht, if_neg ht]
    rcases hm : mkpipe w r.len with ⟨w', _ | _⟩
    · rw [mkpipeR_false _ _ _ res hm]; exact ⟨_, rfl, rfl⟩
    · rw [mkpipeR_true _ _ _ res hm]
      simp only []
      have h1 := expspliceInR_agree cl.ex res.open.2.open.2 _ w' r.start r.len [] (Nat.le_refl _)
      generalize expspliceIn cl.ex w' _ _ _ = x at h1 ⊢
      generalize expspliceInR cl.ex w' _ _ _ _ = y at h1 ⊢
      rcases x with ⟨w'', pipe, _ | _⟩ | _ | _
      · obtain ⟨_, rfl, rfl⟩ := h1
        simp only [closeBoth_pipe']; exact ⟨_, rfl, rfl⟩
      · obtain ⟨_, rfl, rfl⟩ := h1
        simp only [closeBoth_pipe]; exact ⟨_, rfl, rfl⟩
      · rw [show y = .ub from h1]; rfl
      · rw [show y = .exit from h1]; rfl

theorem handleReadR_agree (e : Endian) (cl : Client) (w : World) (r : Req) (res : Res)
    (ht : r.type % 65536 = CMD_READ) :
    Agree (handleRead e cl w r) (handleReadR e cl w r res)
      (fun v res' => Leaks r.len (FailedRead e cl r v.2) res res') := by
  unfold handleRead handleReadR
  by_cases hs : has cl.ex.flags F_SPLICE = true
  · rw [if_pos hs, if_pos hs]
    have h1 := handleSpliceReadR_agree e cl w r res
    generalize handleSpliceRead e cl w r = x at h1 ⊢
    generalize handleSpliceReadR e cl w r res = y at h1 ⊢
    rcases x with ⟨w', _ | msgs⟩ | _ | _
    · obtain ⟨_, rfl, rfl⟩ := h1
      exact handleNormalReadR_agree e cl w' r _ ht
    · obtain ⟨_, rfl, rfl⟩ := h1
      exact ⟨_, rfl, Leaks.none _ _ _⟩
    · rw [show y = .ub from h1]; rfl
    · rw [show y = .exit from h1]; rfl
  · rw [if_neg hs, if_neg hs]
    exact handleNormalReadR_agree e cl w r res ht

theorem handleRequestR_agree (e : Endian) (cl : Client) (w : World) (r : Req) (p : Payload)
    (res : Res) :
    Agree (handleRequest e cl w r p) (handleRequestR e cl w r p res)
      (fun v res' => Leaks r.len (FailedRead e cl r v.2.2) res res') := by
  have hkeep : ∀ {α : Type} (x : Out α) (Q : α → Res → Prop), (∀ v, Q v res) →
      Agree x (match x with | .ub => .ub | .exit => .exit | .val v => .val (v, res)) Q := by
    intro α x Q hQ
    rcases x with v | _ | _
    · exact ⟨_, rfl, hQ v⟩
    · rfl
    · rfl
  unfold handleRequestR
  simp only []
  by_cases hf : (r.type - r.type % 65536) / 65536 / 4 ≠ 0
  · rw [if_pos hf]
    have : handleRequest e cl w r p = errorReply e cl w r EINVAL := by
      unfold handleRequest; simp only []; rw [if_pos hf]
    rw [this]
    exact hkeep _ _ (fun _ => Leaks.none _ _ _)
  · rw [if_neg hf]
    by_cases h1 : r.type % 65536 = CMD_READ ∧ ¬ badRange cl r = true
    · rw [if_pos h1]
      have : handleRequest e cl w r p = (match handleRead e cl w r with
        | .ub => .ub
        | .exit => .exit
        | .val (w, msgs) => .val (cl, w, msgs)) := by
        unfold handleRequest; simp only []; rw [if_neg hf, if_pos h1.1, if_neg h1.2]; rfl
      rw [this]
      have h2 := handleReadR_agree e cl w r res h1.1
      generalize handleRead e cl w r = x at h2 ⊢
      generalize handleReadR e cl w r res = y at h2 ⊢
      rcases x with ⟨w', msgs⟩ | _ | _
      · obtain ⟨_, rfl, hl⟩ := h2; exact ⟨_, rfl, hl⟩
      · rw [show y = .ub from h2]; rfl
      · rw [show y = .exit from h2]; rfl
    · rw [if_neg h1]
      by_cases h2 : r.type % 65536 = CMD_WRITE ∧ ¬ badWrite cl = true ∧ ¬ badRange cl r = true
      · rw [if_pos h2]
        have hne : ¬ r.type % 65536 = CMD_READ := by rw [h2.1]; decide
        have : handleRequest e cl w r p = handleWrite e cl w r p := by
          unfold handleRequest; simp only []
          rw [if_neg hf, if_neg hne, if_pos h2.1, if_neg h2.2.1, if_neg h2.2.2]
        rw [this]
        unfold handleWrite handleWriteR
        rcases p with _ | bs | bs
        · rfl
        · simp only []
          have h3 := expwriteR_agree cl w r.start bs (has r.type CMD_FLAG_FUA) res
          generalize expwrite _ _ _ _ _ = x at h3 ⊢
          generalize expwriteR _ _ _ _ _ _ = y at h3 ⊢
          rcases x with ⟨cl', w', ok⟩ | _ | _
          · obtain ⟨_, rfl, rfl⟩ := h3; exact ⟨_, rfl, Leaks.none _ _ _⟩
          · rw [show y = .ub from h3]; rfl
          · rw [show y = .exit from h3]; rfl
        · simp only []
          have h3 := expspliceOutR_agree cl.ex (has r.type CMD_FLAG_FUA) res _ w r.start r.len bs
            (Nat.le_refl _)
          generalize expspliceOut _ _ _ _ _ _ = x at h3 ⊢
          generalize expspliceOutR _ _ _ _ _ _ _ = y at h3 ⊢
          rcases x with ⟨w', ok⟩ | _ | _
          · obtain ⟨_, rfl, rfl⟩ := h3; exact ⟨_, rfl, Leaks.none _ _ _⟩
          · rw [show y = .ub from h3]; rfl
          · rw [show y = .exit from h3]; rfl
      · rw [if_neg h2]
        by_cases h3 : r.type % 65536 = CMD_WRITE_ZEROES ∧ ¬ badWrite cl = true ∧
            ¬ badRange cl r = true
        · rw [if_pos h3]
          have : handleRequest e cl w r p = handleWriteZeroes e cl w r := by
            unfold handleRequest; simp only []
            rw [if_neg hf, if_neg (by rw [h3.1]; decide), if_neg (by rw [h3.1]; decide),
              if_neg (by rw [h3.1]; decide), if_neg (by rw [h3.1]; decide), if_pos h3.1,
              if_neg h3.2.1, if_neg h3.2.2]
          rw [this]
          unfold handleWriteZeroes handleWriteZeroesR
          have h4 := expwriteZeroesR_agree cl w r.start r.len (has r.type CMD_FLAG_FUA) res
          generalize expwriteZeroes _ _ _ _ _ = x at h4 ⊢
          generalize expwriteZeroesR _ _ _ _ _ _ = y at h4 ⊢
          rcases x with ⟨cl', w', ok⟩ | _ | _
          · obtain ⟨_, rfl, rfl⟩ := h4; exact ⟨_, rfl, Leaks.none _ _ _⟩
          · rw [show y = .ub from h4]; rfl
          · rw [show y = .exit from h4]; rfl
        · rw [if_neg h3]
          rcases handleRequest e cl w r p with v | _ | _
          · exact ⟨_, rfl, Leaks.none _ _ _⟩
          · rfl
          · rfl

/-! ### The loop -/

/-- The package and its request, data and pipe are what was taken since `res`: disposing of the
package gives them back, whatever was left behind in between. -/
def Owns (k : Pkg) (res res' : Res) : Prop :=
  ∀ lk : List (Nat × Nat), (∀ x ∈ lk, x.1 ∉ res'.mem.map Prod.fst) →
    k.dispose ⟨lk ++ res'.mem, res'.fds⟩ = .val ⟨lk ++ res.mem, res.fds⟩ ∧
    ∀ x ∈ lk, x.1 ∉ res.mem.map Prod.fst

theorem notMem_of_disjoint (lk : List (Nat × Nat)) (l : List Nat) (p : Nat)
    (h : ∀ x ∈ lk, x.1 ∉ l) (hp : p ∈ l) : p ∉ lk.map Prod.fst := by
  intro hin
  obtain ⟨x, hx, hxe⟩ := List.mem_map.mp hin
  exact h x hx (hxe ▸ hp)

/-- The two blocks every package has. -/
theorem free_pair (res : Res) (lk : List (Nat × Nat)) (fds : List Nat)
    (h : ∀ x ∈ lk, x.1 ∉ ((res.malloc REQSIZE).2.malloc PKGSIZE).2.mem.map Prod.fst) :
    (match Res.free ⟨lk ++ ((res.malloc REQSIZE).2.malloc PKGSIZE).2.mem, fds⟩
        (some (res.malloc REQSIZE).1) with
      | .ub => Out.ub
      | .exit => .exit
      | .val r => r.free (some ((res.malloc REQSIZE).2.malloc PKGSIZE).1)) =
      .val ⟨lk ++ res.mem, fds⟩ := by
  have hs : ((res.malloc REQSIZE).2.malloc PKGSIZE).1 ∉ lk.map Prod.fst :=
    notMem_of_disjoint lk _ _ h (List.mem_cons_self ..)
  have hr : (res.malloc REQSIZE).1 ∉ lk.map Prod.fst :=
    notMem_of_disjoint lk _ _ h (List.mem_cons_of_mem _ (List.mem_cons_self ..))
  have hne : (res.malloc REQSIZE).1 ≠ ((res.malloc REQSIZE).2.malloc PKGSIZE).1 := by
    intro heq
    have := lt_unused ((res.malloc REQSIZE).2.mem.map Prod.fst) (res.malloc REQSIZE).1
      (List.mem_cons_self ..)
    simp only [Res.malloc] at heq this
    omega
  have h1 := free_mid (lk ++ [(((res.malloc REQSIZE).2.malloc PKGSIZE).1, PKGSIZE)]) res.mem fds
    (res.malloc REQSIZE).1 REQSIZE (by
      simp only [List.map_append, List.map_cons, List.map_nil, List.mem_append,
        List.mem_singleton, not_or]
      exact ⟨hr, hne⟩)
  rw [show lk ++ ((res.malloc REQSIZE).2.malloc PKGSIZE).2.mem =
    (lk ++ [(((res.malloc REQSIZE).2.malloc PKGSIZE).1, PKGSIZE)]) ++
      ((res.malloc REQSIZE).1, REQSIZE) :: res.mem by simp [Res.malloc], h1]
  simp only [List.append_assoc, List.singleton_append]
  exact free_mid lk res.mem fds _ PKGSIZE hs

theorem owns_plain (res : Res) :
    Owns ⟨((res.malloc REQSIZE).2.malloc PKGSIZE).1, (res.malloc REQSIZE).1, none, none, none⟩ res
      ((res.malloc REQSIZE).2.malloc PKGSIZE).2 := by
  intro lk h
  refine ⟨free_pair res lk res.fds h, ?_⟩
  intro x hx hin
  exact h x hx (List.mem_cons_of_mem _ (List.mem_cons_of_mem _ hin))

theorem owns_data (res : Res) (n : Nat) :
    Owns ⟨((res.malloc REQSIZE).2.malloc PKGSIZE).1, (res.malloc REQSIZE).1,
        some (((res.malloc REQSIZE).2.malloc PKGSIZE).2.malloc n).1, none, none⟩ res
      (((res.malloc REQSIZE).2.malloc PKGSIZE).2.malloc n).2 := by
  intro lk h
  have hd : (((res.malloc REQSIZE).2.malloc PKGSIZE).2.malloc n).1 ∉ lk.map Prod.fst :=
    notMem_of_disjoint lk _ _ h (List.mem_cons_self ..)
  have h1 := free_mid lk ((res.malloc REQSIZE).2.malloc PKGSIZE).2.mem res.fds _ n hd
  refine ⟨?_, ?_⟩
  · show (match Res.free ⟨lk ++ (((res.malloc REQSIZE).2.malloc PKGSIZE).2.malloc n).2.mem, res.fds⟩
        (some (((res.malloc REQSIZE).2.malloc PKGSIZE).2.malloc n).1) with
      | .ub => Out.ub
      | .exit => .exit
      | .val r => match r.free (some (res.malloc REQSIZE).1) with
        | .ub => Out.ub
        | .exit => .exit
        | .val r => r.free (some ((res.malloc REQSIZE).2.malloc PKGSIZE).1)) = _
    rw [show lk ++ (((res.malloc REQSIZE).2.malloc PKGSIZE).2.malloc n).2.mem =
      lk ++ ((((res.malloc REQSIZE).2.malloc PKGSIZE).2.malloc n).1, n) ::
        ((res.malloc REQSIZE).2.malloc PKGSIZE).2.mem from rfl, h1]
    exact free_pair res lk res.fds (fun x hx hin => h x hx (List.mem_cons_of_mem _ hin))
  · intro x hx hin
    exact h x hx (List.mem_cons_of_mem _ (List.mem_cons_of_mem _ (List.mem_cons_of_mem _ hin)))

theorem owns_pipe (res : Res) :
    Owns ⟨((res.malloc REQSIZE).2.malloc PKGSIZE).1, (res.malloc REQSIZE).1, none,
        some res.open.1, some res.open.2.open.1⟩ res
      ⟨((res.malloc REQSIZE).2.malloc PKGSIZE).2.mem, res.open.2.open.2.fds⟩ := by
  intro lk h
  refine ⟨?_, ?_⟩
  · unfold Pkg.dispose
    simp only []
    have h1 : closeBoth (some res.open.1) (some res.open.2.open.1)
        ⟨lk ++ ((res.malloc REQSIZE).2.malloc PKGSIZE).2.mem, res.open.2.open.2.fds⟩ =
        .val ⟨lk ++ ((res.malloc REQSIZE).2.malloc PKGSIZE).2.mem, res.fds⟩ :=
      closeBoth_pipe ⟨lk ++ ((res.malloc REQSIZE).2.malloc PKGSIZE).2.mem, res.fds⟩
    rw [h1]
    exact free_pair res lk res.fds h
  · intro x hx hin
    exact h x hx (List.mem_cons_of_mem _ (List.mem_cons_of_mem _ hin))

theorem fetchR_agree (e : Endian) (cl : Client) (w : World) (stream : List Byte) (res : Res) :
    match fetch e cl w stream with
    | .ub => fetchR e cl w stream res = .ub
    | .exit => fetchR e cl w stream res = .exit
    | .val (w', .gone) => ∃ res', fetchR e cl w stream res = .val ((w', .gone), res')
    | .val (w', .disc rest) => fetchR e cl w stream res = .val ((w', .disc rest), res)
    | .val (w', .push r p rest) => ∃ k res', fetchR e cl w stream res =
        .val ((w', .push r p k rest), res') ∧ Owns k res res' := by
  unfold fetch fetchR
  simp only []
  by_cases h28 : stream.length < 28
  · rw [if_pos h28, if_pos h28]; exact ⟨_, rfl⟩
  · rw [if_neg h28, if_neg h28]
    generalize loadReq e (stream.take 28) = r
    by_cases hm : (!r.magicOk e) = true
    · rw [if_pos hm, if_pos hm]; exact ⟨_, rfl⟩
    · rw [if_neg hm, if_neg hm]
      unfold packageCreate
      simp only []
      by_cases hw : r.type % 65536 = CMD_WRITE
      · rw [if_pos hw, if_pos hw]
        by_cases hs : has cl.ex.flags F_SPLICE = true
        · rw [if_pos hs, if_pos hs]
          rcases hp : mkpipe w r.len with ⟨w', _ | _⟩
          · rw [mkpipeR_false _ _ _ _ hp]
            simp only [Bool.false_and, Bool.false_eq_true, if_false, if_pos hw]
            by_cases hl : (stream.drop 28).length < r.len
            · rw [if_pos hl, if_pos hl]; exact ⟨_, rfl⟩
            · rw [if_neg hl, if_neg hl]
              exact ⟨_, _, rfl, owns_data res r.len⟩
          · rw [mkpipeR_true _ _ _ _ hp]
            simp only [Bool.true_and, if_true, if_pos hw]
            by_cases ht : (cl.tls && decide (0 < r.len)) = true
            · rw [if_pos ht, if_pos ht]
            · rw [if_neg ht, if_neg ht]
              by_cases hl : (stream.drop 28).length < r.len
              · rw [if_pos hl, if_pos hl]; exact ⟨_, rfl⟩
              · rw [if_neg hl, if_neg hl]
                exact ⟨_, _, rfl, owns_pipe res⟩
        · rw [if_neg hs, if_neg hs]
          simp only [Bool.false_and, Bool.false_eq_true, if_false, if_pos hw]
          by_cases hl : (stream.drop 28).length < r.len
          · rw [if_pos hl, if_pos hl]; exact ⟨_, rfl⟩
          · rw [if_neg hl, if_neg hl]
            exact ⟨_, _, rfl, owns_data res r.len⟩
      · rw [if_neg hw, if_neg hw]
        simp only [if_neg hw]
        by_cases hd : r.type = CMD_DISC
        · rw [if_pos hd, if_pos hd]
          have := (owns_plain res [] (by simp)).1
          simp only [List.nil_append] at this
          rw [this]
        · rw [if_neg hd, if_neg hd]
          exact ⟨_, _, rfl, owns_plain res⟩

/-- The sum of the lengths of the requests of a run that were structured reads and failed (were
answered with an error chunk). -/
def leakBound (failed : Done → Bool) (l : List Done) : Nat :=
  ((l.filter failed).map fun d => d.req.len).sum

theorem mainloop_eq (e : Endian) (cl : Client) (w : World) (stream : List Byte) :
    mainloop e cl w stream =
      match fetch e cl w stream with
      | .ub => ⟨[], cl, w, .ub⟩
      | .exit => ⟨[], cl, w, .exit⟩
      | .val (w, .gone) => ⟨[], cl, w, .gone⟩
      | .val (w, .disc _) => ⟨[], cl, w, .disconnected⟩
      | .val (w, .push r p rest) =>
        match handleRequest e cl w r p with
        | .ub => ⟨[], cl, w, .ub⟩
        | .exit => ⟨[], cl, w, .exit⟩
        | .val (cl, w, msgs) => (mainloop e cl w rest).cons ⟨r, p, msgs⟩ := by
  rw [mainloop]
  split <;> rename_i h <;> rw [h]
  simp only []
  rcases handleRequest e cl _ _ _ with ⟨_, _, _⟩ | _ | _ <;> rfl

theorem mainloopR_eq (e : Endian) (cl : Client) (w : World) (stream : List Byte) (res : Res) :
    mainloopR e cl w stream res =
      match fetchR e cl w stream res with
      | .ub => ⟨⟨[], cl, w, .ub⟩, res⟩
      | .exit => ⟨⟨[], cl, w, .exit⟩, res⟩
      | .val ((w, .gone), res) => ⟨⟨[], cl, w, .gone⟩, res⟩
      | .val ((w, .disc _), res) => ⟨⟨[], cl, w, .disconnected⟩, res⟩
      | .val ((w, .push r p k rest), res) =>
        match handleRequestR e cl w r p res with
        | .ub => ⟨⟨[], cl, w, .ub⟩, res⟩
        | .exit => ⟨⟨[], cl, w, .exit⟩, res⟩
        | .val ((cl, w, msgs), res) =>
          match k.dispose res with
          | .ub => ⟨⟨[], cl, w, .ub⟩, res⟩
          | .exit => ⟨⟨[], cl, w, .exit⟩, res⟩
          | .val res =>
            ⟨(mainloopR e cl w rest res).run.cons ⟨r, p, msgs⟩, (mainloopR e cl w rest res).res⟩ := by
  rw [mainloopR]
  split <;> rename_i h <;> rw [h]
  rename_i k _ _
  simp only []
  rcases handleRequestR e cl _ _ _ _ with ⟨⟨_, _, _⟩, res2⟩ | _ | _
  · simp only []
    rcases k.dispose res2 with _ | _ | _ <;> rfl
  · rfl
  · rfl

/-- One turn with a request: what the package held is given back, the answer is the same, and at
most one block stays. -/
theorem turnR (e : Endian) (cl : Client) (w w1 : World) (stream rest : List Byte) (res : Res)
    (r : Req) (p : Payload) (hf : fetch e cl w stream = .val (w1, .push r p rest)) :
    match handleRequest e cl w1 r p with
    | .ub => (mainloopR e cl w stream res).run = ⟨[], cl, w1, .ub⟩
    | .exit => (mainloopR e cl w stream res).run = ⟨[], cl, w1, .exit⟩
    | .val (cl2, w2, msgs) => ∃ res', Leaks r.len (FailedRead e cl r msgs) res res' ∧
        mainloopR e cl w stream res = ⟨(mainloopR e cl2 w2 rest res').run.cons ⟨r, p, msgs⟩,
          (mainloopR e cl2 w2 rest res').res⟩ := by
  have h1 := fetchR_agree e cl w stream res
  rw [hf] at h1
  obtain ⟨k, res1, hfr, hown⟩ := h1
  have h2 := handleRequestR_agree e cl w1 r p res1
  rw [mainloopR_eq, hfr]
  simp only []
  generalize handleRequest e cl w1 r p = x at h2 ⊢
  generalize handleRequestR e cl w1 r p res1 = y at h2 ⊢
  rcases x with ⟨cl2, w2, msgs⟩ | _ | _
  · obtain ⟨res2, rfl, lk, rfl, hd, hl⟩ := h2
    obtain ⟨hdis, hd'⟩ := hown lk hd
    refine ⟨⟨lk ++ res.mem, res.fds⟩, ⟨lk, rfl, hd', hl⟩, ?_⟩
    simp only [hdis]
  · rw [show y = .ub from h2]
  · rw [show y = .exit from h2]

/-- The run is the run of `mainloop`, and after a disconnect request everything is given back
but what failed structured reads left behind. -/
theorem mainloopR_agree (e : Endian) (failed : Done → Bool)
    (hfailed : ∀ d cl, FailedRead e cl d.req d.msgs → failed d = true) :
    ∀ (n : Nat) (cl : Client) (w : World) (stream : List Byte) (res : Res), stream.length ≤ n →
      (mainloopR e cl w stream res).run = mainloop e cl w stream ∧
      ((mainloop e cl w stream).ending = .disconnected →
        ∃ leak : List (Nat × Nat),
          (mainloopR e cl w stream res).res = ⟨leak ++ res.mem, res.fds⟩ ∧
          leak.length ≤ ((mainloop e cl w stream).handled.filter failed).length ∧
          (leak.map Prod.snd).sum ≤ leakBound failed (mainloop e cl w stream).handled) := by
  intro n
  induction n with
  | zero =>
    intro cl w stream res hn
    have hs : stream = [] := List.length_eq_zero_iff.mp (by omega)
    subst hs
    rw [mainloop_eq, mainloopR_eq]
    refine ⟨rfl, ?_⟩
    intro h
    cases h
  | succ n ih =>
    intro cl w stream res hn
    rcases hf : fetch e cl w stream with ⟨w1, ⟨r, p, rest⟩ | rest | _⟩ | _ | _
    · have ht := turnR e cl w w1 stream rest res r p hf
      have hlt := fetch_push_lt _ _ _ _ _ _ _ _ hf
      rw [mainloop_eq, hf]
      simp only []
      rcases hx : handleRequest e cl w1 r p with ⟨cl2, w2, msgs⟩ | _ | _ <;> rw [hx] at ht
      · obtain ⟨res', hl, hm⟩ := ht
        obtain ⟨ih1, ih2⟩ := ih cl2 w2 rest res' (by omega)
        rw [hm]
        simp only []
        refine ⟨by rw [ih1], ?_⟩
        intro hend
        obtain ⟨lk2, he2, hn2, hs2⟩ := ih2 hend
        obtain ⟨lk, rfl, hd, hl⟩ := hl
        refine ⟨lk2 ++ lk, by rw [he2]; simp, ?_, ?_⟩
        · simp only [Run.cons, List.filter_cons, List.length_append]
          rcases hl with rfl | ⟨hfr, q, m, rfl, hm⟩
          · split <;> simp only [List.length_cons, List.length_nil] <;> omega
          · rw [if_pos (hfailed ⟨r, p, msgs⟩ cl hfr)]
            simp only [List.length_cons, List.length_nil]; omega
        · unfold leakBound at hs2 ⊢
          simp only [Run.cons, List.filter_cons, List.map_append, List.sum_append]
          rcases hl with rfl | ⟨hfr, q, m, rfl, hm⟩
          · split <;> simp only [List.map_cons, List.sum_cons, List.map_nil, List.sum_nil] <;> omega
          · rw [if_pos (hfailed ⟨r, p, msgs⟩ cl hfr)]
            simp only [List.map_cons, List.sum_cons, List.map_nil, List.sum_nil]; omega
      · exact ⟨ht, by intro h; cases h⟩
      · exact ⟨ht, by intro h; cases h⟩
    · have h1 := fetchR_agree e cl w stream res
      rw [hf] at h1
      rw [mainloop_eq, mainloopR_eq, hf, h1]
      exact ⟨rfl, fun _ => ⟨[], rfl, Nat.zero_le _, Nat.zero_le _⟩⟩
    · have h1 := fetchR_agree e cl w stream res
      rw [hf] at h1
      obtain ⟨res', h1⟩ := h1
      rw [mainloop_eq, mainloopR_eq, hf, h1]
      exact ⟨rfl, by intro h; cases h⟩
    · have h1 := fetchR_agree e cl w stream res
      rw [hf] at h1
      rw [mainloop_eq, mainloopR_eq, hf, h1]
      exact ⟨rfl, by intro h; cases h⟩
    · have h1 := fetchR_agree e cl w stream res
      rw [hf] at h1
      rw [mainloop_eq, mainloopR_eq, hf, h1]
      exact ⟨rfl, by intro h; cases h⟩

end Nbd
