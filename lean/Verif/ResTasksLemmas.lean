import Verif.ResTasks
/-!
# Every thread gives back what it took

`Bal t M F`: a thread that owns the blocks `M` and the descriptors `F` gives all of them back before it is done, and frees and closes
nothing else, whatever the calls return.
-/

set_option autoImplicit false

namespace Nbd

/-- What a thread may do with what it owns. (A notion of the proofs; models no code.) -/
def Bal (st : Bool) : Task → List (Nat × Nat) → List Nat → Prop
  | .done, M, F => M = [] ∧ F = []
  | .die, _, _ => True
  | .crash, _, _ => True
  | .malloc n k, M, F => (∀ p, Bal st (k (some p)) ((p, n) :: M) F) ∧ Bal st (k none) M F
  | .free p k, M, F => ∃ n M', M.Perm ((p, n) :: M') ∧ Bal st k M' F
  | .openFd k, M, F => (∀ fd, 0 < fd → Bal st (k (some fd)) M (fd :: F)) ∧ Bal st (k none) M F
  | .pipe k, M, F => (∀ a b, 0 < a → 0 < b → Bal st (k (some (a, b))) M (a :: b :: F)) ∧ Bal st (k none) M F
  | .close fd k, M, F => ∃ F', F.Perm (fd :: F') ∧ Bal st k M F'
  | .pick k, M, F => ∀ x, Bal st (k x) M F
  | .failed n k, M, F => st = true ∧ (Bal st k M F ∨ ∃ p m M', m ≤ n ∧ M.Perm ((p, m) :: M') ∧ Bal st k M' F)
  | .push job k, M, F => ∃ M1 M2 F1 F2, M.Perm (M1 ++ M2) ∧ F.Perm (F1 ++ F2) ∧ Bal st job M1 F1 ∧ Bal st k M2 F2

variable {st : Bool}

theorem Bal.perm : ∀ (t : Task) {M M' : List (Nat × Nat)} {F F' : List Nat}, M.Perm M' → F.Perm F' → Bal st t M F → Bal st t M' F'
  | .done, M, M', F, F', hm, hf, h => by
    obtain ⟨h1, h2⟩ := h
    subst h1 h2
    exact ⟨hm.nil_eq.symm, hf.nil_eq.symm⟩
  | .die, _, _, _, _, _, _, _ => trivial
  | .crash, _, _, _, _, _, _, _ => trivial
  | .malloc n k, _, _, _, _, hm, hf, h =>
    ⟨fun p => Bal.perm (k (some p)) (hm.cons _) hf (h.1 p), Bal.perm (k none) hm hf h.2⟩
  | .free p k, _, _, _, _, hm, hf, h => by
    obtain ⟨n, M', h1, h2⟩ := h
    exact ⟨n, M', hm.symm.trans h1, Bal.perm k (.refl _) hf h2⟩
  | .openFd k, _, _, _, _, hm, hf, h =>
    ⟨fun fd h0 => Bal.perm (k (some fd)) hm (hf.cons _) (h.1 fd h0), Bal.perm (k none) hm hf h.2⟩
  | .pipe k, _, _, _, _, hm, hf, h =>
    ⟨fun a b ha hb => Bal.perm (k (some (a, b))) hm ((hf.cons _).cons _) (h.1 a b ha hb), Bal.perm (k none) hm hf h.2⟩
  | .close fd k, _, _, _, _, hm, hf, h => by
    obtain ⟨F', h1, h2⟩ := h
    exact ⟨F', hf.symm.trans h1, Bal.perm k hm (.refl _) h2⟩
  | .pick k, _, _, _, _, hm, hf, h => fun x => Bal.perm (k x) hm hf (h x)
  | .failed n k, _, _, _, _, hm, hf, h => by
    obtain ⟨hst, h⟩ := h
    rcases h with h | ⟨p, m, M', h1, h2, h3⟩
    · exact ⟨hst, .inl (Bal.perm k hm hf h)⟩
    · exact ⟨hst, .inr ⟨p, m, M', h1, hm.symm.trans h2, Bal.perm k (.refl _) hf h3⟩⟩
  | .push job k, _, _, _, _, hm, hf, h => by
    obtain ⟨M1, M2, F1, F2, h1, h2, h3, h4⟩ := h
    exact ⟨M1, M2, F1, F2, hm.symm.trans h1, hf.symm.trans h2, h3, h4⟩

/-! ### The functions of the server -/

/-- The blocks of a pointer that may be NULL. (A notion of the proofs.) -/
def ownO (p : Option Nat) (n : Nat) : List (Nat × Nat) := (p.map fun p => (p, n)).toList

theorem bal_freeO (p : Option Nat) (n : Nat) (k : Task) (M : List (Nat × Nat)) (F : List Nat) (h : Bal st k M F) :
    Bal st (freeO p k) (ownO p n ++ M) F := by
  cases p with
  | none => exact h
  | some p => exact ⟨n, M, .refl _, h⟩

theorem bal_closeO (fd : Option Nat) (k : Task) (M : List (Nat × Nat)) (F : List Nat) (h : Bal st k M F) :
    Bal st (closeO fd k) M (fd.toList ++ F) := by
  cases fd with
  | none => exact h
  | some fd => exact ⟨F, .refl _, h⟩

theorem bal_closePos (fd : Option Nat) (hp : ∀ x ∈ fd, 0 < x) (k : Task) (M : List (Nat × Nat)) (F : List Nat) (h : Bal st k M F) :
    Bal st (closePos fd k) M (fd.toList ++ F) := by
  rcases fd with - | (- | n)
  · exact h
  · exact absurd (hp 0 rfl) (by decide)
  · exact ⟨F, .refl _, h⟩

theorem bal_access (tree : Bool) (k : Nat → Task) (M : List (Nat × Nat)) (F : List Nat) (h : ∀ n, Bal st (k n) M F) :
    Bal st (accessTask tree k) M F := by
  unfold accessTask fileTask
  intro x
  dsimp only
  by_cases hx : x = 0
  · rw [if_pos hx]; exact h 0
  · rw [if_neg hx]
    cases tree with
    | false => exact fun n => h n
    | true =>
      intro y
      by_cases hy : y = 0
      · simp only [if_pos hy]; trivial
      · simp only [if_neg hy]
        refine ⟨fun fd _ n => ?_, fun n => h n⟩
        exact bal_closeO (some fd) (k n) M F (h n)

theorem bal_accesses (tree : Bool) (k : Bool → Task) (M : List (Nat × Nat)) (F : List Nat) (h : ∀ ok, Bal st (k ok) M F) (n : Nat) :
    Bal st (accessesTask tree k n) M F := by
  induction n with
  | zero => exact fun x => h _
  | succ n ih =>
    refine bal_access tree _ M F fun m => ?_
    by_cases hm : m = 0
    · rw [if_pos hm]; exact h false
    · rw [if_neg hm]; exact ih

theorem bal_readFully (tree chunked : Bool) (k : Bool → Task) (M : List (Nat × Nat)) (F : List Nat) (L : Nat) (ht : Bal st (k true) M F)
    (hf : if chunked then ∀ p m, m ≤ L → Bal st (k false) ((p, m) :: M) F else Bal st (k false) M F) (len : Nat) (hl : len ≤ L) :
    Bal st (readFullyTask tree chunked k len) M F := by
  induction len using Nat.strongRecOn with
  | ind len ih =>
    unfold readFullyTask
    by_cases h0 : len = 0
    · rw [if_pos h0]; exact ht
    · rw [if_neg h0]
      cases chunked with
      | false =>
        refine bal_access tree _ M F fun n => ?_
        by_cases hn : n = 0
        · rw [if_pos hn]; exact hf
        · rw [if_neg hn]; exact ih _ (by omega) (by omega)
      | true =>
        refine ⟨fun p => ?_, trivial⟩
        refine bal_access tree _ _ F fun n => ?_
        by_cases hn : n = 0
        · rw [if_pos hn]; exact hf p len hl
        · rw [if_neg hn]; exact ⟨len, M, .refl _, ih _ (by omega) (by omega)⟩

theorem pageLen_le' (off len : Nat) : pageLen off len ≤ len := by
  unfold pageLen
  by_cases h : len < DIFFPAGESIZE - off
  · rw [if_pos h]; exact Nat.le_refl _
  · rw [if_neg h]; omega

theorem bal_readPages (tree chunked wait : Bool) (k : Bool → Task) (M : List (Nat × Nat)) (F : List Nat) (L : Nat) (ht : Bal st (k true) M F)
    (hf0 : Bal st (k false) M F) (hf : chunked = true → ∀ p m, m ≤ L → Bal st (k false) ((p, m) :: M) F) (n : Nat) :
    ∀ (cur mapcnt a len : Nat), cur ≤ L → len ≤ L → Bal st (readPagesTask tree chunked wait k n cur mapcnt a len) M F := by
  induction n with
  | zero => intro _ _ _ _ _ _; exact ht
  | succ n ih =>
    intro cur mapcnt a len hc hl
    unfold readPagesTask
    intro x
    dsimp only
    by_cases hx : x = 0
    · rw [if_pos hx]
      cases chunked with
      | false =>
        intro y
        by_cases hy : y = 0
        · simp only [if_pos hy]; exact hf0
        · simp only [if_neg hy]; exact ih _ _ _ _ hc (by omega)
      | true =>
        refine ⟨fun p y => ?_, trivial⟩
        by_cases hy : y = 0
        · simp only [if_pos hy]; exact hf rfl p cur hc
        · simp only [if_neg hy]; exact ⟨cur, M, .refl _, ih _ _ _ _ hc (by omega)⟩
    · rw [if_neg hx]
      by_cases hw : (wait && x == 1) = true
      · rw [if_pos hw]; exact hf0
      · rw [if_neg hw]
        refine bal_readFully tree chunked _ M F L (ih _ _ _ _ (Nat.zero_le _) (by omega)) ?_ _ (Nat.le_trans (pageLen_le' _ _) hl)
        cases chunked with
        | false => exact hf0
        | true => exact fun p m hm => hf rfl p m hm

theorem bal_expread (cl : Client) (r : Req) (chunked : Bool) (k : Bool → Task) (M : List (Nat × Nat)) (F : List Nat)
    (ht : Bal st (k true) M F) (hf0 : Bal st (k false) M F) (hf : chunked = true → ∀ p m, m ≤ r.len → Bal st (k false) ((p, m) :: M) F) :
    Bal st (expreadTask cl r chunked k) M F := by
  intro x
  dsimp only
  by_cases h : (has cl.ex.flags F_COPYONWRITE || (has cl.ex.flags F_WAIT && x != 0)) = true
  · rw [if_pos h]
    exact bal_readPages _ _ _ k M F r.len ht hf0 hf _ _ _ _ _ (Nat.le_refl _) (Nat.le_refl _)
  · rw [if_neg h]
    refine bal_readFully _ _ k M F r.len ht ?_ _ (Nat.le_refl _)
    cases chunked with
    | false => exact hf0
    | true => exact hf rfl

theorem bal_normalRead (cl : Client) (r : Req) (k : Task) (M : List (Nat × Nat)) (F : List Nat) (h : Bal cl.structured k M F) :
    Bal cl.structured (normalReadTask cl r k) M F := by
  unfold normalReadTask
  refine ⟨fun ctx => ?_, trivial⟩
  simp only []
  have hk : Bal cl.structured (.free ctx k) ((ctx, CTXSIZE) :: M) F := ⟨_, M, .refl _, h⟩
  by_cases h1 : (cl.structured && has r.type CMD_FLAG_DF && decide (r.len > 1048576)) = true
  · rw [if_pos h1]
    have hst : cl.structured = true := by
      cases h : cl.structured with
      | true => rfl
      | false => rw [h] at h1; simp at h1
    exact ⟨hst, .inl hk⟩
  · rw [if_neg h1]
    by_cases h2 : (has r.type CMD_FLAG_DF || !cl.structured) = true
    · rw [if_pos h2]
      refine ⟨fun b => ?_, trivial⟩
      have hc : ∀ ok, Bal cl.structured (completeReadTask cl.structured false ok (some b) r.len (.free ctx k)) ((b, r.len) :: (ctx, CTXSIZE) :: M) F := by
        intro ok
        refine ⟨r.len, _, .refl _, ?_⟩
        by_cases h3 : (cl.structured && !ok) = true
        · rw [if_pos h3]; exact ⟨(Bool.and_eq_true_iff.1 h3).1, .inl hk⟩
        · rw [if_neg h3]; exact hk
      exact bal_expread cl r false _ _ F (hc true) (hc false) (by intro h; cases h)
    · rw [if_neg h2]
      have hst : cl.structured = true := by
        cases h : cl.structured with
        | true => rfl
        | false => rw [h] at h2; simp at h2
      exact bal_expread cl r true _ _ F hk ⟨hst, .inl hk⟩ fun _ p m hm => ⟨hst, .inr ⟨p, m, _, hm, .refl _, hk⟩⟩

theorem bal_mkpipe (len : Nat) (k : Option (Nat × Nat) → Task) (M : List (Nat × Nat)) (F : List Nat) (hn : Bal st (k none) M F)
    (hs : ∀ a b, 0 < a → 0 < b → Bal st (k (some (a, b))) M (a :: b :: F)) : Bal st (mkpipeTask len k) M F := by
  unfold mkpipeTask
  by_cases h : len > MAX_PIPE_SIZE
  · rw [if_pos h]; exact hn
  · rw [if_neg h]
    refine ⟨fun a b ha hb x => ?_, hn⟩
    by_cases hx : x = 0
    · simp only [if_pos hx]; exact ⟨_, .refl _, _, .refl _, hn⟩
    · simp only [if_neg hx]; exact hs a b ha hb

theorem bal_spliceRead (cl : Client) (r : Req) (k : Bool → Task) (M : List (Nat × Nat)) (F : List Nat) (h : ∀ ok, Bal st (k ok) M F) :
    Bal st (spliceReadTask cl r k) M F := by
  unfold spliceReadTask
  by_cases ht : cl.tls = true
  · rw [if_pos ht]; exact h false
  · rw [if_neg ht]
    refine bal_mkpipe _ _ M F (h false) fun a b _ _ n => ?_
    refine bal_accesses _ _ _ _ (fun ok => ?_) n
    cases ok with
    | true =>
      intro x
      by_cases hx : x = 0
      · simp only [if_pos hx]; trivial
      · simp only [if_neg hx]; exact ⟨_, .refl _, _, .refl _, h true⟩
    | false => exact ⟨_, .swap _ _ _, _, .refl _, h false⟩

theorem bal_read (cl : Client) (r : Req) (k : Task) (M : List (Nat × Nat)) (F : List Nat) (h : Bal cl.structured k M F) :
    Bal cl.structured (readTask cl r k) M F := by
  unfold readTask
  by_cases hs : has cl.ex.flags F_SPLICE = true
  · rw [if_pos hs]
    refine bal_spliceRead cl r _ M F fun ok => ?_
    cases ok with
    | true => exact h
    | false => exact bal_normalRead cl r k M F h
  · rw [if_neg hs]; exact bal_normalRead cl r k M F h

theorem bal_answer (k : Task) (M : List (Nat × Nat)) (F : List Nat) (h : Bal st k M F) : Bal st (answerTask k) M F := by
  intro x
  by_cases hx : x = 0
  · simp only [if_pos hx]; trivial
  · simp only [if_neg hx]; exact h

theorem bal_write (cl : Client) (k : Task) (M : List (Nat × Nat)) (F : List Nat) (h : Bal st k M F) : Bal st (writeTask cl k) M F :=
  fun n => bal_accesses _ _ M F (fun _ => bal_answer k M F h) n

theorem bal_zeroes (cl : Client) (k : Task) (M : List (Nat × Nat)) (F : List Nat) (h : Bal st k M F) : Bal st (zeroesTask cl k) M F := by
  have hb : ∀ b : Option Nat, ∀ n, Bal st (if b = none ∧ n = 0 then .crash
      else accessesTask (has cl.ex.flags F_TREEFILES) (fun _ => freeO b (answerTask k)) n) (ownO b ZEROCHUNK ++ M) F := by
    intro b n
    by_cases hc : b = none ∧ n = 0
    · rw [if_pos hc]; trivial
    · rw [if_neg hc]
      exact bal_accesses _ _ _ F (fun _ => bal_freeO b ZEROCHUNK _ M F (bal_answer k M F h)) n
  exact ⟨fun p => hb (some p), hb none⟩

/-- What a package owns. (A notion of the proofs.) -/
def Pkg.mem (g : Pkg) (n : Nat) : List (Nat × Nat) := ownO g.data n ++ [(g.req, REQSIZE), (g.self, PKGSIZE)]

/-- The descriptors of a package. (A notion of the proofs.) -/
def Pkg.fds (g : Pkg) : List Nat := g.pipe0.toList ++ g.pipe1.toList

theorem bal_dispose (g : Pkg) (n : Nat) (h0 : ∀ x ∈ g.pipe0, 0 < x) (h1 : ∀ x ∈ g.pipe1, 0 < x) :
    Bal st (disposeTask g .done) (g.mem n) g.fds := by
  unfold disposeTask Pkg.mem Pkg.fds
  refine bal_closePos g.pipe0 h0 _ _ _ ?_
  have := bal_closePos (st := st) g.pipe1 h1 (freeO g.data (.free g.req (.free g.self .done)))
    (ownO g.data n ++ [(g.req, REQSIZE), (g.self, PKGSIZE)]) []
    (bal_freeO g.data n _ _ _ ⟨_, _, .refl _, _, _, .refl _, rfl, rfl⟩)
  rwa [List.append_nil] at this

theorem bal_request (cl : Client) (r : Req) (g : Pkg) (n : Nat) (h0 : ∀ x ∈ g.pipe0, 0 < x) (h1 : ∀ x ∈ g.pipe1, 0 < x) :
    Bal cl.structured (requestTask cl r g) (g.mem n) g.fds := by
  have hd := bal_dispose (st := cl.structured) g n h0 h1
  have ha := bal_answer _ _ _ hd
  unfold requestTask
  simp only []
  by_cases c1 : (r.type - r.type % 65536) / 65536 / 4 ≠ 0
  · rw [if_pos c1]; exact ha
  rw [if_neg c1]
  by_cases c2 : r.type % 65536 = CMD_READ ∧ ¬ badRange cl r = true
  · rw [if_pos c2]; exact bal_read cl r _ _ _ hd
  rw [if_neg c2]
  by_cases c3 : r.type % 65536 = CMD_WRITE ∧ ¬ badWrite cl = true ∧ ¬ badRange cl r = true
  · rw [if_pos c3]; exact bal_write cl _ _ _ hd
  rw [if_neg c3]
  by_cases c4 : r.type % 65536 = CMD_WRITE_ZEROES ∧ ¬ badWrite cl = true ∧ ¬ badRange cl r = true
  · rw [if_pos c4]; exact bal_zeroes cl _ _ _ hd
  rw [if_neg c4]
  by_cases c5 : r.type % 65536 = CMD_TRIM
  · rw [if_pos c5]
    intro x
    by_cases hx : x = 0
    · simp only [if_pos hx]; trivial
    · simp only [if_neg hx]; exact ha
  · rw [if_neg c5]; exact ha

theorem bal_package (cl : Client) (r : Req) (req : Nat) (k : Pkg → Task)
    (h : ∀ g : Pkg, (∀ x ∈ g.pipe0, 0 < x) → (∀ x ∈ g.pipe1, 0 < x) → g.req = req → Bal st (k g) (g.mem r.len) g.fds) :
    Bal st (packageTask cl r req k) [(req, REQSIZE)] [] := by
  unfold packageTask
  refine ⟨fun s => ?_, trivial⟩
  simp only []
  have hbuf : Bal st (.malloc r.len fun d => k ⟨s, req, d, none, none⟩) [(s, PKGSIZE), (req, REQSIZE)] [] := by
    refine ⟨fun d => ?_, ?_⟩
    · exact Bal.perm _ ((List.Perm.swap _ _ _).cons _) (.refl _)
        (h ⟨s, req, some d, none, none⟩ (by intro x hx; cases hx) (by intro x hx; cases hx) rfl)
    · exact Bal.perm _ (List.Perm.swap _ _ _) (.refl _)
        (h ⟨s, req, none, none, none⟩ (by intro x hx; cases hx) (by intro x hx; cases hx) rfl)
  by_cases hw : r.type % 65536 = CMD_WRITE
  · rw [if_pos hw]
    by_cases hs : has cl.ex.flags F_SPLICE = true
    · rw [if_pos hs]
      refine bal_mkpipe _ _ _ _ hbuf fun a b ha hb => ?_
      exact Bal.perm _ (List.Perm.swap _ _ _) (.refl _)
        (h ⟨s, req, none, some a, some b⟩ (by intro x hx; cases hx; exact ha) (by intro x hx; cases hx; exact hb) rfl)
    · rw [if_neg hs]; exact hbuf
  · rw [if_neg hw]
    exact Bal.perm _ (List.Perm.swap _ _ _) (.refl _)
      (h ⟨s, req, none, none, none⟩ (by intro x hx; cases hx) (by intro x hx; cases hx) rfl)

theorem bal_receive (cl : Client) (r : Req) (g : Pkg) (k : Task) (M : List (Nat × Nat)) (F : List Nat) (h : Bal st k M F) :
    Bal st (receiveTask cl r g k) M F := by
  unfold receiveTask
  by_cases hw : r.type % 65536 = CMD_WRITE
  · rw [if_pos hw]
    intro x
    by_cases hx : x = 0
    · simp only [if_pos hx]; trivial
    simp only [if_neg hx]
    by_cases h1 : (g.pipe1.isSome && !cl.tls) = true
    · rw [if_pos h1]; exact h
    rw [if_neg h1]
    by_cases h2 : g.data = none ∧ 0 < r.len
    · rw [if_pos h2]; trivial
    · rw [if_neg h2]; exact h
  · rw [if_neg hw]; exact h

/-- A session owns nothing between two requests. -/
theorem bal_session (cl : Client) (rs : List Req) : Bal cl.structured (sessionTask cl rs) [] [] := by
  induction rs with
  | nil => exact ⟨fun _ => trivial, trivial⟩
  | cons r rs ih =>
    unfold sessionTask
    refine ⟨fun q x => ?_, trivial⟩
    by_cases hx : x = 0
    · simp only [if_pos hx]; trivial
    simp only [if_neg hx]
    refine bal_package cl r q _ fun g h0 h1 _ => bal_receive cl r g _ _ _ ?_
    by_cases hd : r.type = CMD_DISC
    · rw [if_pos hd]; exact bal_dispose g r.len h0 h1
    · rw [if_neg hd]
      exact ⟨g.mem r.len, [], g.fds, [], by rw [List.append_nil], by rw [List.append_nil], bal_request cl r g r.len h0 h1, ih⟩

/-! ### All threads together -/

/-- The threads own these blocks and descriptors together, each of them its own. (A notion of the proofs.) -/
def OwnedBy (st : Bool) : List Task → List (Nat × Nat) → List Nat → Prop
  | [], M, F => M = [] ∧ F = []
  | t :: ts, M, F => ∃ M1 M2 F1 F2, M.Perm (M1 ++ M2) ∧ F.Perm (F1 ++ F2) ∧ Bal st t M1 F1 ∧ OwnedBy st ts M2 F2

theorem OwnedBy.perm (ts : List Task) {M M' : List (Nat × Nat)} {F F' : List Nat} (hm : M.Perm M') (hf : F.Perm F')
    (h : OwnedBy st ts M F) : OwnedBy st ts M' F' := by
  cases ts with
  | nil =>
    obtain ⟨h1, h2⟩ := h
    subst h1 h2
    exact ⟨hm.nil_eq.symm, hf.nil_eq.symm⟩
  | cons t ts =>
    obtain ⟨M1, M2, F1, F2, h1, h2, h3, h4⟩ := h
    exact ⟨M1, M2, F1, F2, hm.symm.trans h1, hf.symm.trans h2, h3, h4⟩

theorem perm_mid {α : Type} {a b c d e : List α} (h1 : a.Perm (b ++ c)) (h2 : c.Perm (d ++ e)) : a.Perm (d ++ (b ++ e)) := by
  refine h1.trans ((h2.append_left b).trans ?_)
  rw [← List.append_assoc, ← List.append_assoc]
  exact (List.perm_append_comm).append_right e

theorem ownedBy_mid (pre post : List Task) (t : Task) : ∀ (M : List (Nat × Nat)) (F : List Nat),
    OwnedBy st (pre ++ t :: post) M F ↔ OwnedBy st (t :: (pre ++ post)) M F := by
  induction pre with
  | nil => intro M F; exact Iff.rfl
  | cons u pre ih =>
    intro M F
    constructor
    · rintro ⟨M1, M2, F1, F2, h1, h2, h3, h4⟩
      obtain ⟨M3, M4, F3, F4, h5, h6, h7, h8⟩ := (ih _ _).1 h4
      exact ⟨M3, M1 ++ M4, F3, F1 ++ F4, perm_mid h1 h5, perm_mid h2 h6, h7, M1, M4, F1, F4, .refl _, .refl _, h3, h8⟩
    · rintro ⟨M1, M2, F1, F2, h1, h2, h3, M3, M4, F3, F4, h5, h6, h7, h8⟩
      refine ⟨M3, M1 ++ M4, F3, F1 ++ F4, perm_mid h1 h5, perm_mid h2 h6, h7, (ih _ _).2 ⟨M1, M4, F1, F4, .refl _, .refl _, h3, h8⟩⟩

theorem eraseP_perm (p n : Nat) (L R : List (Nat × Nat)) (hn : (L.map Prod.fst).Nodup) (h : L.Perm ((p, n) :: R)) :
    (L.eraseP fun b => b.1 == p).Perm R := by
  have hm : (p, n) ∈ L := h.mem_iff.2 List.mem_cons_self
  obtain ⟨a, b, rfl⟩ := List.append_of_mem hm
  have ha : ∀ x ∈ a, ¬ (x.1 == p) = true := by
    intro x hx hxp
    rw [List.map_append, List.map_cons, List.nodup_append] at hn
    exact hn.2.2 x.1 (List.mem_map_of_mem hx) p List.mem_cons_self (by simpa using hxp)
  rw [List.eraseP_append_right _ ha, List.eraseP_cons_of_pos (by simp)]
  exact (List.perm_middle.symm.trans h).cons_inv

/-- What holds of a session at every moment; `base` is what the process held before. (A notion of the proofs.) -/
def Tasks.Inv (st : Bool) (base : Res) (s : Tasks) : Prop :=
  (s.res.mem.map Prod.fst).Nodup ∧ s.res.fds.Nodup ∧ (s.failed ≠ [] → st = true) ∧
  ∃ M F left, s.res.mem.Perm (M ++ (left ++ base.mem)) ∧ s.res.fds.Perm (F ++ base.fds) ∧ OwnedBy st s.tasks M F ∧
    left.length ≤ s.failed.length ∧ (left.map Prod.snd).sum ≤ s.failed.sum

theorem fresh_pos (base res : Res) (F : List Nat) (h0 : 0 ∈ base.fds) (h : res.fds.Perm (F ++ base.fds)) (fd : Nat) (hfd : fd ∉ res.fds) :
    0 < fd := by
  rcases Nat.eq_zero_or_pos fd with rfl | h1
  · exact absurd (h.mem_iff.2 (List.mem_append_right _ h0)) hfd
  · exact h1

theorem Tasks.Inv.step (base : Res) (h0 : 0 ∈ base.fds) (s t : Tasks) (h : s.Inv st base) (hs : Tasks.Step s t) : t.Inv st base := by
  obtain ⟨hnd, hfn, hst, M, F, left, hm, hf, ho, hl, hsum⟩ := h
  cases hs with
  | malloc res fl pre post n p k hp =>
    obtain ⟨M1, M2, F1, F2, h1, h2, h3, h4⟩ := (ownedBy_mid _ _ _ _ _).1 ho
    refine ⟨List.nodup_cons.2 ⟨hp, hnd⟩, hfn, hst, (p, n) :: M, F, left, hm.cons _, hf, ?_, hl, hsum⟩
    exact (ownedBy_mid _ _ _ _ _).2 ⟨(p, n) :: M1, M2, F1, F2, h1.cons _, h2, h3.1 p, h4⟩
  | noMem res fl pre post n k =>
    obtain ⟨M1, M2, F1, F2, h1, h2, h3, h4⟩ := (ownedBy_mid _ _ _ _ _).1 ho
    exact ⟨hnd, hfn, hst, M, F, left, hm, hf, (ownedBy_mid _ _ _ _ _).2 ⟨M1, M2, F1, F2, h1, h2, h3.2, h4⟩, hl, hsum⟩
  | free res fl pre post p k hp =>
    obtain ⟨M1, M2, F1, F2, h1, h2, ⟨n, M', h3, h3'⟩, h4⟩ := (ownedBy_mid _ _ _ _ _).1 ho
    have hM : M.Perm ((p, n) :: (M' ++ M2)) := h1.trans (h3.append_right M2)
    have hR : res.mem.Perm ((p, n) :: ((M' ++ M2) ++ (left ++ base.mem))) := hm.trans (hM.append_right _)
    refine ⟨?_, hfn, hst, M' ++ M2, F, left, eraseP_perm p n _ _ hnd hR, hf, ?_, hl, hsum⟩
    · exact hnd.sublist (List.eraseP_sublist.map _)
    · exact (ownedBy_mid _ _ _ _ _).2 ⟨M', M2, F1, F2, .refl _, h2, h3', h4⟩
  | openFd res fl pre post fd k hfd =>
    obtain ⟨M1, M2, F1, F2, h1, h2, h3, h4⟩ := (ownedBy_mid _ _ _ _ _).1 ho
    refine ⟨hnd, List.nodup_cons.2 ⟨hfd, hfn⟩, hst, M, fd :: F, left, hm, hf.cons _, ?_, hl, hsum⟩
    exact (ownedBy_mid _ _ _ _ _).2 ⟨M1, M2, fd :: F1, F2, h1, h2.cons _, h3.1 fd (fresh_pos base res F h0 hf fd hfd), h4⟩
  | noFd res fl pre post k =>
    obtain ⟨M1, M2, F1, F2, h1, h2, h3, h4⟩ := (ownedBy_mid _ _ _ _ _).1 ho
    exact ⟨hnd, hfn, hst, M, F, left, hm, hf, (ownedBy_mid _ _ _ _ _).2 ⟨M1, M2, F1, F2, h1, h2, h3.2, h4⟩, hl, hsum⟩
  | pipe res fl pre post rd wr k hr hw hne =>
    obtain ⟨M1, M2, F1, F2, h1, h2, h3, h4⟩ := (ownedBy_mid _ _ _ _ _).1 ho
    refine ⟨hnd, List.nodup_cons.2 ⟨by simp [hne, hr], List.nodup_cons.2 ⟨hw, hfn⟩⟩, hst, M, rd :: wr :: F, left, hm, (hf.cons _).cons _, ?_, hl, hsum⟩
    exact (ownedBy_mid _ _ _ _ _).2 ⟨M1, M2, rd :: wr :: F1, F2, h1, (h2.cons _).cons _,
      h3.1 rd wr (fresh_pos base res F h0 hf rd hr) (fresh_pos base res F h0 hf wr hw), h4⟩
  | noPipe res fl pre post k =>
    obtain ⟨M1, M2, F1, F2, h1, h2, h3, h4⟩ := (ownedBy_mid _ _ _ _ _).1 ho
    exact ⟨hnd, hfn, hst, M, F, left, hm, hf, (ownedBy_mid _ _ _ _ _).2 ⟨M1, M2, F1, F2, h1, h2, h3.2, h4⟩, hl, hsum⟩
  | close res fl pre post fd k hfd =>
    obtain ⟨M1, M2, F1, F2, h1, h2, ⟨F', h3, h3'⟩, h4⟩ := (ownedBy_mid _ _ _ _ _).1 ho
    have hF : res.fds.Perm (fd :: ((F' ++ F2) ++ base.fds)) := hf.trans ((h2.trans (h3.append_right F2)).append_right _)
    refine ⟨hnd, hfn.erase _, hst, M, F' ++ F2, left, hm, ?_, ?_, hl, hsum⟩
    · have := hF.erase fd
      rwa [List.erase_cons_head] at this
    · exact (ownedBy_mid _ _ _ _ _).2 ⟨M1, M2, F', F2, h1, .refl _, h3', h4⟩
  | pick res fl pre post x k =>
    obtain ⟨M1, M2, F1, F2, h1, h2, h3, h4⟩ := (ownedBy_mid _ _ _ _ _).1 ho
    exact ⟨hnd, hfn, hst, M, F, left, hm, hf, (ownedBy_mid _ _ _ _ _).2 ⟨M1, M2, F1, F2, h1, h2, h3 x, h4⟩, hl, hsum⟩
  | failed res fl pre post n k =>
    obtain ⟨M1, M2, F1, F2, h1, h2, h3, h4⟩ := (ownedBy_mid _ _ _ _ _).1 ho
    obtain ⟨hs1, h3⟩ := h3
    rcases h3 with h3 | ⟨p, m, M', h5, h6, h7⟩
    · refine ⟨hnd, hfn, fun _ => hs1, M, F, left, hm, hf, (ownedBy_mid _ _ _ _ _).2 ⟨M1, M2, F1, F2, h1, h2, h3, h4⟩, ?_, ?_⟩
      · exact Nat.le_succ_of_le hl
      · simp only [List.sum_cons]; simp only [] at hsum; omega
    · refine ⟨hnd, hfn, fun _ => hs1, M' ++ M2, F, (p, m) :: left, ?_, hf, (ownedBy_mid _ _ _ _ _).2 ⟨M', M2, F1, F2, .refl _, h2, h7, h4⟩, ?_, ?_⟩
      · refine hm.trans (((h1.trans (h6.append_right M2)).append_right _).trans ?_)
        exact List.perm_middle.symm
      · exact Nat.succ_le_succ hl
      · simp only [List.map_cons, List.sum_cons]; simp only [] at hsum; omega
  | push res fl pre post job k =>
    obtain ⟨M1, M2, F1, F2, h1, h2, ⟨M3, M4, F3, F4, h5, h6, h7, h8⟩, h4⟩ := (ownedBy_mid _ _ _ _ _).1 ho
    refine ⟨hnd, hfn, hst, M, F, left, hm, hf, ?_, hl, hsum⟩
    have hjob : OwnedBy st (pre ++ job :: post) (M3 ++ M2) (F3 ++ F2) :=
      (ownedBy_mid _ _ _ _ _).2 ⟨M3, M2, F3, F2, .refl _, .refl _, h7, h4⟩
    refine (ownedBy_mid _ _ _ _ _).2 ⟨M4, M3 ++ M2, F4, F3 ++ F2, ?_, ?_, h8, hjob⟩
    · refine (h1.trans (h5.append_right M2)).trans ?_
      rw [← List.append_assoc]
      exact List.perm_append_comm.append_right _
    · refine (h2.trans (h6.append_right F2)).trans ?_
      rw [← List.append_assoc]
      exact List.perm_append_comm.append_right _

theorem Tasks.Inv.reach (base : Res) (h0 : 0 ∈ base.fds) (s t : Tasks) (h : s.Inv st base) (hr : s.Reach t) : t.Inv st base := by
  induction hr with
  | refl => exact h
  | step _ hs ih => exact Tasks.Inv.step base h0 _ _ ih hs

theorem ownedBy_mem (ts : List Task) : ∀ (M : List (Nat × Nat)) (F : List Nat) (t : Task), t ∈ ts → OwnedBy st ts M F →
    ∃ M1 M2 F1 F2, M.Perm (M1 ++ M2) ∧ F.Perm (F1 ++ F2) ∧ Bal st t M1 F1 := by
  intro M F t ht h
  obtain ⟨pre, post, rfl⟩ := List.append_of_mem ht
  obtain ⟨M1, M2, F1, F2, h1, h2, h3, -⟩ := (ownedBy_mid _ _ _ _ _).1 h
  exact ⟨M1, M2, F1, F2, h1, h2, h3⟩

theorem ownedBy_done (ts : List Task) : ∀ (M : List (Nat × Nat)) (F : List Nat), (∀ t ∈ ts, t = .done) → OwnedBy st ts M F → M = [] ∧ F = [] := by
  induction ts with
  | nil => intro M F _ h; exact h
  | cons t ts ih =>
    rintro M F hd ⟨M1, M2, F1, F2, h1, h2, h3, h4⟩
    have ht := hd t List.mem_cons_self
    subst ht
    obtain ⟨rfl, rfl⟩ := h3
    obtain ⟨rfl, rfl⟩ := ih _ _ (fun t ht => hd t (List.mem_cons_of_mem _ ht)) h4
    exact ⟨h1.eq_nil, h2.eq_nil⟩

end Nbd
