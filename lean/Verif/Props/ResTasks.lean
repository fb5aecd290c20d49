import Verif.ResTasksLemmas
import Verif.Demo
/-!
# Requests give back what they take, with several threads (C88)
-/

set_option autoImplicit false

namespace Nbd

namespace Props

/-- C88 with any number of worker threads, in any order, with allocations and other calls that may fail. Whatever requests a client
sends and whatever the export, at every moment of a session: a thread that is about to free a block or close a descriptor does so with
one that is in use and was not there before the session; everything that was there before is still there. When all threads are done
(the client has sent a disconnect request), the descriptors are those of before, and so are the heap blocks, but for at most one for
each read that was answered with an error chunk, no larger than the read. There are such only with structured replies.
Descriptor 0 must be in use from the beginning. -/
theorem C88_threads_partial (cl : Client) (rs : List Req) (res : Res) (hn : (res.mem.map Prod.fst).Nodup) (hf : res.fds.Nodup)
    (h0 : 0 ∈ res.fds) (s : Tasks) (hr : (⟨res, [], [sessionTask cl rs]⟩ : Tasks).Reach s) :
    (∀ p k, .free p k ∈ s.tasks → p ∈ s.res.mem.map Prod.fst ∧ p ∉ res.mem.map Prod.fst) ∧
    (∀ fd k, .close fd k ∈ s.tasks → fd ∈ s.res.fds ∧ fd ∉ res.fds) ∧
    (∀ b ∈ res.mem, b ∈ s.res.mem) ∧ (∀ fd ∈ res.fds, fd ∈ s.res.fds) ∧
    ((∀ t ∈ s.tasks, t = .done) →
      s.res.fds.Perm res.fds ∧
      ∃ left, s.res.mem.Perm (left ++ res.mem) ∧ left.length ≤ s.failed.length ∧ (left.map Prod.snd).sum ≤ s.failed.sum) ∧
    (cl.structured = false → s.failed = []) := by
  have hi : Tasks.Inv cl.structured res ⟨res, [], [sessionTask cl rs]⟩ :=
    ⟨hn, hf, fun h => absurd rfl h, [], [], [], .refl _, .refl _,
      ⟨[], [], [], [], .refl _, .refl _, bal_session cl rs, rfl, rfl⟩, Nat.le_refl _, Nat.le_refl _⟩
  obtain ⟨hnd, hfn, hst, M, F, left, hm, hfp, ho, hl, hsum⟩ := Tasks.Inv.reach res h0 _ _ hi hr
  refine ⟨fun p k hp => ?_, fun fd k hfd => ?_, fun b hb => ?_, fun fd hfd => ?_, fun hd => ?_, fun hc => ?_⟩
  · obtain ⟨M1, M2, F1, F2, h1, -, n, M', h3, -⟩ := ownedBy_mem _ _ _ _ hp ho
    have hM : s.res.mem.Perm ((p, n) :: ((M' ++ M2) ++ (left ++ res.mem))) := hm.trans ((h1.trans (h3.append_right M2)).append_right _)
    have hN : (s.res.mem.map Prod.fst).Perm (p :: ((M' ++ M2) ++ (left ++ res.mem)).map Prod.fst) := hM.map Prod.fst
    refine ⟨hN.mem_iff.2 List.mem_cons_self, fun hin => ?_⟩
    refine (List.nodup_cons.1 (hN.nodup_iff.1 hnd)).1 ?_
    simp only [List.map_append, List.mem_append]
    exact .inr (.inr hin)
  · obtain ⟨M1, M2, F1, F2, -, h2, F', h3, -⟩ := ownedBy_mem _ _ _ _ hfd ho
    have hF : s.res.fds.Perm (fd :: ((F' ++ F2) ++ res.fds)) := hfp.trans ((h2.trans (h3.append_right F2)).append_right _)
    refine ⟨hF.mem_iff.2 List.mem_cons_self, fun hin => ?_⟩
    exact (List.nodup_cons.1 (hF.nodup_iff.1 hfn)).1 (List.mem_append_right _ hin)
  · exact hm.mem_iff.2 (List.mem_append_right _ (List.mem_append_right _ hb))
  · exact hfp.mem_iff.2 (List.mem_append_right _ hfd)
  · obtain ⟨rfl, rfl⟩ := ownedBy_done _ _ _ hd ho
    exact ⟨hfp, left, hm, hl, hsum⟩
  · rcases hq : s.failed with - | ⟨a, l⟩
    · rfl
    · have := hst (by rw [hq]; intro h; cases h)
      rw [hc] at this; cases this

/-! ### Executions that exist -/

namespace TDemo

/-- One call of one thread, with its result: for `malloc` and `open` the name plus one, or 0 for a failure; a pipe gets that name and
the next one. -/
def call (res : Res) (fl : List Nat) (x : Nat) : Task → Option (Res × List Nat × List Task)
  | .malloc n k =>
    match x with
    | 0 => some (res, fl, [k none])
    | p + 1 => if p ∉ res.mem.map Prod.fst then some (⟨(p, n) :: res.mem, res.fds⟩, fl, [k (some p)]) else none
  | .free p k =>
    if p ∈ res.mem.map Prod.fst then some (⟨res.mem.eraseP (fun b => b.1 == p), res.fds⟩, fl, [k]) else none
  | .pipe k =>
    match x with
    | 0 => some (res, fl, [k none])
    | a + 1 =>
      if a ∉ res.fds ∧ a + 1 ∉ res.fds then some (⟨res.mem, a :: (a + 1) :: res.fds⟩, fl, [k (some (a, a + 1))]) else none
  | .close fd k => if fd ∈ res.fds then some (⟨res.mem, res.fds.erase fd⟩, fl, [k]) else none
  | .pick k => some (res, fl, [k x])
  | .failed n k => some (res, n :: fl, [k])
  | .push job k => some (res, fl, [k, job])
  | _ => none

/-- Calls of the threads named first, with the results named second. -/
def play : Tasks → List (Nat × Nat) → Option Tasks
  | s, [] => some s
  | s, (i, x) :: l =>
    match s.tasks.drop i with
    | [] => none
    | t :: post =>
      match call s.res s.failed x t with
      | none => none
      | some (res, fl, ts) => play ⟨res, fl, s.tasks.take i ++ (ts ++ post)⟩ l

theorem call_step (res : Res) (fl : List Nat) (x : Nat) (t : Task) (pre post : List Task) (res' : Res) (fl' : List Nat) (ts : List Task)
    (h : call res fl x t = some (res', fl', ts)) : Tasks.Step ⟨res, fl, pre ++ t :: post⟩ ⟨res', fl', pre ++ (ts ++ post)⟩ := by
  cases t with
  | done => cases h
  | die => cases h
  | crash => cases h
  | openFd k => cases h
  | malloc n k =>
    cases x with
    | zero => cases h; exact .noMem ..
    | succ p =>
      unfold call at h
      simp only [] at h
      by_cases hp : p ∉ res.mem.map Prod.fst
      · rw [if_pos hp] at h; cases h; exact .malloc _ _ _ _ _ _ _ hp
      · rw [if_neg hp] at h; cases h
  | free p k =>
    unfold call at h
    simp only [] at h
    by_cases hp : p ∈ res.mem.map Prod.fst
    · rw [if_pos hp] at h; cases h; exact .free _ _ _ _ _ _ hp
    · rw [if_neg hp] at h; cases h
  | pipe k =>
    cases x with
    | zero => cases h; exact .noPipe ..
    | succ a =>
      unfold call at h
      simp only [] at h
      by_cases hp : a ∉ res.fds ∧ a + 1 ∉ res.fds
      · rw [if_pos hp] at h; cases h; exact .pipe _ _ _ _ _ _ _ hp.1 hp.2 (by omega)
      · rw [if_neg hp] at h; cases h
  | close fd k =>
    unfold call at h
    simp only [] at h
    by_cases hp : fd ∈ res.fds
    · rw [if_pos hp] at h; cases h; exact .close _ _ _ _ _ _ hp
    · rw [if_neg hp] at h; cases h
  | pick k => cases h; exact .pick ..
  | failed n k => cases h; exact .failed ..
  | push job k => cases h; exact .push ..

theorem play_reach (s0 : Tasks) (l : List (Nat × Nat)) : ∀ s t : Tasks, s0.Reach s → play s l = some t → s0.Reach t := by
  induction l with
  | nil => intro s t hs h; cases h; exact hs
  | cons a l ih =>
    intro s t hs h
    obtain ⟨i, x⟩ := a
    unfold play at h
    cases hd : s.tasks.drop i with
    | nil => rw [hd] at h; cases h
    | cons u post =>
      rw [hd] at h
      simp only [] at h
      cases hc : call s.res s.failed x u with
      | none => rw [hc] at h; cases h
      | some v =>
        obtain ⟨res, fl, ts⟩ := v
        rw [hc] at h
        simp only [] at h
        refine ih _ t (.step hs ?_) h
        have hst : s.tasks = s.tasks.take i ++ u :: post := by rw [← hd, List.take_append_drop]
        have := call_step s.res s.failed x u (s.tasks.take i) post res fl ts hc
        rw [← hst] at this
        exact this

/-- Whether a thread is done. -/
def isDone : Task → Bool
  | .done => true
  | _ => false

theorem isDone_eq (t : Task) (h : isDone t = true) : t = .done := by cases t <;> first | rfl | cases h

theorem play_done (s0 : Tasks) (l : List (Nat × Nat)) (P : Res → List Nat → Bool)
    (h : ((play s0 l).any fun t => t.tasks.all isDone && P t.res t.failed) = true) :
    ∃ t, s0.Reach t ∧ (∀ u ∈ t.tasks, u = .done) ∧ P t.res t.failed = true := by
  cases hp : play s0 l with
  | none => rw [hp] at h; cases h
  | some t =>
    rw [hp] at h
    simp only [Option.any_some, Bool.and_eq_true, List.all_eq_true] at h
    exact ⟨t, play_reach s0 l s0 t .refl hp, fun u hu => isDone_eq u (h.1 u hu), h.2⟩

/-- A client of a splice export of one plain file, with simple replies. -/
def splicer : Client := ⟨⟨F_SPLICE, 1000000, [⟨3, 0⟩], []⟩, false, [], 0, 0, 0, false, false⟩

/-- A client of a plain export, with structured replies. -/
def reader : Client := ⟨⟨0, 1000000, [⟨3, 0⟩], []⟩, false, [], 0, 0, 0, true, false⟩

def req (type start len : Nat) : Req := ⟨0x25609513, type, [1, 2, 3, 4, 5, 6, 7, 8], start, len⟩

end TDemo

open TDemo

/-- The hypotheses of `C88_threads_partial` are met: a read and a write of zeroes are worked on at the same time, while the reading
thread receives the disconnect request; the name of a block that one thread has freed is handed out to another one. The second part of
the read fails; its block of 6 bytes is left. -/
example : ([(1, 100)].map Prod.fst).Nodup ∧ ([0, 3] : List Nat).Nodup ∧
    ∃ s, (⟨⟨[(1, 100)], [0, 3]⟩, [], [sessionTask reader [req 0 0 10, req 6 0 5, req 2 0 0]]⟩ : Tasks).Reach s ∧
      (∀ t ∈ s.tasks, t = .done) ∧ s.res = ⟨[(16, 6), (1, 100)], [0, 3]⟩ ∧ s.failed = [10] := by
  refine ⟨by decide, by decide, ?_⟩
  obtain ⟨t, h1, h2, h3⟩ := play_done ⟨⟨[(1, 100)], [0, 3]⟩, [], [sessionTask reader [req 0 0 10, req 6 0 5, req 2 0 0]]⟩
    [(0, 11), (0, 1), (0, 12), (0, 0), (0, 13), (0, 1), (0, 14), (0, 0),
      (2, 15), (2, 0), (2, 16), (2, 1), (2, 4), (2, 0), (1, 16), (2, 17), (1, 1), (2, 1), (1, 1), (0, 19), (2, 0), (0, 1), (2, 0),
      (1, 5), (0, 20), (2, 0), (1, 1), (0, 0), (1, 0), (2, 0), (1, 1), (0, 0), (2, 0), (1, 0), (1, 0)]
    (fun res fl => decide (res = ⟨[(16, 6), (1, 100)], [0, 3]⟩ ∧ fl = [10])) (by decide +kernel)
  exact ⟨t, h1, h2, of_decide_eq_true h3⟩

/-- C88 is false if descriptor 0 is not in use when the session starts (a server started with its standard input closed, for one):
`package_dispose` closes only descriptors above 0, so a pipe that got descriptor 0 keeps it. -/
theorem C88_false_zero : ∃ s, (⟨⟨[], [3]⟩, [], [sessionTask splicer [req 1 0 5, req 2 0 0]]⟩ : Tasks).Reach s ∧
    (∀ t ∈ s.tasks, t = .done) ∧ s.res = ⟨[], [0, 3]⟩ := by
  obtain ⟨t, h1, h2, h3⟩ := play_done ⟨⟨[], [3]⟩, [], [sessionTask splicer [req 1 0 5, req 2 0 0]]⟩
    [(0, 11), (0, 1), (0, 12), (0, 1), (0, 1), (0, 1), (0, 0),
      (1, 1), (1, 1), (1, 5), (1, 1), (1, 1), (1, 0), (1, 0), (1, 0), (0, 13), (0, 1), (0, 14), (0, 0), (0, 0)]
    (fun res _ => decide (res = ⟨[], [0, 3]⟩)) (by decide +kernel)
  exact ⟨t, h1, h2, of_decide_eq_true h3⟩

end Props

end Nbd
