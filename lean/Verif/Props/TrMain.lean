import Verif.TrMain
import Verif.Props.TrLog
/-!
# nbd-trplay from the command line (C90)
-/

set_option autoImplicit false

namespace Nbd

namespace Spec

/-- The last answer other than `none`, or the given one. -/
def lastOpt {α β : Type} (f : α → Option β) (d : β) (l : List α) : β := l.foldl (fun b x => (f x).getD b) d

/-- What one option gives. -/
def PlayOpt.maxOf : PlayOpt → Option Nat
  | .max v => some (strtoull0 v)
  | _ => none
def PlayOpt.blockOf : PlayOpt → Option Nat
  | .block v => some (strtoull0 v)
  | _ => none
def PlayOpt.imageOf (env : PlayEnv) : PlayOpt → Option (Option FileId)
  | .image name => some (env.openImage name)
  | _ => none
def PlayOpt.logOf (env : PlayEnv) : PlayOpt → Option (Option (List Byte))
  | .log name => some (env.openLog name)
  | _ => none

/-- An option that is as it should be: a positive number of blocks, a block size from 1 to 131072, a file that can be opened. -/
def PlayOpt.Fine (env : PlayEnv) : PlayOpt → Prop
  | .verbose => True
  | .usage => False
  | .max v => 0 < strtoull0 v
  | .block v => 0 < strtoull0 v ∧ strtoull0 v ≤ 131072
  | .image name => env.openImage name ≠ none
  | .log name => env.openLog name ≠ none

end Spec

open Spec

theorem playOpts_fine (env : PlayEnv) (opts : List PlayOpt) : ∀ (v : PlayVars), (∀ o ∈ opts, PlayOpt.Fine env o) →
    playOpts env opts v = .inr ⟨lastOpt (PlayOpt.imageOf env) v.image opts, lastOpt (PlayOpt.logOf env) v.log opts,
      lastOpt PlayOpt.maxOf v.max opts, lastOpt PlayOpt.blockOf v.block opts⟩ := by
  induction opts with
  | nil => intro v _; rfl
  | cons o os ih =>
    intro v h
    have h1 := h o (List.mem_cons_self ..)
    have h2 : ∀ o ∈ os, PlayOpt.Fine env o := fun x hx => h x (List.mem_cons_of_mem _ hx)
    unfold playOpts
    cases o with
    | verbose => simp only [playOpt]; rw [ih _ h2]; rfl
    | usage => exact absurd h1 (by intro h; exact h)
    | max a =>
      simp only [PlayOpt.Fine] at h1
      simp only [playOpt]
      rw [if_neg (by omega)]
      simp only []
      rw [ih _ h2]; rfl
    | block a =>
      simp only [PlayOpt.Fine] at h1
      simp only [playOpt]
      rw [if_neg (by omega), if_neg (by unfold PLAYBUF; omega)]
      simp only []
      rw [ih _ h2]; rfl
    | image name =>
      simp only [PlayOpt.Fine] at h1
      simp only [playOpt]
      cases hi : env.openImage name with
      | none => exact absurd hi h1
      | some id =>
        simp only []
        rw [ih _ h2]
        simp [lastOpt, PlayOpt.imageOf, PlayOpt.logOf, PlayOpt.maxOf, PlayOpt.blockOf, hi]
    | log name =>
      simp only [PlayOpt.Fine] at h1
      simp only [playOpt]
      cases hi : env.openLog name with
      | none => exact absurd hi h1
      | some bs =>
        simp only []
        rw [ih _ h2]
        simp [lastOpt, PlayOpt.imageOf, PlayOpt.logOf, PlayOpt.maxOf, PlayOpt.blockOf, hi]

theorem playOpts_bad (env : PlayEnv) (pre : List PlayOpt) (o : PlayOpt) (post : List PlayOpt) : ∀ (v : PlayVars),
    (∀ x ∈ pre, PlayOpt.Fine env x) → ¬ PlayOpt.Fine env o →
    playOpts env (pre ++ o :: post) v = .inl (if o = .usage then 0 else 1) := by
  induction pre with
  | nil =>
    intro v _ hb
    rw [List.nil_append, playOpts]
    cases o with
    | verbose => exact absurd trivial hb
    | usage => rfl
    | max a =>
      simp only [PlayOpt.Fine] at hb
      simp only [playOpt]
      rw [if_pos (by omega)]; rfl
    | block a =>
      simp only [PlayOpt.Fine] at hb
      simp only [playOpt]
      by_cases h0 : strtoull0 a = 0
      · rw [if_pos h0]; rfl
      · rw [if_neg h0, if_pos (by unfold PLAYBUF; omega)]; rfl
    | image name =>
      simp only [PlayOpt.Fine, ne_eq, Classical.not_not] at hb
      simp only [playOpt, hb]; rfl
    | log name =>
      simp only [PlayOpt.Fine, ne_eq, Classical.not_not] at hb
      simp only [playOpt, hb]; rfl
  | cons p ps ih =>
    intro v h hb
    have h1 := playOpts_fine env [p] v (by intro x hx; rw [List.mem_singleton] at hx; subst hx; exact h x (List.mem_cons_self ..))
    rw [List.cons_append, playOpts]
    rw [playOpts] at h1
    cases hp : playOpt env v p with
    | inl c => rw [hp] at h1; cases h1
    | inr v' => exact ih v' (fun x hx => h x (List.mem_cons_of_mem _ hx)) hb

namespace Props

/-- C90: with options that are as they should be, the last `-l` is replayed onto the last `-i`, with the last `-b` (else 512) for the block size and the last `-m`
(else no limit to speak of) for the number of blocks; if the image or the log is not given, nothing is written and the status is 1. -/
theorem C90_last_options (e : Endian) (env : PlayEnv) (opts : List PlayOpt) (w : World) (h : ∀ o ∈ opts, PlayOpt.Fine env o) :
    playMain e env opts w =
      match lastOpt (PlayOpt.imageOf env) none opts, lastOpt (PlayOpt.logOf env) none opts with
      | some id, some log => trplay e (lastOpt PlayOpt.blockOf 512 opts) (lastOpt PlayOpt.maxOf (2 ^ 64 - 1) opts) id log false w 0
      | _, _ => ⟨w, 0, 1⟩ := by
  unfold playMain
  rw [playOpts_fine env opts _ h]
  simp only [PlayVars.init]
  generalize lastOpt (PlayOpt.imageOf env) none opts = i
  generalize lastOpt (PlayOpt.logOf env) none opts = l
  cases l <;> cases i <;> rfl

/-- C90: if an option is not, nothing is written. The status is that of the first such option: 1, but 0 if it is `-h` or one that nbd-trplay does not have. -/
theorem C90_bad_option (e : Endian) (env : PlayEnv) (pre : List PlayOpt) (o : PlayOpt) (post : List PlayOpt) (w : World)
    (hpre : ∀ x ∈ pre, PlayOpt.Fine env x) (hb : ¬ PlayOpt.Fine env o) :
    playMain e env (pre ++ o :: post) w = ⟨w, 0, if o = .usage then 0 else 1⟩ := by
  unfold playMain
  rw [playOpts_bad env pre o post _ hpre hb]

/-- C90, the part about the exit status, is false: a mistyped option makes nbd-trplay do nothing and report success. -/
theorem C90_false_typo (e : Endian) (env : PlayEnv) (pre post : List PlayOpt) (w : World) (hpre : ∀ x ∈ pre, PlayOpt.Fine env x) :
    playMain e env (pre ++ .usage :: post) w = ⟨w, 0, 0⟩ :=
  C90_bad_option e env pre .usage post w hpre (fun h => h)

end Props

/-- One write request, of a shortened log. -/
theorem playWrites_take (bsz max : Nat) (id : FileId) (n : Nat) : ∀ (off : Nat) (log : List Byte) (w : World) (cur m : Nat),
    (∃ q, playWrites bsz max id n off (log.take m) w cur = .inl q ∧ q.code = 0) ∨
    (∃ p, playWrites bsz max id n off log w cur = .inl p ∧ playWrites bsz max id n off (log.take m) w cur = .inl p) ∨
    ∃ w' cur' rest m', playWrites bsz max id n off log w cur = .inr (w', cur', rest) ∧
      playWrites bsz max id n off (log.take m) w cur = .inr (w', cur', rest.take m') := by
  induction n with
  | zero => intro off log w cur m; exact .inr (.inr ⟨w, cur, log, m, rfl, rfl⟩)
  | succ n ih =>
    intro off log w cur m
    rw [playWrites, playWrites]
    by_cases hm : (log.take m).length < bsz
    · rw [if_pos hm]; exact .inl ⟨_, rfl, rfl⟩
    · have hl : ¬ log.length < bsz := by
        rw [List.length_take] at hm; omega
      have ht : (log.take m).take bsz = log.take bsz := by
        rw [List.take_take, Nat.min_eq_left (by rw [List.length_take] at hm; omega)]
      have hd : (log.take m).drop bsz = (log.drop bsz).take (m - bsz) := by rw [List.drop_take]
      rw [if_neg hm, if_neg hl, ht, hd]
      rcases writeImage w id (log.take bsz) off with ⟨w1, _ | c⟩
      · simp only []
        by_cases hc : cur + 1 = max
        · rw [if_pos hc, if_pos hc]; exact .inr (.inl ⟨_, rfl, rfl⟩)
        · rw [if_neg hc, if_neg hc]; exact ih _ _ _ _ _
      · exact .inr (.inl ⟨_, rfl, rfl⟩)

theorem processCommand_take (bsz max : Nat) (id : FileId) (r : Req) (dl : Bool) (log : List Byte) (w : World) (cur m : Nat) :
    (∃ q, processCommand bsz max id r dl (log.take m) w cur = .inl q ∧ q.code = 0) ∨
    (∃ p, processCommand bsz max id r dl log w cur = .inl p ∧ processCommand bsz max id r dl (log.take m) w cur = .inl p) ∨
    ∃ w' cur' rest m', processCommand bsz max id r dl log w cur = .inr (w', cur', rest) ∧
      processCommand bsz max id r dl (log.take m) w cur = .inr (w', cur', rest.take m') := by
  unfold processCommand
  by_cases h1 : r.start % bsz ≠ 0
  · rw [if_pos h1, if_pos h1]; exact .inr (.inl ⟨_, rfl, rfl⟩)
  rw [if_neg h1, if_neg h1]
  by_cases h2 : r.len % bsz ≠ 0
  · rw [if_pos h2, if_pos h2]; exact .inr (.inl ⟨_, rfl, rfl⟩)
  rw [if_neg h2, if_neg h2]
  by_cases h3 : r.type % 65536 = CMD_READ ∨ r.type % 65536 = CMD_DISC ∨ r.type % 65536 = CMD_FLUSH
  · rw [if_pos h3, if_pos h3]; exact .inr (.inr ⟨_, _, _, m, rfl, rfl⟩)
  rw [if_neg h3, if_neg h3]
  by_cases h4 : r.type % 65536 = CMD_WRITE
  · rw [if_pos h4, if_pos h4]
    cases dl with
    | false => exact .inr (.inl ⟨_, rfl, rfl⟩)
    | true => exact playWrites_take bsz max id _ _ _ _ _ _
  rw [if_neg h4, if_neg h4]
  by_cases h5 : r.type % 65536 = CMD_TRIM ∨ r.type % 65536 = CMD_WRITE_ZEROES
  · rw [if_pos h5, if_pos h5]
    rcases playZeros bsz max id (r.len / bsz) r.start w cur with p | ⟨w1, c1⟩
    · exact .inr (.inl ⟨_, rfl, rfl⟩)
    · exact .inr (.inr ⟨_, _, _, m, rfl, rfl⟩)
  · rw [if_neg h5, if_neg h5]; exact .inr (.inl ⟨_, rfl, rfl⟩)

/-- A shortened log is replayed successfully if the whole one is. -/
theorem trplay_take (e : Endian) (bsz max : Nat) (id : FileId) (k : Nat) : ∀ (log : List Byte) (dl : Bool) (w : World) (cur m : Nat),
    log.length ≤ k → (trplay e bsz max id log dl w cur).code = 0 → (trplay e bsz max id (log.take m) dl w cur).code = 0 := by
  induction k with
  | zero =>
    intro log dl w cur m hk _
    have : log = [] := List.length_eq_zero_iff.mp (by omega)
    subst this
    rw [List.take_nil, trplay, if_pos (by decide)]
  | succ k ih =>
    intro log dl w cur m hk h
    rw [trplay] at h ⊢
    by_cases hm : (log.take m).length < 4
    · rw [if_pos hm]
    have hlen : (log.take m).length = min m log.length := List.length_take
    rw [if_neg hm]
    rw [if_neg (by omega)] at h
    have tk : ∀ n, n ≤ m → (log.take m).take n = log.take n := by
      intro n hn; rw [List.take_take, Nat.min_eq_left hn]
    simp only [tk 4 (by omega)]
    simp only [] at h
    by_cases h1 : ntohl e (load32 e (log.take 4)) = REQUEST_MAGIC
    · rw [if_pos h1] at h ⊢
      by_cases h28 : (log.take m).length < 28
      · rw [if_pos h28]
      · rw [if_neg h28]
        rw [if_neg (by omega)] at h
        rw [tk 28 (by omega), List.drop_take]
        rcases processCommand_take bsz max id (loadReq e (log.take 28)) dl (log.drop 28) w cur (m - 28) with
          ⟨q, hq, hc⟩ | ⟨p, hp, hq⟩ | ⟨w', cur', rest, m', hp, hq⟩
        · split
          · rename_i hx; rw [hq] at hx; cases hx; exact hc
          · rename_i hx; rw [hq] at hx; cases hx
        · split
          · rename_i hx
            rw [hq] at hx; cases hx
            split at h
            · rename_i hy; rw [hp] at hy; cases hy; exact h
            · rename_i hy; rw [hp] at hy; cases hy
          · rename_i hx; rw [hq] at hx; cases hx
        · split
          · rename_i hx; rw [hq] at hx; cases hx
          · rename_i hx
            rw [hq] at hx; cases hx
            split at h
            · rename_i hy; rw [hp] at hy; cases hy
            · rename_i hy
              rw [hp] at hy; cases hy
              have := processCommand_le _ _ _ _ _ _ _ _ _ _ _ hp
              rw [List.length_drop] at this
              exact ih _ _ _ _ _ (by omega) h
    rw [if_neg h1] at h ⊢
    by_cases h2 : ntohl e (load32 e (log.take 4)) = REPLY_MAGIC
    · rw [if_pos h2] at h ⊢
      by_cases h16 : (log.take m).length < 16
      · rw [if_pos h16]
      · rw [if_neg h16, List.drop_take]
        rw [if_neg (by omega)] at h
        exact ih _ _ _ _ _ (by rw [List.length_drop]; omega) h
    rw [if_neg h2] at h ⊢
    by_cases h3 : ntohl e (load32 e (log.take 4)) = TRACELOG_MAGIC
    · rw [if_pos h3] at h ⊢
      by_cases h28 : (log.take m).length < 28
      · rw [if_pos h28]
      · rw [if_neg h28, tk 28 (by omega), List.drop_take]
        rw [if_neg (by omega)] at h
        exact ih _ _ _ _ _ (by rw [List.length_drop]; omega) h
    · rw [if_neg h3] at h; cases h

namespace Props

/-- C90, the part about the exit status, is false of a log that has been cut off, anywhere, as by a full disk: replaying what is left reports success whenever
replaying the whole log does. -/
theorem C90_false_truncated (e : Endian) (bsz max : Nat) (id : FileId) (log : List Byte) (w : World) (n : Nat)
    (h : (trplay e bsz max id log false w 0).code = 0) : (trplay e bsz max id (log.take n) false w 0).code = 0 :=
  trplay_take e bsz max id _ log false w 0 n (Nat.le_refl _) h

/-- The case of a write of four bytes of which only two were logged: the status is 0, the write was acknowledged to the client, and the image does not have
it all. -/
theorem C90_false_truncated_write :
    ∃ (cl : Client) (w w0 : World) (ss : List Sent) (n : Nat), (∀ s ∈ ss, s.Ok) ∧
      (∃ img, w0.files (.fd 9) = some img ∧ img.data = view cl.ex w) ∧
      (mainloop .little cl w (ss.flatMap Sent.encode)).sent = wire [.simple 0 Demo.cookie []] ∧
      (view cl.ex (mainloop .little cl w (ss.flatMap Sent.encode)).w).read 4 4 = [10, 11, 12, 13] ∧
      let p := trplay .little 2 100 (.fd 9) ((loggedSession .little cl w (ss.flatMap Sent.encode) []).2.take n) false w0 0
      p.code = 0 ∧ (p.w.files (.fd 9)).map (fun f => f.data.read 4 4) = some [10, 11, 2, 3] := by
  refine ⟨logClient false, Demo.world, imageWorld Demo.stingy, [Demo.write 4 [10, 11, 12, 13]], 28 + 28 + 2, ?_, ⟨_, rfl, rfl⟩, ?_, ?_, ?_, ?_⟩
  · intro s hs
    rw [List.mem_singleton] at hs
    subst hs
    exact ⟨⟨by decide, by decide, by decide, by decide, by decide⟩, rfl, by decide, by decide⟩
  all_goals decide +kernel

/-- C90: the whole way from a logged session to the image, for nbd-trplay started as it should be. See `C41_partial` for the conditions on the session: the status is
0 unless the kernel reported an error, and then the image holds what the export held after the session, or after the number of blocks asked for. -/
theorem C90_partial (e : Endian) (cl : Client) (w : World) (hp : Plain cl) (hlog : has cl.ex.flags F_DATALOG = true)
    (hns : has cl.ex.flags F_SPLICE = false) (ss : List Sent) (hok : ∀ s ∈ ss, s.Ok)
    (fin : Option Request) (hfin : ∀ r ∈ fin, r.IsDisc)
    (env : PlayEnv) (opts : List PlayOpt) (hopts : ∀ o ∈ opts, PlayOpt.Fine env o)
    (bsz max : Nat) (hbsz : bsz = lastOpt PlayOpt.blockOf 512 opts) (hmax : max = lastOpt PlayOpt.maxOf (2 ^ 64 - 1) opts)
    (id : FileId) (himage : lastOpt (PlayOpt.imageOf env) none opts = some id)
    (hfile : lastOpt (PlayOpt.logOf env) none opts = some (loggedSession e cl w (ss.flatMap Sent.encode ++ closing fin) []).2)
    (hal : ∀ s ∈ ss, s.req.start % bsz = 0 ∧ s.req.len % bsz = 0)
    (half : ∀ r ∈ fin, r.start % bsz = 0 ∧ r.len % bsz = 0)
    (hcode : ∀ s ∈ ss, s.req.type % 65536 ∈ [0, 1, 3, 6])
    (hz : ∀ s ∈ ss, s.req.type % 65536 = 6 → s.req.len ≤ 64 * 1024 * 1024)
    (hsimple : cl.structured = false ∨ ∀ s ∈ ss, s.req.type % 65536 ≠ 0)
    (hend : Clean (mainloop e cl w (ss.flatMap Sent.encode ++ closing fin)).ending)
    (hacc : ∀ d ∈ (mainloop e cl w (ss.flatMap Sent.encode ++ closing fin)).handled,
        d.req.type % 65536 = 1 ∨ d.req.type % 65536 = 6 → Acked d)
    (w0 : World) (img : File) (himg : w0.files id = some img) (hcopy : img.data = view cl.ex w)
    (hmoves : ∀ t, w0.orc t ≠ .done 0)
    (p : Played) (hplay : p = playMain e env opts w0) :
    (p.code = 0 ∨ (p.code = 1 ∧ ∃ t n, w0.orc t = .err n)) ∧
    (p.code = 0 →
      ∃ img', p.w.files id = some img' ∧
        img'.data = applyBlocks (view cl.ex w) ((ss.flatMap fun s => s.req.pieces bsz s.data).take max) ∧
        p.blocks = min max (ss.flatMap fun s => s.req.pieces bsz s.data).length ∧
        ((ss.flatMap fun s => s.req.pieces bsz s.data).length ≤ max →
          img'.data = view cl.ex (mainloop e cl w (ss.flatMap Sent.encode ++ closing fin)).w)) := by
  have pos : ∀ (f : PlayOpt → Option Nat), (∀ o, PlayOpt.Fine env o → ∀ x, f o = some x → 0 < x) → ∀ (l : List PlayOpt) (d : Nat),
      (∀ o ∈ l, PlayOpt.Fine env o) → 0 < d → 0 < lastOpt f d l := by
    intro f hf l
    induction l with
    | nil => intro d _ hd; exact hd
    | cons o l ih =>
      intro d hl hd
      refine ih _ (fun x hx => hl x (List.mem_cons_of_mem _ hx)) ?_
      have ho := hl o (List.mem_cons_self ..)
      show 0 < (f o).getD d
      cases hx : f o with
      | none => exact hd
      | some y => exact hf o ho y hx
  have hb0 : 0 < bsz := by
    rw [hbsz]
    refine pos _ ?_ opts _ hopts (by decide)
    intro o ho x hx
    cases o <;> simp only [PlayOpt.blockOf] at hx <;> cases hx
    exact ho.1
  have hm0 : 0 < max := by
    rw [hmax]
    refine pos _ ?_ opts _ hopts (by decide)
    intro o ho x hx
    cases o <;> simp only [PlayOpt.maxOf] at hx <;> cases hx
    exact ho
  refine C41_partial e cl w hp hlog hns ss hok fin hfin bsz max hb0 hm0 hal half hcode hz hsimple hend hacc w0 id img himg hcopy hmoves p ?_
  rw [hplay, C90_last_options e env opts w0 hopts, himage, hfile, ← hbsz, ← hmax]

/-- The files of the example: the log and the image of `Verif.Props.TrLog`. -/
def playEnv : PlayEnv where
  openImage name := if name = ascii "disk" then some (.fd 9) else none
  openLog name := if name = ascii "log" then
    some (loggedSession .little (logClient false) Demo.world (logSent.flatMap Sent.encode ++ closing (some logBye)) []).2 else none

def playOptions : List PlayOpt := [.block (ascii "1024"), .verbose, .image (ascii "disk"), .block (ascii "0x2"), .log (ascii "log")]

/-- `C90_partial`'s hypotheses about the command line are met (those about the session are shown beside `C41_partial`), and nbd-trplay restores the image. -/
example : (∀ o ∈ playOptions, PlayOpt.Fine playEnv o) ∧ lastOpt PlayOpt.blockOf 512 playOptions = 2 ∧
    lastOpt (PlayOpt.imageOf playEnv) none playOptions = some (.fd 9) ∧
    (playMain .little playEnv playOptions (imageWorld Demo.stingy)).code = 0 ∧
    ((playMain .little playEnv playOptions (imageWorld Demo.stingy)).w.files (.fd 9)).map
      (fun f => f.data.read 0 11) = some [1, 2, 3, 4, 10, 11, 0, 0, 20, 21, 6] := by
  refine ⟨?_, by decide +kernel, by decide +kernel, by decide +kernel, by decide +kernel⟩
  intro o ho
  simp only [playOptions, List.mem_cons, List.not_mem_nil, or_false] at ho
  rcases ho with rfl | rfl | rfl | rfl | rfl
  · exact ⟨by decide +kernel, by decide +kernel⟩
  · trivial
  · show playEnv.openImage _ ≠ none
    decide +kernel
  · exact ⟨by decide +kernel, by decide +kernel⟩
  · show playEnv.openLog _ ≠ none
    simp [playEnv]

/-- Command lines that are refused. -/
example : ¬ PlayOpt.Fine playEnv (.block (ascii "131073")) ∧ ¬ PlayOpt.Fine playEnv (.max (ascii "all")) ∧
    ¬ PlayOpt.Fine playEnv (.image (ascii "disc")) := by
  refine ⟨fun h => absurd h.2 (by decide +kernel), fun h => ?_, fun h => h (by decide +kernel)⟩
  have h : 0 < strtoull0 (ascii "all") := h
  exact absurd h (by decide +kernel)

end Props

end Nbd
