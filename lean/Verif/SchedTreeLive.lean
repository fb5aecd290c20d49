import Verif.SchedSafe
import Verif.SchedTreeGood
import Verif.SchedCow
/-! # Sessions on trees end, and do not fail while the system calls work -/

set_option autoImplicit false

namespace Nbd
open Spec

/-! ### Safety while the state stays in a set -/

/-- A program that neither ends the process nor runs into undefined behaviour, as long as it finds a state in `I` at each of its steps,
and leaves one. -/
def Prog.SafeIn {σ : Type} (I : σ → Prop) : Prog σ → Prop
  | .done _ => True
  | .op f k => ∀ s, I s → ∃ s' a, f s = .val (s', a) ∧ I s' ∧ (k a).SafeIn I
  | .send _ k => k.SafeIn I
  | .log _ k => k.SafeIn I

/-- What a thread has to do cannot fail. -/
def Worker.SafeIn {σ : Type} (I : σ → Prop) : Worker σ → Prop
  | .idle _ => True
  | .busy _ p => p.SafeIn I
  | .sending _ _ _ k => k.SafeIn I

/-- The main loop and all programs of a server are safe in `I`. -/
structure Server.SafeIn {σ : Type} (I : σ → Prop) (v : Server σ) (J : Job → Prop) : Prop where
  take : ∀ st stream, v.take st stream ≠ .ub ∧ v.take st stream ≠ .exit
  kept : ∀ st stream st' x, I st → v.take st stream = .val (st', x) → I st'
  job : ∀ st stream st' n r p rest, v.take st stream = .val (st', .push r p rest) → J ⟨n, r, p⟩
  code : ∀ en j, J j → (v.code en j.req j.payload).SafeIn I

/-- Nothing has failed and nothing will. -/
structure Session.SoundIn {σ : Type} (I : σ → Prop) (J : Job → Prop) (s : Session σ) : Prop where
  main : s.main ≠ .broken
  queue : ∀ j ∈ s.queue, J j
  workers : ∀ x ∈ s.workers, x.SafeIn I

theorem Session.SoundIn.set {σ : Type} {I : σ → Prop} {J : Job → Prop} {s s' : Session σ} (h : s.SoundIn I J) {i : Nat}
    {y : Worker σ} (hy : y.SafeIn I) (h1 : s'.main = s.main) (h2 : s'.queue = s.queue)
    (h3 : s'.workers = s.workers.set i y) : s'.SoundIn I J := by
  refine ⟨by rw [h1]; exact h.main, by rw [h2]; exact h.queue, ?_⟩
  rw [h3]
  intro x hx
  rcases List.mem_or_eq_of_mem_set hx with hx | rfl
  · exact h.workers x hx
  · exact hy

theorem Step.soundIn {σ : Type} {I : σ → Prop} {v : Server σ} {J : Job → Prop} (hv : v.SafeIn I J) {sid : Nat}
    {sh sh' : Shared σ} {s s' : Session σ} {evs : List Ext} (h : Step v sid sh s evs sh' s')
    (hst : I sh.st) (hi : s.SoundIn I J) : I sh'.st ∧ s'.SoundIn I J := by
  cases h with
  | accept st r p rest hm hk hsem h =>
    refine ⟨hv.kept _ _ _ _ hst h, hi.main, ?_, hi.workers⟩
    intro j hj
    rcases List.mem_append.mp hj with hj | hj
    · exact hi.queue j hj
    · rw [List.mem_singleton] at hj; subst hj; exact hv.job _ _ _ _ _ _ _ h
  | hold hm hk hsem => exact ⟨hst, by simp, hi.queue, hi.workers⟩
  | acceptData st r bs rest hm h =>
    refine ⟨hv.kept _ _ _ _ hst h, by simp, ?_, hi.workers⟩
    intro j hj
    rcases List.mem_append.mp hj with hj | hj
    · exact hi.queue j hj
    · rw [List.mem_singleton] at hj; subst hj; exact hv.job _ _ _ _ _ _ _ h
  | magic hm hb => exact ⟨hst, by simp, hi.queue, hi.workers⟩
  | gone st hm hb h => exact ⟨hv.kept _ _ _ _ hst h, by simp, hi.queue, hi.workers⟩
  | disc st rest hm hk hsem h => exact ⟨hv.kept _ _ _ _ hst h, by simp, hi.queue, hi.workers⟩
  | takeFails ph hm h =>
    rcases h with ⟨h, _⟩ | ⟨h, _⟩
    · exact absurd h (hv.take _ _).1
    · exact absurd h (hv.take _ _).2
  | close hm hq hw => exact ⟨hst, by simp, hi.queue, hi.workers⟩
  | start i en j q ha hw hq =>
    refine ⟨hst, hi.main, fun j' hj' => hi.queue j' (by rw [hq]; exact List.mem_cons_of_mem _ hj'), ?_⟩
    intro x hx
    rcases List.mem_or_eq_of_mem_set hx with hx | rfl
    · exact hi.workers x hx
    · exact hv.code en j (hi.queue j (by rw [hq]; exact List.mem_cons_self))
  | op i j f k st a ha hw h =>
    have := hi.workers _ (List.mem_of_getElem? hw)
    obtain ⟨s1, a1, e1, e2, e3⟩ := this sh.st hst
    rw [h] at e1
    cases e1
    exact ⟨e2, hi.set (y := .busy j (k a)) e3 rfl rfl rfl⟩
  | opFails i j f k ph ha hw h =>
    have := hi.workers _ (List.mem_of_getElem? hw)
    obtain ⟨s1, a1, e1, e2⟩ := this sh.st hst
    rcases h with ⟨h, _⟩ | ⟨h, _⟩ <;> rw [h] at e1 <;> cases e1
  | lock i j m k ha hw hl =>
    have : k.SafeIn I := hi.workers _ (List.mem_of_getElem? hw)
    exact ⟨hst, hi.set (y := .sending j m m.bytes k) this rfl rfl rfl⟩
  | write i j m xs ys k ha hw hx hy =>
    have : k.SafeIn I := hi.workers _ (List.mem_of_getElem? hw)
    exact ⟨hst, hi.set (y := .sending j m ys k) this rfl rfl rfl⟩
  | unlock i j m rest k ha hw =>
    have : k.SafeIn I := hi.workers _ (List.mem_of_getElem? hw)
    exact ⟨hst, hi.set (y := .busy j k) this rfl rfl rfl⟩
  | log i j bs k ha hw hsem =>
    have : k.SafeIn I := hi.workers _ (List.mem_of_getElem? hw)
    exact ⟨hst, hi.set (y := .busy j k) this rfl rfl rfl⟩
  | finish i j en ha hw => exact ⟨hst, hi.set (y := .idle en) trivial rfl rfl rfl⟩

/-- Only a wrong magic makes a process exit. -/
theorem Step.deadIn {σ : Type} {I : σ → Prop} {v : Server σ} {J : Job → Prop} (hv : v.SafeIn I J) {sid : Nat}
    {sh sh' : Shared σ} {s s' : Session σ} {evs : List Ext} (h : Step v sid sh s evs sh' s')
    (hst : I sh.st) (hi : s.SoundIn I J) (hd : s'.main = .dead) :
    s.main = .dead ∨ ((s.main = .reading ∨ s.main = .payload) ∧ v.badMagic s.stream = true) := by
  cases h with
  | magic hm hb =>
    rcases hm with hm | hm
    · exact .inr ⟨.inl hm.1, hb⟩
    · exact .inr ⟨.inr hm, hb⟩
  | takeFails ph hm h =>
    rcases h with ⟨h, _⟩ | ⟨h, _⟩
    · exact absurd h (hv.take _ _).1
    · exact absurd h (hv.take _ _).2
  | opFails i j f k ph ha hw h =>
    have := hi.workers _ (List.mem_of_getElem? hw)
    obtain ⟨s1, a1, e1, e2⟩ := this sh.st hst
    rcases h with ⟨h, _⟩ | ⟨h, _⟩ <;> rw [h] at e1 <;> cases e1
  | _ => first | exact .inl hd | cases hd

/-- At every moment of an execution the state is in `I` and all sessions are sound. -/
theorem Exec.soundIn {σ : Type} {I : σ → Prop} {J : Job → Prop} {v : Nat → Server σ} (hv : ∀ sid, (v sid).SafeIn I J)
    {S T : System σ} {tr : List (Nat × Ext)} (hf : ∀ s ∈ S.sessions, s.Fresh) (hst : I S.sh.st) (hx : Exec v S tr T) :
    I T.sh.st ∧ ∀ s ∈ T.sessions, s.SoundIn I J := by
  induction hx with
  | nil =>
    refine ⟨hst, fun s hs => ?_⟩
    obtain ⟨_, _, _, rfl⟩ := hf s hs
    refine ⟨by simp [Session.fresh], by simp [Session.fresh], ?_⟩
    intro x hx
    obtain ⟨en, _, rfl⟩ := List.mem_map.mp hx
    trivial
  | step tr T sid s s' evs sh' h hs h1 ih =>
    obtain ⟨h2, h3⟩ := h1.soundIn (hv sid) ih.1 (ih.2 s (List.mem_of_getElem? hs))
    refine ⟨h2, fun x hx => ?_⟩
    rcases List.mem_or_eq_of_mem_set hx with hx | rfl
    · exact ih.2 x hx
    · exact h3

/-! ### Trees -/

/-- No system call fails, and none that moves bytes moves none. -/
def Working (w : World) : Prop := ∀ t, ∃ m, w.orc t = .done (m + 1)

theorem Working.next {w : World} (h : Working w) : ∃ m, w.next = .done (m + 1) := h w.tick

theorem Working.of_orc {w w' : World} (h : Working w) (ho : w'.orc = w.orc) : Working w' := by
  unfold Working; rw [ho]; exact h

theorem call_safeIn {α : Type} {f : World → Out (World × α)} {en : Nat} {k : α → Nat → Prog World}
    (h : ∀ w, Working w → ∃ w' a, f w = .val (w', a) ∧ w'.orc = w.orc ∧ ∀ en', (k a en').SafeIn Working) :
    (call f en k).SafeIn Working := by
  intro w hw
  obtain ⟨w', a, h1, h2, h3⟩ := h { w with errno := en } (hw.of_orc rfl)
  exact ⟨w', (a, w'.errno), by dsimp only; rw [h1], hw.of_orc h2, h3 _⟩

theorem sendReplyP_safeIn {σ : Type} {I : σ → Prop} (lg : Bool) (m : Msg) (k : Prog σ) (h : k.SafeIn I) :
    (sendReplyP lg m k).SafeIn I := by
  unfold sendReplyP
  split <;> exact h

theorem sendChunkP_safeIn {σ : Type} {I : σ → Prop} (lg : Bool) (m : Msg) (k : Prog σ) (h : k.SafeIn I) :
    (sendChunkP lg m k).SafeIn I := by
  unfold sendChunkP
  show (if lg then _ else _ : Prog σ).SafeIn I
  split <;> exact h

theorem sendChunksP_safeIn {σ : Type} {I : σ → Prop} (lg : Bool) (ms : List Msg) (k : Prog σ) (h : k.SafeIn I) :
    (sendChunksP lg ms k).SafeIn I := by
  induction ms with
  | nil => exact h
  | cons m ms ih => exact sendChunkP_safeIn lg m _ ih

theorem treeLevels_le {d : Nat} : ∀ {size : Nat}, size < 2 ^ 22 * 1024 ^ d → treeLevels size ≤ d := by
  induction d with
  | zero =>
    intro size h
    rw [treeLevels_small (by simp only [TREEDIRSIZE, TREEPAGESIZE]; omega)]
    omega
  | succ d ih =>
    intro size h
    by_cases hs : size < TREEDIRSIZE * TREEPAGESIZE
    · rw [treeLevels_small hs]; omega
    · rw [treeLevels_big hs]
      have := ih (size := size / TREEDIRSIZE) (by rw [Nat.pow_succ] at h; simp only [TREEDIRSIZE]; omega)
      omega

/-- A name of up to 4040 characters leaves room for the path of every block. -/
theorem treeFilename_some {name : List Char} (hn : name.length ≤ 4040) {size : Nat} (hs : size ≤ 2 ^ 63) (pos : Nat) :
    ∃ p, treeFilename name size pos = some p := by
  have hl : treeLevels size ≤ 5 := treeLevels_le (by omega)
  have := (constructPath_isSome ((PATH_MAX : Int) - name.length - 1) size pos).mpr (by
    simp only [PATH_MAX]; omega)
  rw [Option.isSome_iff_exists] at this
  obtain ⟨⟨p, pp⟩, hp⟩ := this
  exact ⟨_, by unfold treeFilename; rw [hp]⟩

theorem openTreeP_safeIn {ex : Export} (hn : ex.name.length ≤ 4040) (hs : ex.exportsize ≤ 2 ^ 63) (a : Nat)
    (k : Handle → Nat → Prog World) (hk : ∀ h en, (k h en).SafeIn Working) (en : Nat) :
    (openTreeP ex a k en).SafeIn Working := by
  obtain ⟨p, hp⟩ := treeFilename_some hn hs a
  unfold openTreeP
  rw [hp]
  dsimp only
  refine call_safeIn fun w hw => ?_
  obtain ⟨m, hm⟩ := hw.next
  unfold openOld
  rw [hm]
  cases w.files (.path p) with
  | some f => exact ⟨_, _, rfl, rfl, fun en' => hk _ _⟩
  | none =>
    refine ⟨_, _, rfl, rfl, fun en' => ?_⟩
    dsimp only
    split
    · refine call_safeIn fun w hw => ?_
      obtain ⟨m, hm⟩ := hw.next
      have h2 : ∀ en, (call (extend p) en fun _ en => k (.file (.path p)) en).SafeIn Working := by
        intro en
        refine call_safeIn fun w hw => ?_
        obtain ⟨m, hm⟩ := hw.next
        unfold extend
        rw [hm]
        cases w.files (.path p) with
        | some f => exact ⟨_, _, rfl, rfl, fun en' => hk _ _⟩
        | none => exact ⟨_, _, rfl, rfl, fun en' => hk _ _⟩
      unfold openNew
      rw [hm]
      cases w.files (.path p) with
      | some f => exact ⟨_, _, rfl, rfl, h2⟩
      | none => exact ⟨_, _, rfl, rfl, h2⟩
    · refine call_safeIn fun w hw => ?_
      obtain ⟨m, hm⟩ := hw.next
      unfold openDummy
      rw [hm]
      exact ⟨_, _, rfl, rfl, fun en' => hk _ _⟩

theorem handlePwrite_orc' (w : World) (h : Handle) (off : Nat) (bs : List Byte) : (handlePwrite w h off bs).1.orc = w.orc := by
  unfold handlePwrite sysPwrite
  cases h with
  | file id =>
    dsimp only
    cases w.files id with
    | none => rfl
    | some f => dsimp only; cases w.next <;> rfl
  | bad => rfl
  | dummy => dsimp only; cases w.next <;> rfl

theorem handlePread_orc' (w : World) (h : Handle) (off len : Nat) : (handlePread w h off len).1.orc = w.orc := by
  unfold handlePread sysPread
  cases h with
  | file id =>
    dsimp only
    cases w.files id with
    | none => rfl
    | some f => dsimp only; cases w.next <;> rfl
  | bad => rfl
  | dummy => dsimp only; cases w.next <;> rfl

theorem sysFsync_orc' (w : World) (id : FileId) : (sysFsync w id).1.orc = w.orc := by
  unfold sysFsync
  cases w.files id with
  | none => rfl
  | some f => dsimp only; cases w.next <;> rfl

theorem handleSync_orc' (w : World) (h : Handle) : (handleSyncIgnored w h).orc = w.orc := by
  unfold handleSyncIgnored
  cases h with
  | file id => exact sysFsync_orc' w id
  | bad => rfl
  | dummy => dsimp only; cases w.next <;> rfl

theorem writeFullyT_safeIn {ex : Export} (hn : ex.name.length ≤ 4040) (hs : ex.exportsize ≤ 2 ^ 63) (fua : Bool)
    (k : Bool → Nat → Prog World) (hk : ∀ ok en, (k ok en).SafeIn Working) (a : Nat) (buf : List Byte) (en : Nat) :
    (writeFullyT ex fua k a buf en).SafeIn Working := by
  generalize hl : buf.length = n
  induction n using Nat.strongRecOn generalizing a buf en with
  | _ n ih =>
    unfold writeFullyT
    split
    · exact hk _ _
    · split
      · exact hk _ _
      · refine openTreeP_safeIn hn hs a _ (fun h en => ?_) en
        refine call_safeIn fun w hw => ?_
        refine ⟨_, _, rfl, handlePwrite_orc' _ _ _ _, fun en' => ?_⟩
        generalize (handlePwrite w h (a % TREEPAGESIZE) (buf.take (clip ((1 + a / TREEPAGESIZE) * TREEPAGESIZE - a) buf.length))).2 = y
        dsimp only
        split
        · refine call_safeIn fun w hw => ⟨_, (), rfl, handleSync_orc' _ _, fun en'' => ?_⟩
          split
          · exact hk _ _
          · exact hk _ _
          · exact ih _ (by rw [← hl, List.length_drop]; omega) _ _ _ rfl
        · split
          · exact hk _ _
          · exact hk _ _
          · exact ih _ (by rw [← hl, List.length_drop]; omega) _ _ _ rfl

theorem writeZeroesT_safeIn {ex : Export} (hn : ex.name.length ≤ 4040) (hs : ex.exportsize ≤ 2 ^ 63) (fua : Bool)
    (k : Bool → Nat → Prog World) (hk : ∀ ok en, (k ok en).SafeIn Working) (a len en : Nat) :
    (writeZeroesT ex fua k a len en).SafeIn Working := by
  induction len using Nat.strongRecOn generalizing en with
  | _ len ih =>
    unfold writeZeroesT
    split
    · exact hk _ _
    · rename_i h0
      refine writeFullyT_safeIn hn hs fua _ (fun ok en => ?_) _ _ _
      split
      · exact ih _ (by have : 0 < ZEROCHUNK := by decide
                       omega) _
      · exact hk _ _

theorem handlePread_length_le' (w : World) (h : Handle) (off len : Nat) (bs : List Byte)
    (hq : (handlePread w h off len).2 = some bs) : bs.length ≤ len := by
  have hp : ∀ (f : File) (lim : Nat), (f.pread off len lim).length ≤ len := by
    intro f lim
    simp only [File.pread, Flat.read, List.length_map, List.length_range]
    omega
  unfold handlePread sysPread at hq
  cases h with
  | file id =>
    dsimp only at hq
    cases hf : w.files id with
    | none => rw [hf] at hq; cases hq
    | some f =>
      rw [hf] at hq
      dsimp only at hq
      cases hx : w.next with
      | err e => rw [hx] at hq; cases hq
      | done n => rw [hx] at hq; cases hq; exact hp _ _
  | bad => cases hq
  | dummy =>
    dsimp only at hq
    cases hx : w.next with
    | err e => rw [hx] at hq; cases hq
    | done n => rw [hx] at hq; cases hq; exact hp _ _

theorem clip_le' (m n : Nat) : clip m n ≤ n := by
  unfold clip; split <;> omega

theorem preadOnce_safe {st : Bool} {c : ReadCtx} (hi : Filling st c) (h : Handle) (w : World) :
    ∃ w' x, preadOnce c h w = .val (w', x) ∧ w'.orc = w.orc ∧ ∀ c' bs n, x = some (c', bs, n) →
      n + 1 ≤ c.curLen ∧ c'.start = c.start ∧
      Filling st { c' with curOff := c.curOff + (n + 1), curLen := c.curLen - (n + 1) } := by
  unfold preadOnce
  dsimp only
  have h1 := handlePread_orc' w h ((c.start + c.curOff) % TREEPAGESIZE)
    (clip ((1 + (c.start + c.curOff) / TREEPAGESIZE) * TREEPAGESIZE - (c.start + c.curOff)) c.curLen)
  have h2 := handlePread_length_le' w h ((c.start + c.curOff) % TREEPAGESIZE)
    (clip ((1 + (c.start + c.curOff) / TREEPAGESIZE) * TREEPAGESIZE - (c.start + c.curOff)) c.curLen)
  generalize handlePread w h ((c.start + c.curOff) % TREEPAGESIZE)
    (clip ((1 + (c.start + c.curOff) / TREEPAGESIZE) * TREEPAGESIZE - (c.start + c.curOff)) c.curLen) = q at h1 h2
  obtain ⟨w1, z⟩ := q
  cases z with
  | none => exact ⟨w1, none, rfl, h1, by simp⟩
  | some z =>
    cases z with
    | nil => exact ⟨w1, none, rfl, h1, by simp⟩
    | cons b bs =>
      have hle : (b :: bs).length ≤ c.curLen := Nat.le_trans (h2 _ rfl) (clip_le' _ _)
      obtain ⟨c', k0, k1, k2, k3, k4, k5, k6⟩ := deliver_spec c (b :: bs) hle (by
        intro hc
        rw [hi.chunked] at hc
        obtain ⟨d, hd, hoff⟩ := hi.buf hc
        rw [hd, hoff]
        simp)
      refine ⟨w1, some (c', b :: bs, bs.length), by dsimp only; rw [k0], h1, ?_⟩
      intro c2 bs2 n hx
      cases hx
      refine ⟨hle, k1, k3.trans hi.structured, k4.trans hi.df, ?_⟩
      intro hst
      obtain ⟨d, hd, hoff⟩ := hi.buf hst
      refine ⟨d ++ b :: bs, ?_, by simp [hoff]⟩
      dsimp only
      rw [(k5 (by rw [hi.chunked]; exact hst)).1, hd, hoff]
      unfold bufSet
      rw [List.take_left' (by simp), List.drop_append]
      simp only [List.length_map, List.map_append, List.drop_replicate]
      rw [List.drop_of_length_le (by simp), List.nil_append]
      congr 2
      simp only [List.length_cons]
      omega

theorem readFullyT_safeIn {ex : Export} (hn : ex.name.length ≤ 4040) (hs : ex.exportsize ≤ 2 ^ 63) (e : Endian) (cookie : List Byte)
    (lg : Bool) {st : Bool} (k : ReadCtx → Bool → Nat → Prog World)
    (hk : ∀ c ok en, Filling st c → (ok = true → c.curLen = 0) → (k c ok en).SafeIn Working) (n : Nat) :
    ∀ (c : ReadCtx) (en : Nat), c.curLen = n → Filling st c → (readFullyT e ex cookie lg k c en).SafeIn Working := by
  induction n using Nat.strongRecOn with
  | _ n ih =>
    intro c en hl hi
    unfold readFullyT
    split
    · rename_i h0; exact hk _ _ _ hi (fun _ => h0)
    · rename_i h0
      split
      · exact hk _ _ _ hi (by simp)
      · refine openTreeP_safeIn hn hs _ _ (fun h en => ?_) en
        refine call_safeIn fun w hw => ?_
        obtain ⟨w', x, hx, ho, hsp⟩ := preadOnce_safe hi h w
        refine ⟨w', x, hx, ho, fun en' => ?_⟩
        cases x with
        | none => exact hk _ _ _ hi (by simp)
        | some x =>
          obtain ⟨c', bs, m⟩ := x
          obtain ⟨h1, h2, h3⟩ := hsp _ _ _ rfl
          have hrest := fun en => ih (c.curLen - (m + 1)) (by omega)
            { c' with curOff := c.curOff + (m + 1), curLen := c.curLen - (m + 1) } en rfl h3
          dsimp only
          split
          · exact sendChunkP_safeIn lg _ _ (hrest _)
          · exact hrest _

theorem completeReadP_safeIn {I : World → Prop} (e : Endian) (lg : Bool) {st : Bool} (c : ReadCtx) (cookie : List Byte)
    (error : Option UInt32) (en : Nat) (hi : Filling st c) (h0 : error = none → c.curLen = 0) :
    (completeReadP (σ := World) e lg c cookie error en).SafeIn I := by
  have h : ∃ msgs, completeRead e c cookie error = .val msgs ∧
      (c.structured = false → ∃ m, msgs = [m]) := by
    unfold completeRead
    cases hs : c.structured with
    | true => cases error <;> exact ⟨_, rfl, by simp⟩
    | false =>
      cases error with
      | some err => exact ⟨_, rfl, fun _ => ⟨_, rfl⟩⟩
      | none =>
        obtain ⟨d, hd, _⟩ := hi.buf (by rw [← hi.structured]; exact hs)
        rw [h0 rfl, List.replicate_zero, List.append_nil] at hd
        simp only [Bool.false_eq_true, if_false]
        rw [hd, allInit_map]
        exact ⟨_, rfl, fun _ => ⟨_, rfl⟩⟩
  obtain ⟨msgs, h1, h2⟩ := h
  unfold completeReadP
  rw [h1]
  dsimp only
  split
  · exact sendChunksP_safeIn lg _ _ trivial
  · rename_i hs
    obtain ⟨m, rfl⟩ := h2 (by simpa using hs)
    exact sendReplyP_safeIn lg _ _ trivial

theorem trimTree_working {ex : Export} (hn : ex.name.length ≤ 4040) (hs : ex.exportsize ≤ 2 ^ 63) (n : Nat) :
    ∀ (w : World) (pos : Nat), ∃ w', trimTree ex n w pos = .val w' ∧ w'.orc = w.orc := by
  induction n with
  | zero => intro w pos; exact ⟨w, rfl, rfl⟩
  | succ n ih =>
    intro w pos
    obtain ⟨p, hp⟩ := treeFilename_some hn hs pos
    unfold trimTree deleteTreefile
    rw [hp]
    dsimp only
    cases w.next with
    | err en =>
      dsimp only
      obtain ⟨w', h1, h2⟩ := ih (w.fail en) (pos + TREEPAGESIZE)
      exact ⟨w', h1, h2⟩
    | done m =>
      dsimp only
      obtain ⟨w', h1, h2⟩ := ih (w.step.remove p) (pos + TREEPAGESIZE)
      exact ⟨w', h1, h2⟩

theorem requestT_safeIn (e : Endian) (cl : Client) (hcl : Treefile cl) (hn : cl.ex.name.length ≤ 4040) (lg : Bool) (en : Nat)
    (j : Job) (hj : j.Wf) : (requestT e cl lg en j.req j.payload).SafeIn Working := by
  obtain ⟨id, r, p⟩ := j
  have hlen : r.len < 2 ^ 32 := hj.len
  have hg := hcl.plain.good
  have hs := hg.size
  have hin : ∀ h : ¬ badRange cl r = true, r.start + r.len ≤ cl.ex.exportsize := by
    intro h
    exact inRange hg hlen (by simpa using h)
  have hans : ∀ ok en, (answerP e lg r ok en).SafeIn Working := fun _ _ => sendReplyP_safeIn _ _ _ trivial
  show (requestT e cl lg en r p).SafeIn Working
  unfold requestT
  dsimp only
  split
  · exact sendReplyP_safeIn _ _ _ trivial
  · rename_i hf
    split
    · split
      · exact sendReplyP_safeIn _ _ _ trivial
      · unfold readT
        have hdf : has r.type CMD_FLAG_DF = false := has_df_of_flags (by omega)
        simp only [hdf, Bool.and_false, Bool.false_and, Bool.false_eq_true, if_false, Bool.false_or]
        refine readFullyT_safeIn hn hs e r.cookie lg (st := cl.structured) _ ?_ r.len _ en rfl ?_
        · intro c ok en hi hok
          refine completeReadP_safeIn e lg c r.cookie _ en hi ?_
          cases ok with
          | true => exact fun _ => hok rfl
          | false => simp
        · refine ⟨rfl, rfl, fun hst => ⟨[], ?_, rfl⟩⟩
          simp [hst]
    · split
      · rename_i ht
        split
        · exact sendReplyP_safeIn _ _ _ trivial
        · split
          · exact sendReplyP_safeIn _ _ _ trivial
          · obtain ⟨bs, hp, hbl⟩ := hj.data ht
            change p = .data bs at hp
            subst hp
            exact writeFullyT_safeIn hn hs _ _ hans _ _ _
      · split
        · refine call_safeIn fun w hw => ⟨(expflush cl w).1, (expflush cl w).2, rfl, ?_, fun en' => hans _ _⟩
          unfold expflush
          split
          · exact sysFsync_orc' _ _
          · split
            · exact sysFsync_orc' _ _
            · rw [if_pos hcl.tree]
              split <;> rfl
        · split
          · split
            · exact sendReplyP_safeIn _ _ _ trivial
            · rename_i hbw
              split
              · exact sendReplyP_safeIn _ _ _ trivial
              · rename_i hb
                have hrr := hin hb
                refine call_safeIn fun w hw => ?_
                have : ∃ w', exptrim cl w r.start r.len = .val w' ∧ w'.orc = w.orc := by
                  unfold exptrim
                  rw [if_neg (by rw [notReadonly (by simpa using hbw)]; simp), if_neg (by
                    rw [Nat.mod_eq_of_lt (by omega)]; omega)]
                  split
                  · exact ⟨w, rfl, rfl⟩
                  · rw [if_pos hcl.tree]
                    exact trimTree_working hn hs _ _ _
                obtain ⟨w', h1, h2⟩ := this
                exact ⟨w', (), by rw [h1], h2, fun en' => hans _ _⟩
          · split
            · split
              · exact sendReplyP_safeIn _ _ _ trivial
              · split
                · exact sendReplyP_safeIn _ _ _ trivial
                · exact writeZeroesT_safeIn hn hs _ _ hans _ _ _
            · exact sendReplyP_safeIn _ _ _ trivial

theorem fetch_orc_nosplice (e : Endian) (cl : Client) (hcl : has cl.ex.flags F_SPLICE = false) (w w' : World) (stream : List Byte)
    (x : Fetched) (h : fetch e cl w stream = .val (w', x)) : w'.orc = w.orc := by
  unfold fetch at h
  split at h
  · cases h; rfl
  · dsimp only at h
    split at h
    · cases h; rfl
    · split at h
      · rw [hcl] at h
        simp only [Bool.false_eq_true, if_false, Bool.false_and] at h
        split at h
        · cases h; rfl
        · cases h; rfl
      · split at h
        · cases h; rfl
        · cases h; rfl

theorem treeServer_safeIn (e : Endian) (cl : Client) (hcl : Treefile cl) (hn : cl.ex.name.length ≤ 4040) (lg : Bool) :
    (treeServer e cl lg).SafeIn Working Job.Wf where
  take st stream := by
    refine ⟨fun h => ?_, (fetch_safe e cl st stream).1⟩
    have := ((fetch_safe e cl st stream).2.1 h).2
    rw [hcl.splice] at this
    cases this
  kept st stream st' x hst h := hst.of_orc (fetch_orc_nosplice e cl hcl.splice _ _ _ _ h)
  job st stream st' n r p rest h := fetch_wf e cl hcl.splice _ _ _ _ _ _ n h
  code en j hj := requestT_safeIn e cl hcl hn lg en j hj

/-! ### Requests are taken off the stream -/

theorem treeServer_shrinks (e : Endian) (cl : Client) (lg : Bool) : (treeServer e cl lg).Shrinks :=
  ⟨fun _ _ _ _ _ _ h => fetch_push_lt _ _ _ _ _ _ _ _ h, fun _ _ _ _ h => fetch_disc_le _ _ _ _ _ _ h⟩

theorem cowServer_shrinks (e : Endian) (cl : Client) (sid : Nat) (lg : Bool) : (cowServer e cl sid lg).Shrinks := by
  constructor
  · intro st st' stream r p rest h
    change (match fetch e cl st.2 stream with
      | .ub => Out.ub
      | .exit => .exit
      | .val (w, f) => .val ((st.1, w), f)) = _ at h
    split at h
    · cases h
    · cases h
    · rename_i hf
      cases h
      exact fetch_push_lt _ _ _ _ _ _ _ _ hf
  · intro st st' stream rest h
    change (match fetch e cl st.2 stream with
      | .ub => Out.ub
      | .exit => .exit
      | .val (w, f) => .val ((st.1, w), f)) = _ at h
    split at h
    · cases h
    · cases h
    · rename_i hf
      cases h
      exact fetch_disc_le _ _ _ _ _ _ hf

end Nbd
