import Verif.SchedPlain
import Verif.SchedLive
/-! # On plain exports no request makes a thread or the process fail -/

set_option autoImplicit false

namespace Nbd
open Spec

/-- A program that neither ends the process nor runs into undefined behaviour, whatever state it
finds at each of its steps. -/
def Prog.Safe {σ : Type} : Prog σ → Prop
  | .done _ => True
  | .op f k => ∀ s, ∃ s' a, f s = .val (s', a) ∧ (k a).Safe
  | .send _ k => k.Safe
  | .log _ k => k.Safe

theorem call_safe {α : Type} {f : World → Out (World × α)} {en : Nat} {k : α → Nat → Prog World}
    (h : ∀ w, ∃ w' a, f w = .val (w', a) ∧ ∀ en', (k a en').Safe) : (call f en k).Safe := by
  intro w
  obtain ⟨w', a, h1, h2⟩ := h { w with errno := en }
  exact ⟨w', (a, w'.errno), by dsimp only; rw [h1], h2 _⟩

theorem sendReplyP_safe {σ : Type} (lg : Bool) (m : Msg) (k : Prog σ) (h : k.Safe) :
    (sendReplyP lg m k).Safe := by
  unfold sendReplyP
  split <;> exact h

theorem sendChunkP_safe {σ : Type} (lg : Bool) (m : Msg) (k : Prog σ) (h : k.Safe) :
    (sendChunkP lg m k).Safe := by
  unfold sendChunkP
  show (if lg then _ else _ : Prog σ).Safe
  split <;> exact h

theorem sendChunksP_safe {σ : Type} (lg : Bool) (ms : List Msg) (k : Prog σ) (h : k.Safe) :
    (sendChunksP lg ms k).Safe := by
  induction ms with
  | nil => exact h
  | cons m ms ih => exact sendChunkP_safe lg m _ ih

theorem getFilepos_safe {ex : Export} (hg : GoodExport ex) (ht : has ex.flags F_TREEFILES = false)
    (w : World) (a : Nat) : ∃ x, getFilepos ex w a = .val (w, x) := by
  by_cases ha : a < 2 ^ 63
  · obtain ⟨fi, nx, _, h⟩ := getFilepos_files ex w a ha ht (hg.files ht)
    exact ⟨_, h⟩
  · refine ⟨none, ?_⟩
    unfold getFilepos
    rw [if_pos (by omega)]

theorem writeFullyP_safe {ex : Export} (hg : GoodExport ex)
    (ht : has ex.flags F_TREEFILES = false) (fua : Bool) (k : Bool → Nat → Prog World)
    (hk : ∀ ok en, (k ok en).Safe) (a : Nat) (buf : List Byte) (en : Nat) :
    (writeFullyP ex fua k a buf en).Safe := by
  generalize hn : buf.length = n
  induction n using Nat.strongRecOn generalizing a buf en with
  | _ n ih =>
    unfold writeFullyP
    split
    · exact hk _ _
    · rename_i h0
      refine call_safe fun w => ?_
      obtain ⟨x, hx⟩ := getFilepos_safe hg ht w a
      cases x with
      | none => exact ⟨w, none, by unfold rawPwrite; rw [hx], fun en' => hk _ _⟩
      | some x =>
        obtain ⟨h, off, mb⟩ := x
        refine ⟨_, some (h, (handlePwrite w h off (buf.take (clip mb buf.length))).2), by
          unfold rawPwrite; rw [hx], fun en' => ?_⟩
        generalize (handlePwrite w h off (buf.take (clip mb buf.length))).2 = y
        dsimp only
        split
        · refine call_safe fun w => ⟨_, (), rfl, fun en'' => ?_⟩
          split
          · exact hk _ _
          · exact hk _ _
          · exact ih _ (by rw [← hn, List.length_drop]; omega) _ _ _ rfl
        · split
          · exact hk _ _
          · exact hk _ _
          · exact ih _ (by rw [← hn, List.length_drop]; omega) _ _ _ rfl

theorem writeZeroesP_safe {ex : Export} (hg : GoodExport ex)
    (ht : has ex.flags F_TREEFILES = false) (fua : Bool) (k : Bool → Nat → Prog World)
    (hk : ∀ ok en, (k ok en).Safe) (a len : Nat) (en : Nat) :
    (writeZeroesP ex fua k a len en).Safe := by
  induction len using Nat.strongRecOn generalizing en with
  | _ len ih =>
    unfold writeZeroesP
    split
    · exact hk _ _
    · rename_i h0
      refine writeFullyP_safe hg ht fua _ (fun ok en => ?_) _ _ _
      split
      · exact ih _ (by have : 0 < ZEROCHUNK := by decide
                       omega) _
      · exact hk _ _

/-- A read under way: what has arrived is in the buffer, from its beginning. -/
structure Filling (st : Bool) (c : ReadCtx) : Prop where
  structured : c.structured = st
  df : c.df = false
  buf : st = false → ∃ d : List Byte, c.buf = d.map some ++ List.replicate c.curLen none ∧
    c.curOff = d.length

theorem Filling.chunked {st : Bool} {c : ReadCtx} (h : Filling st c) : c.chunked = st := by
  unfold ReadCtx.chunked; rw [h.structured, h.df]; simp

theorem readOnce_safe {ex : Export} (hg : GoodExport ex) (ht : has ex.flags F_TREEFILES = false)
    {st : Bool} {c : ReadCtx} (hi : Filling st c)
    (hr : c.start + c.curOff + c.curLen ≤ ex.exportsize) (h0 : c.curLen ≠ 0) (w : World) :
    ∃ w' x, readOnce ex c w = .val (w', x) ∧ ∀ c' bs n, x = some (c', bs, n) →
      n + 1 ≤ c.curLen ∧ c'.start = c.start ∧
      Filling st { c' with curOff := c.curOff + (n + 1), curLen := c.curLen - (n + 1) } := by
  have hspec := rawexpread_spec ex hg w (c.start + c.curOff) c.curLen hr (by omega)
  obtain ⟨y, hy⟩ := getFilepos_safe hg ht w (c.start + c.curOff)
  have hval : ∃ p, rawexpread ex w (c.start + c.curOff) c.curLen = .val p := by
    unfold rawexpread
    rw [hy]
    cases y with
    | none => exact ⟨_, rfl⟩
    | some y => exact ⟨_, rfl⟩
  obtain ⟨⟨w1, z⟩, hz⟩ := hval
  unfold readOnce
  rw [hz]
  cases z with
  | none => exact ⟨w1, none, rfl, by simp⟩
  | some z =>
    cases z with
    | nil => exact ⟨w1, none, rfl, by simp⟩
    | cons b bs =>
      have hle := ((hspec.2 _ _ hz).2 _ rfl).1
      obtain ⟨c', k0, k1, k2, k3, k4, k5, k6⟩ := deliver_spec c (b :: bs) hle (by
        intro hc
        rw [hi.chunked] at hc
        obtain ⟨d, hd, hoff⟩ := hi.buf hc
        rw [hd, hoff]
        simp)
      refine ⟨w1, some (c', b :: bs, bs.length), by dsimp only; rw [k0], ?_⟩
      intro c2 bs2 n hx
      cases hx
      refine ⟨hle, k1, k3.trans hi.structured, k4.trans hi.df, ?_⟩
      intro hst
      obtain ⟨d, hd, hoff⟩ := hi.buf hst
      refine ⟨d ++ b :: bs, ?_, by simp [hoff]⟩
      dsimp only
      rw [(k5 (by rw [hi.chunked]; exact hst)).1, hd, hoff]
      unfold bufSet
      rw [List.take_left' (by simp), List.drop_append]
      simp only [List.length_map, List.map_append, List.drop_replicate]
      rw [List.drop_of_length_le (by simp), List.nil_append]
      congr 2
      simp only [List.length_cons]
      omega

theorem readFullyP_safe {ex : Export} (hg : GoodExport ex)
    (ht : has ex.flags F_TREEFILES = false) (e : Endian) (cookie : List Byte) (lg : Bool)
    {st : Bool} (k : ReadCtx → Bool → Nat → Prog World)
    (hk : ∀ c ok en, Filling st c → (ok = true → c.curLen = 0) → (k c ok en).Safe) (n : Nat) :
    ∀ (c : ReadCtx) (en : Nat), c.curLen = n → Filling st c →
      c.start + c.curOff + c.curLen ≤ ex.exportsize →
      (readFullyP e ex cookie lg k c en).Safe := by
  induction n using Nat.strongRecOn with
  | _ n ih =>
    intro c en hn hi hr
    unfold readFullyP
    split
    · rename_i h0; exact hk _ _ _ hi (fun _ => h0)
    · rename_i h0
      refine call_safe fun w => ?_
      obtain ⟨w', x, hx, hs⟩ := readOnce_safe hg ht hi hr h0 w
      refine ⟨w', x, hx, fun en' => ?_⟩
      cases x with
      | none => exact hk _ _ _ hi (by simp)
      | some x =>
        obtain ⟨c', bs, m⟩ := x
        obtain ⟨h1, h2, h3⟩ := hs _ _ _ rfl
        have hrest := fun en => ih (c.curLen - (m + 1)) (by omega)
          { c' with curOff := c.curOff + (m + 1), curLen := c.curLen - (m + 1) } en rfl h3
          (by dsimp only; omega)
        dsimp only
        split
        · exact sendChunkP_safe lg _ _ (hrest _)
        · exact hrest _

theorem completeReadP_safe (e : Endian) (lg : Bool) {st : Bool} (c : ReadCtx) (cookie : List Byte)
    (error : Option UInt32) (en : Nat) (hi : Filling st c) (h0 : error = none → c.curLen = 0) :
    (completeReadP (σ := World) e lg c cookie error en).Safe := by
  have h : ∃ msgs, completeRead e c cookie error = .val msgs ∧
      (c.structured = false → ∃ m, msgs = [m]) := by
    unfold completeRead
    cases hs : c.structured with
    | true => cases error <;> exact ⟨_, rfl, by simp⟩
    | false =>
      cases error with
      | some err => exact ⟨_, rfl, fun _ => ⟨_, rfl⟩⟩
      | none =>
        obtain ⟨d, hd, _⟩ := hi.buf (by rw [← hi.structured]; exact hs)
        rw [h0 rfl, List.replicate_zero, List.append_nil] at hd
        simp only [Bool.false_eq_true, if_false]
        rw [hd, allInit_map]
        exact ⟨_, rfl, fun _ => ⟨_, rfl⟩⟩
  obtain ⟨msgs, h1, h2⟩ := h
  unfold completeReadP
  rw [h1]
  dsimp only
  split
  · exact sendChunksP_safe lg _ _ trivial
  · rename_i hs
    obtain ⟨m, rfl⟩ := h2 (by simpa using hs)
    exact sendReplyP_safe lg _ _ trivial

theorem flushFilesP_safe (k : Bool → Nat → Prog World) (hk : ∀ ok en, (k ok en).Safe)
    (files : List FileInfo) (en : Nat) : (flushFilesP k files en).Safe := by
  induction files generalizing en with
  | nil => exact hk _ _
  | cons fi rest ih =>
    unfold flushFilesP
    refine call_safe fun w => ⟨(sysFsync w (.fd fi.fhandle)).1, (sysFsync w (.fd fi.fhandle)).2, rfl,
      fun en' => ?_⟩
    generalize (sysFsync w (.fd fi.fhandle)).2 = ok
    split
    · exact ih _
    · exact hk _ _

theorem trimFilesP_safe (files : List FileInfo) (size start len : Nat) (k : Nat → Prog World)
    (hk : ∀ en, (k en).Safe) (n : Nat) (cur : FileInfo) (i en : Nat) :
    (trimFilesP files size start len k n cur i en).Safe := by
  induction n generalizing cur i en with
  | zero => exact hk _
  | succ n ih =>
    unfold trimFilesP
    refine call_safe fun w => ⟨_, _, rfl, fun en' => ?_⟩
    split
    · exact hk _
    · split
      · exact ih _ _ _
      · exact hk _

/-- No request makes the program for a plain export fail, whether or not it has the splice flag. -/
theorem requestP_safe_of (e : Endian) (cl : Client) (hpl : Plain cl)
    (htree : has cl.ex.flags F_TREEFILES = false) (lg : Bool) (en : Nat)
    (j : Job) (hj : j.Wf) : (requestP e cl lg en j.req j.payload).Safe := by
  obtain ⟨id, r, p⟩ := j
  have hlen : r.len < 2 ^ 32 := hj.len
  have hg := hpl.good
  have hin : ∀ h : ¬ badRange cl r = true, r.start + r.len ≤ cl.ex.exportsize := by
    intro h
    exact inRange hg hlen (by simpa using h)
  have hans : ∀ ok en, (answerP e lg r ok en).Safe := fun _ _ => sendReplyP_safe _ _ _ trivial
  show (requestP e cl lg en r p).Safe
  unfold requestP
  dsimp only
  split
  · exact sendReplyP_safe _ _ _ trivial
  · rename_i hf
    split
    · split
      · exact sendReplyP_safe _ _ _ trivial
      · rename_i hb
        have hrr := hin hb
        unfold readP
        have hdf : has r.type CMD_FLAG_DF = false := has_df_of_flags (by omega)
        simp only [hdf, Bool.and_false, Bool.false_and, Bool.false_eq_true, if_false, Bool.false_or]
        refine readFullyP_safe hg htree e r.cookie lg (st := cl.structured) _ ?_ r.len _ en rfl ?_
          (by dsimp only; omega)
        · intro c ok en hi hok
          refine completeReadP_safe e lg c r.cookie _ en hi ?_
          cases ok with
          | true => exact fun _ => hok rfl
          | false => simp
        · refine ⟨rfl, rfl, fun hst => ⟨[], ?_, rfl⟩⟩
          simp [hst]
    · split
      · rename_i ht
        split
        · exact sendReplyP_safe _ _ _ trivial
        · split
          · exact sendReplyP_safe _ _ _ trivial
          · obtain ⟨bs, hp, hbl⟩ := hj.data ht
            change p = .data bs at hp
            subst hp
            exact writeFullyP_safe hg htree _ _ hans _ _ _
      · split
        · split
          · exact call_safe fun w => ⟨_, _, rfl, fun en' => hans _ _⟩
          · exact flushFilesP_safe _ hans _ _
        · split
          · split
            · exact sendReplyP_safe _ _ _ trivial
            · rename_i hbw
              split
              · exact sendReplyP_safe _ _ _ trivial
              · rename_i hb
                have hrr := hin hb
                have hsz := hg.size
                unfold trimP
                rw [if_neg (by rw [notReadonly (by simpa using hbw)]; simp), if_neg (by
                  rw [Nat.mod_eq_of_lt (by omega)]; omega)]
                have hfirst := (hg.files htree).first
                split
                · rename_i hnil
                  rw [hnil] at hfirst
                  simp at hfirst
                · exact trimFilesP_safe _ _ _ _ _ (fun _ => hans _ _) _ _ _ _
          · split
            · split
              · exact sendReplyP_safe _ _ _ trivial
              · split
                · exact sendReplyP_safe _ _ _ trivial
                · exact writeZeroesP_safe hg htree _ _ hans _ _ _
            · exact sendReplyP_safe _ _ _ trivial

theorem requestP_safe (e : Endian) (cl : Client) (hcl : Flatfile cl) (lg : Bool) (en : Nat)
    (j : Job) (hj : j.Wf) : (requestP e cl lg en j.req j.payload).Safe :=
  requestP_safe_of e cl hcl.plain hcl.tree lg en j hj

/-! ### Sessions -/

/-- What a thread has to do cannot fail. -/
def Worker.Safe {σ : Type} : Worker σ → Prop
  | .idle _ => True
  | .busy _ p => p.Safe
  | .sending _ _ _ k => k.Safe

/-- The main loop and all programs of a server are safe. -/
structure Server.Safe {σ : Type} (v : Server σ) (J : Job → Prop) : Prop where
  take : ∀ st stream, v.take st stream ≠ .ub ∧ v.take st stream ≠ .exit
  job : ∀ st stream st' n r p rest, v.take st stream = .val (st', .push r p rest) → J ⟨n, r, p⟩
  code : ∀ en j, J j → (v.code en j.req j.payload).Safe

/-- Nothing has failed and nothing will. -/
structure Session.Sound {σ : Type} (J : Job → Prop) (s : Session σ) : Prop where
  main : s.main ≠ .broken
  queue : ∀ j ∈ s.queue, J j
  workers : ∀ x ∈ s.workers, x.Safe

theorem Session.Sound.set {σ : Type} {J : Job → Prop} {s s' : Session σ} (h : s.Sound J) {i : Nat}
    {y : Worker σ} (hy : y.Safe) (h1 : s'.main = s.main) (h2 : s'.queue = s.queue)
    (h3 : s'.workers = s.workers.set i y) : s'.Sound J := by
  refine ⟨by rw [h1]; exact h.main, by rw [h2]; exact h.queue, ?_⟩
  rw [h3]
  intro x hx
  rcases List.mem_or_eq_of_mem_set hx with hx | rfl
  · exact h.workers x hx
  · exact hy

theorem Step.sound {σ : Type} {v : Server σ} {J : Job → Prop} (hv : v.Safe J) {sid : Nat}
    {sh sh' : Shared σ} {s s' : Session σ} {evs : List Ext} (h : Step v sid sh s evs sh' s')
    (hi : s.Sound J) : s'.Sound J := by
  cases h with
  | accept st r p rest hm hk hsem h =>
    refine ⟨hi.main, ?_, hi.workers⟩
    intro j hj
    rcases List.mem_append.mp hj with hj | hj
    · exact hi.queue j hj
    · rw [List.mem_singleton] at hj; subst hj; exact hv.job _ _ _ _ _ _ _ h
  | hold hm hk hsem => exact ⟨by simp, hi.queue, hi.workers⟩
  | acceptData st r bs rest hm h =>
    refine ⟨by simp, ?_, hi.workers⟩
    intro j hj
    rcases List.mem_append.mp hj with hj | hj
    · exact hi.queue j hj
    · rw [List.mem_singleton] at hj; subst hj; exact hv.job _ _ _ _ _ _ _ h
  | magic hm hb => exact ⟨by simp, hi.queue, hi.workers⟩
  | gone st hm hb h => exact ⟨by simp, hi.queue, hi.workers⟩
  | disc st rest hm hk hsem h => exact ⟨by simp, hi.queue, hi.workers⟩
  | takeFails ph hm h =>
    rcases h with ⟨h, _⟩ | ⟨h, _⟩
    · exact absurd h (hv.take _ _).1
    · exact absurd h (hv.take _ _).2
  | close hm hq hw => exact ⟨by simp, hi.queue, hi.workers⟩
  | start i en j q ha hw hq =>
    refine ⟨hi.main, fun j' hj' => hi.queue j' (by rw [hq]; exact List.mem_cons_of_mem _ hj'), ?_⟩
    intro x hx
    rcases List.mem_or_eq_of_mem_set hx with hx | rfl
    · exact hi.workers x hx
    · exact hv.code en j (hi.queue j (by rw [hq]; exact List.mem_cons_self))
  | op i j f k st a ha hw h =>
    have := hi.workers _ (List.mem_of_getElem? hw)
    obtain ⟨s1, a1, e1, e2⟩ := this sh.st
    rw [h] at e1
    cases e1
    exact hi.set (y := .busy j (k a)) e2 rfl rfl rfl
  | opFails i j f k ph ha hw h =>
    have := hi.workers _ (List.mem_of_getElem? hw)
    obtain ⟨s1, a1, e1, e2⟩ := this sh.st
    rcases h with ⟨h, _⟩ | ⟨h, _⟩ <;> rw [h] at e1 <;> cases e1
  | lock i j m k ha hw hl =>
    have : k.Safe := hi.workers _ (List.mem_of_getElem? hw)
    exact hi.set (y := .sending j m m.bytes k) this rfl rfl rfl
  | write i j m xs ys k ha hw hx hy =>
    have : k.Safe := hi.workers _ (List.mem_of_getElem? hw)
    exact hi.set (y := .sending j m ys k) this rfl rfl rfl
  | unlock i j m rest k ha hw =>
    have : k.Safe := hi.workers _ (List.mem_of_getElem? hw)
    exact hi.set (y := .busy j k) this rfl rfl rfl
  | log i j bs k ha hw hsem =>
    have : k.Safe := hi.workers _ (List.mem_of_getElem? hw)
    exact hi.set (y := .busy j k) this rfl rfl rfl
  | finish i j en ha hw => exact hi.set (y := .idle en) trivial rfl rfl rfl

/-- Only a wrong magic makes a process exit. -/
theorem Step.dead {σ : Type} {v : Server σ} {J : Job → Prop} (hv : v.Safe J) {sid : Nat}
    {sh sh' : Shared σ} {s s' : Session σ} {evs : List Ext} (h : Step v sid sh s evs sh' s')
    (hi : s.Sound J) (hd : s'.main = .dead) :
    s.main = .dead ∨ ((s.main = .reading ∨ s.main = .payload) ∧ v.badMagic s.stream = true) := by
  cases h with
  | magic hm hb =>
    rcases hm with hm | hm
    · exact .inr ⟨.inl hm.1, hb⟩
    · exact .inr ⟨.inr hm, hb⟩
  | takeFails ph hm h =>
    rcases h with ⟨h, _⟩ | ⟨h, _⟩
    · exact absurd h (hv.take _ _).1
    · exact absurd h (hv.take _ _).2
  | opFails i j f k ph ha hw h =>
    have := hi.workers _ (List.mem_of_getElem? hw)
    obtain ⟨s1, a1, e1, e2⟩ := this sh.st
    rcases h with ⟨h, _⟩ | ⟨h, _⟩ <;> rw [h] at e1 <;> cases e1
  | _ => first | exact .inl hd | cases hd

theorem plainServer_safe (e : Endian) (cl : Client) (hcl : Flatfile cl) (lg : Bool) :
    (plainServer e cl lg).Safe Job.Wf where
  take st stream := by
    refine ⟨fun h => ?_, (fetch_safe e cl st stream).1⟩
    have := ((fetch_safe e cl st stream).2.1 h).2
    rw [hcl.splice] at this
    cases this
  job st stream st' n r p rest h := fetch_wf e cl hcl.splice _ _ _ _ _ _ n h
  code en j hj := requestP_safe e cl hcl lg en j hj

end Nbd
