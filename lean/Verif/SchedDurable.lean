import Verif.SchedPlain
import Verif.Props.Durable
/-! # What the program of one request does to bytes that must not be lost -/

set_option autoImplicit false

namespace Nbd

open Spec

/-- Every access of the program leaves alone what is not in `T`. -/
def Prog.Keep (T : FileId × Nat → Prop) : Prog World → Prop
  | .done _ => True
  | .op f k => ∀ s s' a, f s = .val (s', a) → Keeps T s s' ∧ (k a).Keep T
  | .send _ k => k.Keep T
  | .log _ k => k.Keep T

/-- Nothing is done or said any more. -/
def Prog.Silent {σ : Type} : Prog σ → Prop
  | .done _ => True
  | .op _ _ => False
  | .send _ _ => False
  | .log _ k => k.Silent

/-- At most one message is sent, and nothing is done after it. -/
def Prog.OneMsg {σ : Type} : Prog σ → Prop
  | .done _ => True
  | .op _ k => ∀ a, (k a).OneMsg
  | .send _ k => k.Silent
  | .log _ k => k.OneMsg

/-- The message `ok` is sent only after the stored byte `x` has been settled, and then the byte is left alone. (In states satisfying `I`.) -/
def Prog.Pend (I : World → Prop) (x : FileId × Nat) (ok : List Byte) : Prog World → Prop
  | .done _ => True
  | .op f k => ∀ s s' a, I s → f s = .val (s', a) → (Settled s' x ∧ (k a).Keep (· ≠ x)) ∨ (k a).Pend I x ok
  | .send m k => m.bytes ≠ ok ∧ k.Pend I x ok
  | .log _ k => k.Pend I x ok

theorem Prog.Keep.mono {T T' : FileId × Nat → Prop} (ht : ∀ x, T x → T' x) {p : Prog World} (h : p.Keep T) : p.Keep T' := by
  induction p with
  | done en => trivial
  | op f k ih => exact fun s s' a hf => ⟨(h s s' a hf).1.mono ht, ih a (h s s' a hf).2⟩
  | send m k ih => exact ih h
  | log bs k ih => exact ih h

theorem Prog.Silent.keep {T : FileId × Nat → Prop} {p : Prog World} (h : p.Silent) : p.Keep T := by
  induction p with
  | done en => trivial
  | op f k ih => exact absurd h id
  | send m k ih => exact absurd h id
  | log bs k ih => exact ih h

theorem keeps_errno (T : FileId × Nat → Prop) (w : World) (en : Nat) : Keeps T w { w with errno := en } :=
  ⟨fun _ _ _ h => h, rfl, Nat.le_refl _⟩

theorem call_keep {α : Type} {f : World → Out (World × α)} {en : Nat} {k : α → Nat → Prog World} {T : FileId × Nat → Prop}
    (h : ∀ w w' a, f w = .val (w', a) → Keeps T w w' ∧ ∀ en', (k a en').Keep T) : (call f en k).Keep T := by
  intro s s' a hf
  obtain ⟨a, en'⟩ := a
  cases hq : f { s with errno := en } with
  | ub => simp [hq] at hf
  | exit => simp [hq] at hf
  | val pr =>
    obtain ⟨w', a'⟩ := pr
    simp only [hq, Out.val.injEq, Prod.mk.injEq] at hf
    obtain ⟨rfl, rfl, rfl⟩ := hf
    obtain ⟨h1, h2⟩ := h _ _ _ hq
    exact ⟨(keeps_errno T s en).trans h1, h2 _⟩

theorem call_oneMsg {α : Type} {f : World → Out (World × α)} {en : Nat} {k : α → Nat → Prog World}
    (h : ∀ a en', (k a en').OneMsg) : (call f en k).OneMsg := fun _ => h _ _

theorem call_pend {α : Type} {f : World → Out (World × α)} {en : Nat} {k : α → Nat → Prog World} {I : World → Prop}
    {x : FileId × Nat} {ok : List Byte} (hI : ∀ w en, I w → I { w with errno := en })
    (h : ∀ w w' a, I w → f w = .val (w', a) →
      (Settled w' x ∧ ∀ en', (k a en').Keep (· ≠ x)) ∨ ∀ en', (k a en').Pend I x ok) : (call f en k).Pend I x ok := by
  intro s s' a hi hf
  obtain ⟨a, en'⟩ := a
  cases hq : f { s with errno := en } with
  | ub => simp [hq] at hf
  | exit => simp [hq] at hf
  | val pr =>
    obtain ⟨w', a'⟩ := pr
    simp only [hq, Out.val.injEq, Prod.mk.injEq] at hf
    obtain ⟨rfl, rfl, rfl⟩ := hf
    rcases h _ _ _ (hI s en hi) hq with ⟨h1, h2⟩ | h2
    · exact .inl ⟨h1, h2 _⟩
    · exact .inr (h2 _)

theorem sendReplyP_keep {T : FileId × Nat → Prop} (lg : Bool) (m : Msg) (k : Prog World) (h : k.Keep T) : (sendReplyP lg m k).Keep T := by
  unfold sendReplyP
  split <;> exact h

theorem sendChunkP_keep {T : FileId × Nat → Prop} (lg : Bool) (m : Msg) (k : Prog World) (h : k.Keep T) : (sendChunkP lg m k).Keep T := by
  unfold sendChunkP
  show Prog.Keep T (if lg = true then _ else _)
  split <;> exact h

theorem sendChunksP_keep {T : FileId × Nat → Prop} (lg : Bool) (ms : List Msg) (k : Prog World) (h : k.Keep T) :
    (sendChunksP lg ms k).Keep T := by
  induction ms with
  | nil => exact h
  | cons m ms ih => exact sendChunkP_keep _ _ _ ih

theorem sendReplyP_oneMsg (lg : Bool) (m : Msg) (en : Nat) : (sendReplyP lg m (.done en : Prog World)).OneMsg := by
  unfold sendReplyP
  split <;> trivial

theorem crash_keep {T : FileId × Nat → Prop} : (crash : Prog World).Keep T := fun _ _ _ h => by cases h

theorem answerP_keep {T : FileId × Nat → Prop} (e : Endian) (lg : Bool) (r : Req) (ok : Bool) (en : Nat) :
    (answerP e lg r ok en).Keep T := sendReplyP_keep _ _ _ trivial

/-! ### What is left alone -/

theorem rawPwrite_keeps (ex : Export) (hg : GoodExport ex) (w w' : World) (a : Nat) (buf : List Byte)
    (hr : a + buf.length ≤ ex.exportsize) (hlen : 0 < buf.length) (r : Option (Handle × Option Nat))
    (h : rawPwrite ex a buf w = .val (w', r)) : Keeps (Touch ex a buf.length) w w' := by
  unfold rawPwrite at h
  obtain ⟨_, hsp⟩ := getFilepos_spec ex hg w a (by omega)
  cases hq : getFilepos ex w a with
  | ub => simp [hq] at h
  | exit => simp [hq] at h
  | val pr =>
    obtain ⟨w1, r1⟩ := pr
    obtain ⟨_, hd, off, mb, rfl, hfile, _⟩ := hsp w1 r1 hq
    simp only [hq, Out.val.injEq, Prod.mk.injEq] at h
    have h1 := getFilepos_keeps (Touch ex a buf.length) _ _ _ _ _ hq
    refine h1.trans ?_
    rw [← h.1]
    unfold handlePwrite
    cases hd with
    | bad => exact .fail _ _ _
    | dummy =>
      simp only []
      split
      · exact .fail _ _ _
      · exact .step _ _
    | file id =>
      simp only [sysPwrite]
      split
      · exact .fail _ _ _
      · rename_i f hf
        split
        · exact .fail _ _ _
        · rename_i n hn
          apply keeps_pwrite hf
          intro k hk
          simp only [List.length_take] at hk
          have hcl := clip_le mb buf.length
          have hh := hfile id rfl k (clip_lt (show k < clip mb buf.length by omega)) (by omega)
          exact touch_home hg hh (by omega) hr

theorem writeFullyP_keep {ex : Export} (hg : GoodExport ex) (hw : has ex.flags F_READONLY = false) {T : FileId × Nat → Prop}
    (fua : Bool) (k : Bool → Nat → Prog World) (hk : ∀ ok en, (k ok en).Keep T) (n : Nat) : ∀ (a : Nat) (buf : List Byte) (en : Nat),
      buf.length = n → a + buf.length ≤ ex.exportsize → (∀ y, Touch ex a buf.length y → T y) →
      (writeFullyP ex fua k a buf en).Keep T := by
  induction n using Nat.strongRecOn with
  | _ n ih =>
    intro a buf en hn hr hT
    unfold writeFullyP
    split
    · exact hk _ _
    · rename_i h0
      refine call_keep ?_
      intro w w' r hf
      refine ⟨(rawPwrite_keeps ex hg w w' a buf hr (by omega) r hf).mono hT, ?_⟩
      intro en'
      cases r with
      | none => exact hk _ _
      | some hx =>
        obtain ⟨h, x⟩ := hx
        have hnext : ∀ en, Prog.Keep T (match x with
            | none => k false en
            | some 0 => k false en
            | some (n + 1) => writeFullyP ex fua k (a + (n + 1)) (buf.drop (n + 1)) en) := by
          intro en
          cases x with
          | none => exact hk _ _
          | some m =>
            cases m with
            | zero => exact hk _ _
            | succ m =>
              have hle := (((rawPwrite_spec ex hg w a buf hr (by omega) hw).2 _ _ hf).2.2 h (m + 1) rfl).1
              have hdl : (buf.drop (m + 1)).length = buf.length - (m + 1) := List.length_drop
              exact ih _ (by omega) _ _ _ rfl (by omega) (fun y hy => hT y (Touch.mono (by omega) (by omega) y hy))
        show Prog.Keep T (if has ex.flags F_SYNC || fua then _ else _)
        split
        · refine call_keep ?_
          intro w w' _ hh
          cases hh
          exact ⟨handleSyncIgnored_keeps _ _ _, hnext⟩
        · exact hnext en'

theorem writeZeroesP_keep {ex : Export} (hg : GoodExport ex) (hw : has ex.flags F_READONLY = false) {T : FileId × Nat → Prop}
    (fua : Bool) (k : Bool → Nat → Prog World) (hk : ∀ ok en, (k ok en).Keep T) (a : Nat) (n : Nat) : ∀ (en : Nat),
      a + n ≤ ex.exportsize → (∀ y, Touch ex a n y → T y) → (writeZeroesP ex fua k a n en).Keep T := by
  induction n using Nat.strongRecOn with
  | _ n ih =>
    intro en hr hT
    unfold writeZeroesP
    split
    · exact hk _ _
    · rename_i h0
      have hzl : (Flat.zeros (min n ZEROCHUNK)).length = min n ZEROCHUNK := by simp [Flat.zeros]
      have hpos : 0 < ZEROCHUNK := by decide
      refine writeFullyP_keep hg hw fua _ ?_ _ a _ en rfl (by rw [hzl]; omega) ?_
      · intro ok en
        split
        · exact ih _ (by omega) en (by omega) (fun y hy => hT y (Touch.mono (by omega) (by omega) y hy))
        · exact hk _ _
      · intro y hy
        rw [hzl] at hy
        exact hT y (Touch.mono (by omega) (by omega) y hy)

theorem flushFilesP_keep {T : FileId × Nat → Prop} (k : Bool → Nat → Prog World) (hk : ∀ ok en, (k ok en).Keep T)
    (files : List FileInfo) (en : Nat) : (flushFilesP k files en).Keep T := by
  induction files generalizing en with
  | nil => exact hk _ _
  | cons fi rest ih =>
    unfold flushFilesP
    refine call_keep ?_
    intro w w' a hf
    simp only [Out.val.injEq] at hf
    have := sysFsync_keeps T w (.fd fi.fhandle)
    rw [hf] at this
    refine ⟨this, ?_⟩
    intro en'
    split
    · exact ih en'
    · exact hk _ _

theorem trimOne_keeps (ex : Export) (hg : GoodExport ex) (ht : has ex.flags F_TREEFILES = false) (start len : Nat) (w : World)
    (cur : FileInfo) (hcur : cur ∈ ex.files) (i : Nat) :
    Keeps (Touch ex start len) w (trimOne ex.files ex.exportsize start len w cur i) := by
  unfold trimOne
  simp only []
  split <;> split
  all_goals first
    | exact .refl _ _
    | (rename_i hc
       apply punchHole_keeps ex hg ht w cur hcur start len _ hc.1
       split <;> omega)

theorem trimFilesP_keep {ex : Export} (hg : GoodExport ex) (ht : has ex.flags F_TREEFILES = false) {T : FileId × Nat → Prop}
    (start len : Nat) (hT : ∀ y, Touch ex start len y → T y) (k : Nat → Prog World) (hk : ∀ en, (k en).Keep T)
    (n : Nat) (cur : FileInfo) (hcur : cur ∈ ex.files) (i en : Nat) :
    (trimFilesP ex.files ex.exportsize start len k n cur i en).Keep T := by
  induction n generalizing cur i en with
  | zero => exact hk _
  | succ n ih =>
    unfold trimFilesP
    refine call_keep ?_
    intro w w' a hf
    cases hf
    refine ⟨(trimOne_keeps ex hg ht start len w cur hcur i).mono hT, ?_⟩
    intro en'
    split
    · exact hk _
    · rename_i nx hnx
      split
      · exact ih nx (List.mem_of_getElem? hnx) _ _
      · exact hk _

theorem readOnce_keeps (T : FileId × Nat → Prop) (ex : Export) (c : ReadCtx) (w w' : World) (r : Option (ReadCtx × List Byte × Nat))
    (h : readOnce ex c w = .val (w', r)) : Keeps T w w' := by
  unfold readOnce at h
  split at h
  · cases h
  · cases h
  · rename_i hq; cases h; exact rawexpread_keeps T _ _ _ _ _ _ hq
  · rename_i hq; cases h; exact rawexpread_keeps T _ _ _ _ _ _ hq
  · rename_i hq
    split at h
    · cases h
    · cases h
    · cases h; exact rawexpread_keeps T _ _ _ _ _ _ hq

theorem readFullyP_keep {T : FileId × Nat → Prop} (e : Endian) (ex : Export) (cookie : List Byte) (lg : Bool)
    (k : ReadCtx → Bool → Nat → Prog World) (hk : ∀ c ok en, (k c ok en).Keep T) (n : Nat) : ∀ (c : ReadCtx) (en : Nat),
    c.curLen = n → (readFullyP e ex cookie lg k c en).Keep T := by
  induction n using Nat.strongRecOn with
  | _ n ih =>
    intro c en hn
    unfold readFullyP
    split
    · exact hk _ _ _
    · refine call_keep ?_
      intro w w' r hf
      refine ⟨readOnce_keeps T ex c w w' r hf, ?_⟩
      intro en'
      cases r with
      | none => exact hk _ _ _
      | some x =>
        obtain ⟨c', bs, m⟩ := x
        have hnext : ∀ c'' : ReadCtx, c''.curLen = c.curLen - (m + 1) → (readFullyP e ex cookie lg k c'' en').Keep T :=
          fun c'' hc => ih _ (by omega) c'' en' hc
        show Prog.Keep T (if c.chunked then _ else _)
        split
        · exact sendChunkP_keep _ _ _ (hnext _ rfl)
        · exact hnext _ rfl

theorem completeReadP_keep {T : FileId × Nat → Prop} (e : Endian) (lg : Bool) (c : ReadCtx) (cookie : List Byte)
    (error : Option UInt32) (en : Nat) : (completeReadP e lg c cookie error en : Prog World).Keep T := by
  unfold completeReadP
  split
  · exact crash_keep
  · exact crash_keep
  · split
    · exact sendChunksP_keep _ _ _ trivial
    · split
      · exact sendReplyP_keep _ _ _ trivial
      · exact crash_keep

/-- What the program of a request leaves alone. -/
theorem requestP_keep (e : Endian) (cl : Client) (hpl : Plain cl) (htree : has cl.ex.flags F_TREEFILES = false)
    (lg : Bool) (en : Nat) (j : Job) (hj : j.Wf) :
    (requestP e cl lg en j.req j.payload).Keep
      (fun x => ∀ i, i < cl.ex.exportsize → home cl.ex i = some x → Changes j.req i) := by
  obtain ⟨id, r, p⟩ := j
  have hlen : r.len < 2 ^ 32 := hj.len
  have hg := hpl.good
  have hin : ∀ h : ¬ badRange cl r = true, r.start + r.len ≤ cl.ex.exportsize := by
    intro h
    exact inRange hg hlen (by simpa using h)
  have hm : r.type % 65536 ∈ [1, 4, 6] → ∀ x, Touch cl.ex r.start r.len x →
      ∀ i, i < cl.ex.exportsize → home cl.ex i = some x → Changes r i :=
    fun ht x hx i hi hxi => ⟨ht, hx i hi hxi⟩
  show Prog.Keep _ (requestP e cl lg en r p)
  unfold requestP
  dsimp only
  split
  · exact sendReplyP_keep _ _ _ trivial
  · split
    · split
      · exact sendReplyP_keep _ _ _ trivial
      · unfold readP
        dsimp only
        split
        · exact sendChunkP_keep _ _ _ trivial
        · exact readFullyP_keep _ _ _ _ _ (fun c ok en => completeReadP_keep _ _ _ _ _ _) _ _ _ rfl
    · split
      · rename_i ht
        split
        · exact sendReplyP_keep _ _ _ trivial
        · rename_i hbw
          split
          · exact sendReplyP_keep _ _ _ trivial
          · rename_i hb
            have hrr := hin hb
            obtain ⟨bs, hp, hbl⟩ := hj.data ht
            change p = .data bs at hp
            change bs.length = r.len at hbl
            subst hp
            refine writeFullyP_keep hg (notReadonly (by simpa using hbw)) _ _ (fun ok en => answerP_keep _ _ _ _ _) _ _ _ _ rfl
              (by omega) ?_
            rw [hbl]
            exact hm (by rw [ht]; decide)
      · split
        · split
          · refine call_keep ?_
            intro w w' a hf
            simp only [Out.val.injEq] at hf
            refine ⟨?_, fun en' => answerP_keep _ _ _ _ _⟩
            have := sysFsync_keeps (fun x => ∀ i, i < cl.ex.exportsize → home cl.ex i = some x → Changes r i) w (.fd cl.difffile)
            rwa [hf] at this
          · exact flushFilesP_keep _ (fun ok en => answerP_keep _ _ _ _ _) _ _
        · split
          · rename_i ht
            split
            · exact sendReplyP_keep _ _ _ trivial
            · split
              · exact sendReplyP_keep _ _ _ trivial
              · unfold trimP
                split
                · intro s s' a hf; cases hf
                · split
                  · intro s s' a hf; cases hf
                  · split
                    · exact crash_keep
                    · rename_i cur rest hc
                      exact trimFilesP_keep hg htree _ _ (hm (by rw [ht]; decide)) _ (fun en => answerP_keep _ _ _ _ _) _ cur
                        (by rw [hc]; simp) _ _
          · split
            · rename_i ht
              split
              · exact sendReplyP_keep _ _ _ trivial
              · rename_i hbw
                split
                · exact sendReplyP_keep _ _ _ trivial
                · rename_i hb
                  exact writeZeroesP_keep hg (notReadonly (by simpa using hbw)) _ _ (fun ok en => answerP_keep _ _ _ _ _) _ _ _
                    (hin hb) (hm (by rw [ht]; decide))
            · exact sendReplyP_keep _ _ _ trivial

/-! ### One message -/

theorem answerP_oneMsg (e : Endian) (lg : Bool) (r : Req) (ok : Bool) (en : Nat) : (answerP e lg r ok en).OneMsg :=
  sendReplyP_oneMsg _ _ _

theorem writeFullyP_oneMsg {ex : Export} (fua : Bool) (k : Bool → Nat → Prog World) (hk : ∀ ok en, (k ok en).OneMsg) (n : Nat) :
    ∀ (a : Nat) (buf : List Byte) (en : Nat), buf.length = n → (writeFullyP ex fua k a buf en).OneMsg := by
  induction n using Nat.strongRecOn with
  | _ n ih =>
    intro a buf en hn
    unfold writeFullyP
    split
    · exact hk _ _
    · refine call_oneMsg ?_
      intro r en'
      cases r with
      | none => exact hk _ _
      | some hx =>
        obtain ⟨h, x⟩ := hx
        have hsucc : ∀ (m : Nat) en, (writeFullyP ex fua k (a + (m + 1)) (buf.drop (m + 1)) en).OneMsg := fun m en =>
          ih _ (by rw [List.length_drop]; omega) _ _ _ rfl
        show Prog.OneMsg (if has ex.flags F_SYNC || fua then _ else _)
        cases x with
        | none =>
          split
          · exact call_oneMsg (fun _ en => hk _ en)
          · exact hk _ _
        | some m =>
          cases m with
          | zero =>
            split
            · exact call_oneMsg (fun _ en => hk _ en)
            · exact hk _ _
          | succ m =>
            split
            · exact call_oneMsg (fun _ en => hsucc m en)
            · exact hsucc m _

theorem writeZeroesP_oneMsg {ex : Export} (fua : Bool) (k : Bool → Nat → Prog World) (hk : ∀ ok en, (k ok en).OneMsg) (a n : Nat) :
    ∀ en, (writeZeroesP ex fua k a n en).OneMsg := by
  induction n using Nat.strongRecOn with
  | _ n ih =>
    intro en
    unfold writeZeroesP
    have hpos : 0 < ZEROCHUNK := by decide
    split
    · exact hk _ _
    · refine writeFullyP_oneMsg fua _ ?_ _ a _ en rfl
      intro ok en
      split
      · exact ih _ (by omega) en
      · exact hk _ _

theorem flushFilesP_oneMsg (k : Bool → Nat → Prog World) (hk : ∀ ok en, (k ok en).OneMsg) (files : List FileInfo) (en : Nat) :
    (flushFilesP k files en).OneMsg := by
  induction files generalizing en with
  | nil => exact hk _ _
  | cons fi rest ih =>
    unfold flushFilesP
    refine call_oneMsg ?_
    intro ok en'
    split
    · exact ih en'
    · exact hk _ _

theorem trimFilesP_oneMsg (files : List FileInfo) (size start len : Nat) (k : Nat → Prog World) (hk : ∀ en, (k en).OneMsg)
    (n : Nat) (cur : FileInfo) (i en : Nat) : (trimFilesP files size start len k n cur i en).OneMsg := by
  induction n generalizing cur i en with
  | zero => exact hk _
  | succ n ih =>
    unfold trimFilesP
    refine call_oneMsg ?_
    intro _ en'
    split
    · exact hk _
    · split
      · exact ih _ _ _
      · exact hk _

/-- Everything but a read is answered with one message, which comes last. -/
theorem requestP_oneMsg (e : Endian) (cl : Client) (lg : Bool) (en : Nat) (r : Req) (p : Payload) (h : r.type % 65536 ≠ 0) :
    (requestP e cl lg en r p).OneMsg := by
  have hc : (crash : Prog World).OneMsg := fun _ => trivial
  unfold requestP
  dsimp only
  split
  · exact sendReplyP_oneMsg _ _ _
  · split
    · rename_i ht; exact absurd ht h
    · split
      · split
        · exact sendReplyP_oneMsg _ _ _
        · split
          · exact sendReplyP_oneMsg _ _ _
          · split
            · exact writeFullyP_oneMsg _ _ (fun ok en => answerP_oneMsg _ _ _ _ _) _ _ _ _ rfl
            · exact hc
            · exact hc
      · split
        · split
          · exact call_oneMsg (fun _ _ => answerP_oneMsg _ _ _ _ _)
          · exact flushFilesP_oneMsg _ (fun ok en => answerP_oneMsg _ _ _ _ _) _ _
        · split
          · split
            · exact sendReplyP_oneMsg _ _ _
            · split
              · exact sendReplyP_oneMsg _ _ _
              · unfold trimP
                split
                · exact fun _ => trivial
                · split
                  · exact fun _ => trivial
                  · split
                    · exact hc
                    · exact trimFilesP_oneMsg _ _ _ _ _ (fun en => answerP_oneMsg _ _ _ _ _) _ _ _ _
          · split
            · split
              · exact sendReplyP_oneMsg _ _ _
              · split
                · exact sendReplyP_oneMsg _ _ _
                · exact writeZeroesP_oneMsg _ _ (fun ok en => answerP_oneMsg _ _ _ _ _) _ _ _
            · exact sendReplyP_oneMsg _ _ _

/-! ### Success only after the byte is settled -/

section
variable {I : World → Prop} {x : FileId × Nat} {r : Req}

theorem refuse_pend (e : Endian) (lg : Bool) (n en : Nat) :
    (sendReplyP lg (simpleMsg e r (some (nbdErrno e n))) (.done en) : Prog World).Pend I x (Reply.simple 0 r.cookie []).encode := by
  have hne : (simpleMsg e r (some (nbdErrno e n))).bytes ≠ (Reply.simple 0 r.cookie []).encode := by
    intro h
    exact Props.refused_not_acked e r n (by simpa [wire] using h)
  unfold sendReplyP
  split
  · exact ⟨hne, trivial⟩
  · exact ⟨hne, trivial⟩

theorem answerP_pend (e : Endian) (lg : Bool) (en : Nat) :
    (answerP e lg r false en).Pend I x (Reply.simple 0 r.cookie []).encode := refuse_pend e lg en en

theorem flushFilesP_pend {ok : List Byte} (hI : ∀ w en, I w → I { w with errno := en }) (k : Bool → Nat → Prog World)
    (hk0 : ∀ en, (k false en).Pend I x ok) (hk : ∀ ok en, (k ok en).Keep (· ≠ x)) (fi : FileInfo) (hx : x.1 = .fd fi.fhandle)
    (files : List FileInfo) (hfi : fi ∈ files) (en : Nat) : (flushFilesP k files en).Pend I x ok := by
  induction files generalizing en with
  | nil => cases hfi
  | cons g rest ih =>
    unfold flushFilesP
    refine call_pend hI ?_
    intro w w' a _ hf
    simp only [Out.val.injEq] at hf
    cases a with
    | false => exact .inr hk0
    | true =>
      rcases List.mem_cons.mp hfi with rfl | hfi
      · left
        refine ⟨?_, fun en' => flushFilesP_keep k hk rest en'⟩
        unfold sysFsync at hf
        split at hf
        · cases hf
        · split at hf
          · cases hf
          · cases hf
            obtain ⟨x1, x2⟩ := x
            simp only at hx
            subst hx
            exact settled_synced _ _ _ _ trivial
      · exact .inr (fun en' => ih hfi en')

theorem home_file {ex : Export} (ht : has ex.flags F_TREEFILES = false) {i : Nat} (hx : home ex i = some x) :
    ∃ fi ∈ ex.files, x.1 = .fd fi.fhandle := by
  unfold home at hx
  rw [ht] at hx
  simp only [Bool.false_eq_true, if_false, Option.map_eq_some_iff, Prod.exists] at hx
  obtain ⟨fi, nx, hloc, rfl⟩ := hx
  obtain ⟨j, hj, _⟩ := locate_index _ _ _ _ hloc
  exact ⟨fi, List.mem_of_getElem? hj, rfl⟩

theorem requestP_pend_flush (e : Endian) (cl : Client) (htree : has cl.ex.flags F_TREEFILES = false)
    (hwait : has cl.ex.flags F_WAIT = false) (lg : Bool) (en : Nat) (p : Payload) (i : Nat)
    (hx : home cl.ex i = some x) (ht : r.type % 65536 = 3) (hI : ∀ w en, I w → I { w with errno := en }) :
    (requestP e cl lg en r p).Pend I x (Reply.simple 0 r.cookie []).encode := by
  obtain ⟨fi, hfi, hx1⟩ := home_file htree hx
  unfold requestP
  dsimp only
  split
  · exact refuse_pend e lg _ _
  · rw [if_neg (by rw [ht]; decide), if_neg (by rw [ht]; decide), if_pos (by rw [ht]; rfl), hwait]
    exact flushFilesP_pend hI _ (fun en => answerP_pend e lg en) (fun ok en => answerP_keep _ _ _ _ _) fi hx1 _ hfi en

/-- No call fails. -/
def NoErr (w : World) : Prop := ∀ t err, w.orc t ≠ .err err

theorem handleSyncIgnored_settled {w : World} (hn : NoErr w) (n o : Nat) :
    Settled (handleSyncIgnored w (.file (.fd n))) (.fd n, o) := by
  unfold handleSyncIgnored
  simp only [sysFsync]
  cases hf : w.files (.fd n) with
  | none =>
    simp only []
    rintro b ⟨en, hm, hb⟩
    have : en = none := by
      unfold entries at hm
      simpa [World.fail, hf] using hm
    subst this
    simp only [] at hb
    rw [hb]
    simp [content, World.fail, hf]
  | some f =>
    simp only []
    cases hq : w.next with
    | err e => exact absurd hq (hn _ _)
    | done m => exact settled_synced _ _ _ _ trivial

theorem rawPwrite_file (ex : Export) (hg : GoodExport ex) (w w' : World) (a : Nat) (buf : List Byte)
    (hr : a + buf.length ≤ ex.exportsize) (hlen : 0 < buf.length) (hw : has ex.flags F_READONLY = false) (h : Handle) (m : Nat)
    (hq : rawPwrite ex a buf w = .val (w', some (h, some m))) (k : Nat) (hk : k < m) (hx : home ex (a + k) = some x) :
    h = .file x.1 := by
  unfold rawPwrite at hq
  obtain ⟨_, hsp⟩ := getFilepos_spec ex hg w a (by omega)
  cases hq' : getFilepos ex w a with
  | ub => simp [hq'] at hq
  | exit => simp [hq'] at hq
  | val pr =>
    obtain ⟨w1, r1⟩ := pr
    obtain ⟨_, hd, off, mb, rfl, hfile, hdummy⟩ := hsp w1 r1 hq'
    simp only [hq', Out.val.injEq, Prod.mk.injEq, Option.some.injEq] at hq
    obtain ⟨-, rfl, hn⟩ := hq
    cases hd with
    | bad => simp [handlePwrite] at hn
    | dummy =>
      have := (hdummy rfl).1
      rw [hw] at this
      cases this
    | file id =>
      simp only [handlePwrite, sysPwrite] at hn
      split at hn
      · cases hn
      · split at hn
        · cases hn
        · simp only [Option.some.injEq, List.length_take] at hn
          have hcl := clip_le mb buf.length
          have hh := hfile id rfl k (clip_lt (show k < clip mb buf.length by omega)) (by omega)
          rw [hx] at hh
          cases hh
          rfl

theorem writeFullyP_pend {ex : Export} (hg : GoodExport ex) (htree : has ex.flags F_TREEFILES = false)
    (hw : has ex.flags F_READONLY = false) {ok : List Byte} (fua : Bool) (hs : (has ex.flags F_SYNC || fua) = true)
    (hI : ∀ w en, I w → I { w with errno := en }) (hno : ∀ w, I w → NoErr w)
    (k : Bool → Nat → Prog World) (hk0 : ∀ en, (k false en).Pend I x ok) (hk : ∀ ok en, (k ok en).Keep (· ≠ x))
    (i : Nat) (hi : i < ex.exportsize) (hx : home ex i = some x) (n : Nat) : ∀ (a : Nat) (buf : List Byte) (en : Nat), buf.length = n →
      a + buf.length ≤ ex.exportsize → a ≤ i → i < a + buf.length → (writeFullyP ex fua k a buf en).Pend I x ok := by
  induction n using Nat.strongRecOn with
  | _ n ih =>
    intro a buf en hn hr h1 h2
    unfold writeFullyP
    rw [if_neg (by omega)]
    refine call_pend hI ?_
    intro w w' rr _ hf
    right
    intro en'
    cases rr with
    | none => exact hk0 _
    | some hx' =>
      obtain ⟨h, y⟩ := hx'
      show Prog.Pend I x ok (if has ex.flags F_SYNC || fua then _ else _)
      rw [if_pos hs]
      refine call_pend hI ?_
      intro w2 w2' _ hi2 hh
      cases y with
      | none => exact .inr (fun en => hk0 en)
      | some m =>
        cases m with
        | zero => exact .inr (fun en => hk0 en)
        | succ m =>
          have hle := (((rawPwrite_spec ex hg w a buf hr (by omega) hw).2 _ _ hf).2.2 h (m + 1) rfl).1
          have hdl : (buf.drop (m + 1)).length = buf.length - (m + 1) := List.length_drop
          by_cases hin : i < a + (m + 1)
          · left
            have hfl := rawPwrite_file ex hg w w' a buf hr (by omega) hw h (m + 1) hf (i - a) (by omega)
              (by rw [show a + (i - a) = i by omega]; exact hx)
            obtain ⟨fi, _, hx1⟩ := home_file htree hx
            simp only [Out.val.injEq, Prod.mk.injEq] at hh
            refine ⟨?_, ?_⟩
            · rw [← hh.1, hfl, hx1]
              have := handleSyncIgnored_settled (hno w2 hi2) fi.fhandle x.2
              rwa [← hx1] at this ⊢
            · intro en
              refine writeFullyP_keep hg hw fua k hk _ _ _ en rfl (by omega) ?_
              intro y hy hyx
              subst hyx
              have := hy i hi hx
              omega
          · exact .inr (fun en => ih _ (by omega) _ _ en rfl (by omega) (by omega) (by omega))

/-- What happens before a continuation that settles `x` in any case does not matter. -/
theorem writeFullyP_pend_later {ex : Export} {ok : List Byte} (fua : Bool) (hI : ∀ w en, I w → I { w with errno := en })
    (k : Bool → Nat → Prog World) (hk : ∀ b en, (k b en).Pend I x ok) (n : Nat) : ∀ (a : Nat) (buf : List Byte) (en : Nat),
      buf.length = n → (writeFullyP ex fua k a buf en).Pend I x ok := by
  induction n using Nat.strongRecOn with
  | _ n ih =>
    intro a buf en hn
    unfold writeFullyP
    split
    · exact hk _ _
    · refine call_pend hI ?_
      intro w w' rr _ hf
      right
      intro en'
      have hgo : ∀ (y : Option Nat) (en : Nat), Prog.Pend I x ok (match y with
          | none => k false en
          | some 0 => k false en
          | some (m + 1) => writeFullyP ex fua k (a + (m + 1)) (buf.drop (m + 1)) en) := by
        intro y en
        match y with
        | none => exact hk _ _
        | some 0 => exact hk _ _
        | some (m + 1) => exact ih _ (by rw [List.length_drop]; omega) _ _ _ rfl
      cases rr with
      | none => exact hk _ _
      | some hx' =>
        obtain ⟨h, y⟩ := hx'
        show Prog.Pend I x ok (if has ex.flags F_SYNC || fua then _ else _)
        split
        · refine call_pend hI ?_
          intro w2 w2' _ hi2 hh
          exact .inr fun en => hgo y en
        · exact hgo y en'

/-- A write-zeroes of any length settles the bytes among its first 64 MiB. -/
theorem writeZeroesP_pend {ex : Export} (hg : GoodExport ex) (htree : has ex.flags F_TREEFILES = false)
    (hw : has ex.flags F_READONLY = false) {ok : List Byte} (fua : Bool) (hs : (has ex.flags F_SYNC || fua) = true)
    (hI : ∀ w en, I w → I { w with errno := en }) (hno : ∀ w, I w → NoErr w)
    (k : Bool → Nat → Prog World) (hk0 : ∀ en, (k false en).Pend I x ok) (hk : ∀ ok en, (k ok en).Keep (· ≠ x))
    (i start : Nat) (hi : i < ex.exportsize) (hx : home ex i = some x) (h1 : start ≤ i) (n : Nat) : ∀ en : Nat,
      start + n ≤ ex.exportsize → i < start + min n ZEROCHUNK → (writeZeroesP ex fua k start n en).Pend I x ok := by
  induction n using Nat.strongRecOn with
  | _ n ih =>
    intro en hr h2
    have hpos : 0 < ZEROCHUNK := by decide
    have hzl : (Flat.zeros (min n ZEROCHUNK)).length = min n ZEROCHUNK := Flat.zeros_length _
    unfold writeZeroesP
    rw [if_neg (by omega)]
    by_cases hlater : i < start + min (n - min n ZEROCHUNK) ZEROCHUNK
    · refine writeFullyP_pend_later fua hI _ ?_ _ _ _ _ rfl
      intro b en
      cases b with
      | false => exact hk0 en
      | true => exact ih _ (by omega) en (by omega) hlater
    · refine writeFullyP_pend hg htree hw fua hs hI hno _ ?_ ?_ i hi hx _ _ _ _ rfl (by rw [hzl]; omega) h1
        (by rw [hzl]; omega)
      · intro en
        exact hk0 en
      intro b en
      split
      · refine writeZeroesP_keep hg hw _ _ hk _ _ _ (by omega) ?_
        intro y hy hyx
        subst hyx
        have := hy i hi hx
        omega
      · exact hk _ _

theorem requestP_pend_fua (e : Endian) (cl : Client) (hpl : Plain cl) (htree : has cl.ex.flags F_TREEFILES = false)
    (lg : Bool) (en : Nat) (j : Job) (hj : j.Wf) (i : Nat)
    (hx : home cl.ex i = some x)
    (hcmd : j.req.type % 65536 = 1 ∨ (j.req.type % 65536 = 6 ∧ i < j.req.start + 64 * 1024 * 1024))
    (hsync : has j.req.type CMD_FLAG_FUA = true ∨ has cl.ex.flags F_SYNC = true)
    (h1 : j.req.start ≤ i) (h2 : i < j.req.start + j.req.len)
    (hI : ∀ w en, I w → I { w with errno := en }) (hno : ∀ w, I w → NoErr w) :
    (requestP e cl lg en j.req j.payload).Pend I x (Reply.simple 0 j.req.cookie []).encode := by
  obtain ⟨id, r, p⟩ := j
  have hlen : r.len < 2 ^ 32 := hj.len
  change r.start ≤ i at h1
  change i < r.start + r.len at h2
  have hg := hpl.good
  have hin : ∀ h : ¬ badRange cl r = true, r.start + r.len ≤ cl.ex.exportsize := by
    intro h
    exact inRange hg hlen (by simpa using h)
  have hs : (has cl.ex.flags F_SYNC || has r.type CMD_FLAG_FUA) = true := by
    rcases hsync with h | h
    · change has r.type CMD_FLAG_FUA = true at h
      simp [h]
    · simp [h]
  show Prog.Pend I x _ (requestP e cl lg en r p)
  unfold requestP
  dsimp only
  split
  · exact refuse_pend e lg _ _
  · rcases hcmd with ht | ⟨ht, hl⟩
    · change r.type % 65536 = 1 at ht
      rw [if_neg (by rw [ht]; decide), if_pos (by rw [ht]; rfl)]
      split
      · exact refuse_pend e lg _ _
      · rename_i hbw
        split
        · exact refuse_pend e lg _ _
        · rename_i hb
          have hrr := hin hb
          obtain ⟨bs, hp, hbl⟩ := hj.data ht
          change p = .data bs at hp
          change bs.length = r.len at hbl
          subst hp
          exact writeFullyP_pend hg htree (notReadonly (by simpa using hbw)) _ hs hI hno _ (fun en => answerP_pend e lg en)
            (fun ok en => answerP_keep _ _ _ _ _) i (by omega) hx _ _ _ _ rfl (by omega) h1 (by omega)
    · change r.type % 65536 = 6 at ht
      change i < r.start + ZEROCHUNK at hl
      rw [if_neg (by rw [ht]; decide), if_neg (by rw [ht]; decide), if_neg (by rw [ht]; decide), if_neg (by rw [ht]; decide),
        if_pos (by rw [ht]; rfl)]
      split
      · exact refuse_pend e lg _ _
      · rename_i hbw
        split
        · exact refuse_pend e lg _ _
        · rename_i hb
          have hrr := hin hb
          exact writeZeroesP_pend hg htree (notReadonly (by simpa using hbw)) _ hs hI hno _ (fun en => answerP_pend e lg en)
            (fun ok en => answerP_keep _ _ _ _ _) i _ (by omega) hx h1 _ en hrr (by omega)

end

end Nbd
