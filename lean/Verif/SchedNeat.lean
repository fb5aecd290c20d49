import Verif.SchedPlain
import Verif.SchedLog
/-! # What the code for plain exports writes to the transaction log -/

set_option autoImplicit false

namespace Nbd

open Spec

/-- As `Prog.Logs`, with every message satisfying `Q`. (Models no code of its own.) -/
def Prog.Neat {σ : Type} (Q : Msg → Prop) : Prog σ → Owing → Prop
  | .done _, o => o = .nothing
  | .op _ k, o => o = .nothing ∧ ∀ a, (k a).Neat Q .nothing
  | .send m k, o => Q m ∧ ((o = .nothing ∧ m.hdr.length = 20 ∧ k.Neat Q (.log m.hdr)) ∨ (o = .send m.hdr ∧ k.Neat Q .nothing))
  | .log bs k, o => (o = .nothing ∧ bs.length ≠ 20 ∧ k.Neat Q (.send bs)) ∨ (o = .log bs ∧ k.Neat Q .nothing)

section
variable {σ : Type} {Q : Msg → Prop}

theorem Prog.Neat.logs {p : Prog σ} : ∀ {o : Owing}, p.Neat Q o → p.Logs o := by
  induction p with
  | done en => intro o h; exact h
  | op f k ih => intro o h; exact ⟨h.1, fun a => ih a (h.2 a)⟩
  | send m k ih =>
    intro o h
    rcases h.2 with ⟨h1, h2, h3⟩ | ⟨h1, h2⟩
    · exact .inl ⟨h1, h2, ih h3⟩
    · exact .inr ⟨h1, ih h2⟩
  | log bs k ih =>
    intro o h
    rcases h with ⟨h1, h2, h3⟩ | ⟨h1, h2⟩
    · exact .inl ⟨h1, h2, ih h3⟩
    · exact .inr ⟨h1, ih h2⟩

/-- Every message of such a program satisfies `Q`. -/
theorem Prog.Neat.good {p : Prog σ} : ∀ {o : Owing} {l : List Act}, p.Neat Q o → (∀ m ∈ Act.msgs l, Q m) →
    p.Good (fun _ _ => 0) (fun l => ∀ m ∈ Act.msgs l, Q m) (fun l => ∀ m ∈ Act.msgs l, Q m) l := by
  induction p with
  | done en => intro o l _ hl; exact hl
  | op f k ih =>
    intro o l h hl
    refine ⟨hl, fun s s' a _ => ⟨[], (by simp [Quiet]), .nil _, ?_⟩⟩
    rw [List.append_nil]
    exact ih a (h.2 a) hl
  | send m k ih =>
    intro o l h hl
    have hl' : ∀ x ∈ Act.msgs (l ++ [.msg m]), Q x := by
      intro x hx
      rw [msgs_append, List.mem_append] at hx
      rcases hx with hx | hx
      · exact hl x hx
      · simp only [Act.msgs, List.mem_singleton] at hx
        rw [hx]; exact h.1
    refine ⟨hl, ?_⟩
    rcases h.2 with ⟨_, _, h3⟩ | ⟨_, h2⟩
    · exact ih h3 hl'
    · exact ih h2 hl'
  | log bs k ih =>
    intro o l h hl
    refine ⟨hl, ?_⟩
    rcases h with ⟨_, _, h3⟩ | ⟨_, h2⟩
    · exact ih h3 hl
    · exact ih h2 hl

theorem sendReplyP_neat {m : Msg} (hm : Q m) (h20 : m.hdr.length ≠ 20) {k : Prog σ} (hk : k.Neat Q .nothing) :
    (sendReplyP true m k).Neat Q .nothing :=
  .inl ⟨rfl, h20, hm, .inr ⟨rfl, hk⟩⟩

theorem sendChunkP_neat {m : Msg} (hm : Q m) (h20 : m.hdr.length = 20) {k : Prog σ} (hk : k.Neat Q .nothing) :
    (sendChunkP true m k).Neat Q .nothing :=
  ⟨hm, .inl ⟨rfl, h20, .inr ⟨rfl, hk⟩⟩⟩

theorem sendChunksP_neat {msgs : List Msg} (hm : ∀ m ∈ msgs, Q m ∧ m.hdr.length = 20) {k : Prog σ} (hk : k.Neat Q .nothing) :
    (sendChunksP true msgs k).Neat Q .nothing := by
  induction msgs with
  | nil => exact hk
  | cons m ms ih =>
    exact sendChunkP_neat (hm m (by simp)).1 (hm m (by simp)).2 (ih (fun x hx => hm x (by simp [hx])))

theorem crash_neat : (crash : Prog σ).Neat Q .nothing := ⟨rfl, fun _ => rfl⟩

theorem call_neat {α : Type} {f : World → Out (World × α)} {en : Nat} {k : α → Nat → Prog World}
    (h : ∀ a en, (k a en).Neat Q .nothing) : (call f en k).Neat Q .nothing := ⟨rfl, fun x => h x.1 x.2⟩

theorem writeFullyP_neat {ex : Export} (fua : Bool) (k : Bool → Nat → Prog World) (hk : ∀ ok en, (k ok en).Neat Q .nothing) (n : Nat) :
    ∀ (a : Nat) (buf : List Byte) (en : Nat), buf.length = n → (writeFullyP ex fua k a buf en).Neat Q .nothing := by
  induction n using Nat.strongRecOn with
  | _ n ih =>
    intro a buf en hn
    unfold writeFullyP
    split
    · exact hk _ _
    · refine call_neat ?_
      intro r en'
      cases r with
      | none => exact hk _ _
      | some hx =>
        obtain ⟨h, x⟩ := hx
        have hsucc : ∀ (m : Nat) en, (writeFullyP ex fua k (a + (m + 1)) (buf.drop (m + 1)) en).Neat Q .nothing := fun m en =>
          ih _ (by rw [List.length_drop]; omega) _ _ _ rfl
        show Prog.Neat Q (if has ex.flags F_SYNC || fua then _ else _) .nothing
        cases x with
        | none =>
          split
          · exact call_neat (fun _ en => hk _ en)
          · exact hk _ _
        | some m =>
          cases m with
          | zero =>
            split
            · exact call_neat (fun _ en => hk _ en)
            · exact hk _ _
          | succ m =>
            split
            · exact call_neat (fun _ en => hsucc m en)
            · exact hsucc m _

theorem writeZeroesP_neat {ex : Export} (fua : Bool) (k : Bool → Nat → Prog World) (hk : ∀ ok en, (k ok en).Neat Q .nothing) (a n : Nat) :
    ∀ en, (writeZeroesP ex fua k a n en).Neat Q .nothing := by
  induction n using Nat.strongRecOn with
  | _ n ih =>
    intro en
    unfold writeZeroesP
    have hpos : 0 < ZEROCHUNK := by decide
    split
    · exact hk _ _
    · refine writeFullyP_neat fua _ ?_ _ a _ en rfl
      intro ok en
      split
      · exact ih _ (by omega) en
      · exact hk _ _

theorem flushFilesP_neat (k : Bool → Nat → Prog World) (hk : ∀ ok en, (k ok en).Neat Q .nothing) (files : List FileInfo) (en : Nat) :
    (flushFilesP k files en).Neat Q .nothing := by
  induction files generalizing en with
  | nil => exact hk _ _
  | cons fi rest ih =>
    unfold flushFilesP
    refine call_neat ?_
    intro ok en'
    split
    · exact ih en'
    · exact hk _ _

theorem trimFilesP_neat (files : List FileInfo) (size start len : Nat) (k : Nat → Prog World) (hk : ∀ en, (k en).Neat Q .nothing)
    (n : Nat) (cur : FileInfo) (i en : Nat) : (trimFilesP files size start len k n cur i en).Neat Q .nothing := by
  induction n generalizing cur i en with
  | zero => exact hk _
  | succ n ih =>
    unfold trimFilesP
    refine call_neat ?_
    intro _ en'
    split
    · exact hk _
    · split
      · exact ih _ _ _
      · exact hk _

end

theorem simple_neat {σ : Type} (e : Endian) (r : Req) (hc : r.cookie.length = 8) (x : Option UInt32) (en : Nat) :
    (sendReplyP true (simpleMsg e r x) (.done en) : Prog σ).Neat (HdrOk e r.cookie) .nothing :=
  sendReplyP_neat (.inl ⟨_, rfl⟩) (by simp [simpleMsg, simpleHdr, hc]) rfl

theorem chunk_neat (e : Endian) {c : List Byte} (hc : c.length = 8) (f t : UInt16) (l : UInt32) (b : List Byte) :
    HdrOk e c (chunkMsg e c f t l b) ∧ (chunkMsg e c f t l b).hdr.length = 20 :=
  ⟨.inr ⟨_, _, _, _, rfl⟩, by simp [chunkMsg, hc]⟩

theorem readFullyP_neat (e : Endian) (ex : Export) {cookie : List Byte} (hc : cookie.length = 8)
    (k : ReadCtx → Bool → Nat → Prog World) (hk : ∀ c ok en, (k c ok en).Neat (HdrOk e cookie) .nothing) (n : Nat) :
    ∀ (c : ReadCtx) (en : Nat), c.curLen = n → (readFullyP e ex cookie true k c en).Neat (HdrOk e cookie) .nothing := by
  induction n using Nat.strongRecOn with
  | _ n ih =>
    intro c en hn
    unfold readFullyP
    by_cases h0 : c.curLen = 0
    · rw [if_pos h0]
      exact hk _ _ _
    · rw [if_neg h0]
      refine call_neat ?_
      intro r en'
      cases r with
      | none => exact hk _ _ _
      | some x =>
        obtain ⟨c', bs, m⟩ := x
        have hrec := ih (c.curLen - (m + 1)) (by omega)
          { c' with curOff := c.curOff + (m + 1), curLen := c.curLen - (m + 1) } en' rfl
        dsimp only
        split
        · have := chunk_neat e hc
          exact sendChunkP_neat (this _ _ _ _).1 (this _ _ _ _).2 hrec
        · exact hrec

theorem completeReadP_neat {σ : Type} (e : Endian) (c : ReadCtx) {cookie : List Byte} (hc : cookie.length = 8) (x : Option UInt32)
    (en : Nat) : (completeReadP e true c cookie x en : Prog σ).Neat (HdrOk e cookie) .nothing := by
  unfold completeReadP
  cases hq : completeRead e c cookie x with
  | ub => exact crash_neat
  | exit => exact crash_neat
  | val msgs =>
    dsimp only
    unfold completeRead at hq
    by_cases hs : c.structured = true
    · rw [if_pos hs]
      rw [if_pos hs] at hq
      refine sendChunksP_neat ?_ rfl
      intro m hm
      dsimp only at hq
      split at hq <;> cases hq <;>
      · rw [List.mem_append] at hm
        rcases hm with hm | hm
        · simp only [List.mem_ite_nil_right, List.mem_singleton] at hm
          rw [hm.2]
          exact chunk_neat e hc _ _ _ _
        · rw [List.mem_singleton.mp hm]
          exact chunk_neat e hc _ _ _ _
    · rw [if_neg hs]
      rw [if_neg hs] at hq
      split at hq
      · cases hq
        exact sendReplyP_neat (.inl ⟨_, rfl⟩) (by simp [simpleHdr, hc]) rfl
      · split at hq
        · cases hq
        · cases hq
          exact sendReplyP_neat (.inl ⟨_, rfl⟩) (by simp [simpleHdr, hc]) rfl

/-- The code for a request logs every header it sends, and each is one for this request. -/
theorem requestP_neat (e : Endian) (cl : Client) (en : Nat) (r : Req) (hc : r.cookie.length = 8) (p : Payload) :
    (requestP e cl true en r p).Neat (HdrOk e r.cookie) .nothing := by
  have hs := fun x en => simple_neat (σ := World) e r hc x en
  unfold requestP
  dsimp only
  split
  · exact hs _ _
  · split
    · split
      · exact hs _ _
      · unfold readP
        dsimp only
        split
        · have := chunk_neat e hc
          exact sendChunkP_neat (this _ _ _ _).1 (this _ _ _ _).2 rfl
        · exact readFullyP_neat e _ hc _ (fun c ok en => completeReadP_neat e c hc _ _) _ _ _ rfl
    · split
      · split
        · exact hs _ _
        · split
          · exact hs _ _
          · split
            · exact writeFullyP_neat _ _ (fun ok en => hs _ _) _ _ _ _ rfl
            · exact crash_neat
            · exact crash_neat
      · split
        · split
          · exact call_neat (fun _ _ => hs _ _)
          · exact flushFilesP_neat _ (fun ok en => hs _ _) _ _
        · split
          · split
            · exact hs _ _
            · split
              · exact hs _ _
              · unfold trimP
                split
                · exact ⟨rfl, fun _ => rfl⟩
                · split
                  · exact ⟨rfl, fun _ => rfl⟩
                  · split
                    · exact crash_neat
                    · exact trimFilesP_neat _ _ _ _ _ (fun en => hs _ _) _ _ _ _
          · split
            · split
              · exact hs _ _
              · split
                · exact hs _ _
                · exact writeZeroesP_neat _ _ (fun ok en => hs _ _) _ _ _
            · exact hs _ _

theorem fetch_cookie (e : Endian) (cl : Client) (w w' : World) (stream : List Byte) (r : Req) (p : Payload) (rest : List Byte)
    (h : fetch e cl w stream = .val (w', .push r p rest)) : r.cookie.length = 8 := by
  have key : 28 ≤ stream.length ∧ r = loadReq e (stream.take 28) := by
    unfold fetch at h
    split at h
    · cases h
    · rename_i hlen
      dsimp only at h
      split at h
      · cases h
      · split at h
        · generalize (if has cl.ex.flags F_SPLICE = true then _ else _ : World × Bool) = mp at h
          split at h
          · cases h
          · split at h
            · cases h
            · split at h <;> cases h <;> exact ⟨by omega, rfl⟩
        · split at h
          · cases h
          · cases h; exact ⟨by omega, rfl⟩
  rw [key.2]
  simp [loadReq]
  omega

/-- The headers of all messages of a session on a plain export are those of replies to its requests. -/
theorem plainServer_hdrs (e : Endian) (cl : Client) :
    (plainServer e cl true).Meets (fun _ _ => 0) (fun j => j.req.cookie.length = 8)
      (fun j l => ∀ m ∈ Act.msgs l, HdrOk e j.req.cookie m) (fun j l => ∀ m ∈ Act.msgs l, HdrOk e j.req.cookie m) := by
  refine ⟨fun _ _ _ _ _ _ _ h => fetch_cookie _ _ _ _ _ _ _ _ h, fun en j hj => ?_, fun _ _ _ _ _ => rfl, fun _ _ h => h⟩
  exact (requestP_neat e cl en j.req hj j.payload).good (by simp [Act.msgs])

end Nbd
