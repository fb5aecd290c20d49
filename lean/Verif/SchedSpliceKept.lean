import Verif.SchedSplice
import Verif.SchedKept
/-! # Bytes that must not be lost, on exports that use `splice(2)` -/

set_option autoImplicit false

namespace Nbd

open Spec

theorem spliceInP_keep {T : FileId × Nat → Prop} (ex : Export) (k : Bool → List Nat → Nat → Prog World)
    (hk : ∀ ok pipe en, (k ok pipe en).Keep T) (n : Nat) : ∀ (a : Nat) (pipe : List Nat) (en : Nat),
      (spliceInP ex k a n pipe en).Keep T := by
  induction n using Nat.strongRecOn with
  | _ n ih =>
    intro a pipe en
    unfold spliceInP
    split
    · exact hk _ _ _
    · rename_i h0
      refine call_keep ?_
      intro w w' r hf
      refine ⟨?_, ?_⟩
      · unfold spliceOnce at hf
        split at hf
        · cases hf
        · cases hf
        · rename_i w1 hq
          cases hf
          exact rawexpread_keeps T _ _ _ _ _ _ hq
        · rename_i w1 bs hq
          cases hf
          exact rawexpread_keeps T _ _ _ _ _ _ hq
      · intro en'
        match r with
        | none => exact hk _ _ _
        | some 0 => exact hk _ _ _
        | some (m + 1) => exact ih (n - (m + 1)) (by omega) _ _ _

theorem peekP_keep {T : FileId × Nat → Prop} (ex : Export) (k : List Byte → Prog World) (hk : ∀ bs, (k bs).Keep T)
    (pipe : List Nat) : ∀ acc, (peekP ex k pipe acc).Keep T := by
  induction pipe with
  | nil => intro acc; exact hk acc
  | cons a pipe ih =>
    intro acc s s' b hf
    cases hf
    exact ⟨Keeps.refl _ _, ih _⟩

theorem readP_keep {T : FileId × Nat → Prop} (e : Endian) (cl : Client) (lg : Bool) (r : Req) (en : Nat) :
    (readP e cl lg r en).Keep T := by
  unfold readP
  dsimp only
  split
  · exact sendChunkP_keep _ _ _ trivial
  · exact readFullyP_keep _ _ _ _ _ (fun c ok en => completeReadP_keep _ _ _ _ _ _) _ _ _ rfl

theorem spliceReadP_keep {T : FileId × Nat → Prop} (e : Endian) (cl : Client) (lg : Bool) (r : Req) (en : Nat) :
    (spliceReadP e cl lg r en).Keep T := by
  unfold spliceReadP
  split
  · exact readP_keep _ _ _ _ _
  · refine call_keep ?_
    intro w w' piped hf
    have : w' = (mkpipe w r.len).1 := by
      have := congrArg (fun o : Out (World × Bool) => match o with | .val x => some x.1 | _ => none) hf
      simpa using this.symm
    refine ⟨by rw [this]; exact mkpipe_keeps T w r.len, ?_⟩
    intro en'
    split
    · refine spliceInP_keep _ _ ?_ _ _ _ _
      intro ok pipe en
      split
      · refine peekP_keep _ _ ?_ _ _
        intro bs
        exact sendReplyP_keep _ _ _ trivial
      · exact readP_keep _ _ _ _ _
    · exact readP_keep _ _ _ _ _

/-- A request is processed as if its data were in memory, or it is a read through a pipe. -/
theorem requestS_cases (e : Endian) (cl : Client) (lg : Bool) (en : Nat) (j : Job) (hj : j.Fits) :
    ∃ q : Payload, (⟨j.id, j.req, q⟩ : Job).Wf ∧
      (requestS e cl lg en j.req j.payload = requestP e cl lg en j.req q ∨
       (j.req.type % 65536 = CMD_READ ∧ requestS e cl lg en j.req j.payload = spliceReadP e cl lg j.req en)) := by
  obtain ⟨id, r, p⟩ := j
  obtain ⟨hlen, hfit⟩ := hj
  change r.len < 2 ^ 32 at hlen
  change p.fits r at hfit
  -- the payload in memory
  obtain ⟨q, hq1, hq2, hq3⟩ : ∃ q : Payload, (⟨id, r, q⟩ : Job).Wf ∧ ((∀ bs, p ≠ .pipe bs) → q = p) ∧
      (∀ bs, p = .pipe bs → q = .data bs ∧ bs.length = r.len) := by
    cases p with
    | nothing => exact ⟨.nothing, ⟨hlen, fun h => absurd h hfit⟩, fun _ => rfl, by simp⟩
    | data bs => exact ⟨.data bs, ⟨hlen, fun _ => ⟨bs, rfl, hfit⟩⟩, fun _ => rfl, by simp⟩
    | pipe bs =>
      exact ⟨.data bs, ⟨hlen, fun _ => ⟨bs, rfl, hfit⟩⟩, fun h => absurd rfl (h bs),
        fun bs h => by cases h; exact ⟨rfl, hfit⟩⟩
  refine ⟨q, hq1, ?_⟩
  dsimp only
  unfold requestS requestP
  dsimp only
  by_cases h1 : (r.type - r.type % 65536) / 65536 / 4 ≠ 0
  · left; simp only [if_pos h1]
  · simp only [if_neg h1]
    by_cases h2 : r.type % 65536 = CMD_READ
    · simp only [if_pos h2]
      by_cases h3 : badRange cl r = true
      · left; simp only [if_pos h3]
      · simp only [if_neg h3]
        by_cases h4 : has cl.ex.flags F_SPLICE = true
        · right; exact ⟨h2, if_pos h4⟩
        · left; exact if_neg h4
    · simp only [if_neg h2]
      left
      by_cases h3 : r.type % 65536 = CMD_WRITE
      · simp only [if_pos h3]
        by_cases h4 : badWrite cl = true
        · simp only [if_pos h4]
        · simp only [if_neg h4]
          by_cases h5 : badRange cl r = true
          · simp only [if_pos h5]
          · simp only [if_neg h5]
            cases p with
            | nothing => rw [hq2 (by simp)]
            | data bs => rw [hq2 (by simp)]
            | pipe bs =>
              obtain ⟨rfl, hl⟩ := hq3 bs rfl
              simp only []
              rw [← hl]
              exact spliceOutP_eq _ _ _ _ _ _ _ rfl
      · simp only [if_neg h3]

theorem requestS_keep (e : Endian) (cl : Client) (hcl : Spliced cl) (lg : Bool) (en : Nat) (j : Job) (hj : j.Fits) :
    (requestS e cl lg en j.req j.payload).Keep
      (fun x => ∀ i, i < cl.ex.exportsize → home cl.ex i = some x → Changes j.req i) := by
  obtain ⟨q, hq, h | ⟨_, h⟩⟩ := requestS_cases e cl lg en j hj
  · rw [h]
    exact requestP_keep e cl hcl.plain hcl.tree lg en ⟨j.id, j.req, q⟩ hq
  · rw [h]
    exact spliceReadP_keep _ _ _ _ _

theorem requestS_oneMsg (e : Endian) (cl : Client) (lg : Bool) (en : Nat) (j : Job) (hj : j.Fits)
    (ht : j.req.type % 65536 ≠ 0) : (requestS e cl lg en j.req j.payload).OneMsg := by
  obtain ⟨q, hq, h | ⟨h0, _⟩⟩ := requestS_cases e cl lg en j hj
  · rw [h]
    exact requestP_oneMsg e cl lg en j.req q ht
  · exact absurd h0 ht

theorem requestS_pend_flush {I : World → Prop} {x : FileId × Nat} (e : Endian) (cl : Client) (hcl : Spliced cl) (lg : Bool)
    (en : Nat) (j : Job) (hj : j.Fits) (i : Nat) (hx : home cl.ex i = some x) (ht : j.req.type % 65536 = 3)
    (hI : ∀ w en, I w → I { w with errno := en }) :
    (requestS e cl lg en j.req j.payload).Pend I x (Reply.simple 0 j.req.cookie []).encode := by
  obtain ⟨q, hq, h | ⟨h0, _⟩⟩ := requestS_cases e cl lg en j hj
  · rw [h]
    exact requestP_pend_flush e cl hcl.tree hcl.wait lg en q i hx ht hI
  · rw [ht] at h0
    exact absurd h0 (by decide)

theorem requestS_pend_fua {I : World → Prop} {x : FileId × Nat} (e : Endian) (cl : Client) (hcl : Spliced cl) (lg : Bool)
    (en : Nat) (j : Job) (hj : j.Fits) (i : Nat) (hx : home cl.ex i = some x)
    (hcmd : j.req.type % 65536 = 1 ∨ (j.req.type % 65536 = 6 ∧ i < j.req.start + 64 * 1024 * 1024))
    (hsync : has j.req.type CMD_FLAG_FUA = true ∨ has cl.ex.flags F_SYNC = true)
    (h1 : j.req.start ≤ i) (h2 : i < j.req.start + j.req.len)
    (hI : ∀ w en, I w → I { w with errno := en }) (hno : ∀ w, I w → NoErr w) :
    (requestS e cl lg en j.req j.payload).Pend I x (Reply.simple 0 j.req.cookie []).encode := by
  obtain ⟨q, hq, h | ⟨h0, _⟩⟩ := requestS_cases e cl lg en j hj
  · rw [h]
    exact requestP_pend_fua e cl hcl.plain hcl.tree lg en ⟨j.id, j.req, q⟩ hq i hx hcmd hsync h1 h2 hI hno
  · rcases hcmd with ht | ⟨ht, _⟩
    · rw [ht] at h0
      exact absurd h0 (by decide)
    · rw [ht] at h0
      exact absurd h0 (by decide)

end Nbd
