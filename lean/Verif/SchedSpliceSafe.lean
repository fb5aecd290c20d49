import Verif.SchedSplice
import Verif.SchedSafe
/-! # On plain exports with `splice = true` no request makes a thread or the process fail, unless it comes through TLS -/

set_option autoImplicit false

namespace Nbd
open Spec

theorem spliceOnce_safe {ex : Export} (hg : GoodExport ex) (ht : has ex.flags F_TREEFILES = false) (a len : Nat) (w : World) :
    ∃ w' x, spliceOnce ex a len w = .val (w', x) := by
  obtain ⟨x, hx⟩ := getFilepos_safe hg ht w a
  unfold spliceOnce rawexpread
  rw [hx]
  cases x with
  | none => exact ⟨_, _, rfl⟩
  | some x =>
    obtain ⟨h, off, mb⟩ := x
    dsimp only
    generalize handlePread w h off (clip mb len) = y
    obtain ⟨w1, r⟩ := y
    cases r <;> exact ⟨_, _, rfl⟩

theorem spliceInP_safe {ex : Export} (hg : GoodExport ex) (ht : has ex.flags F_TREEFILES = false)
    (k : Bool → List Nat → Nat → Prog World) (hk : ∀ ok pipe en, (k ok pipe en).Safe) (n : Nat) :
    ∀ (a : Nat) (pipe : List Nat) (en : Nat), (spliceInP ex k a n pipe en).Safe := by
  induction n using Nat.strongRecOn with
  | _ n ih =>
    intro a pipe en
    unfold spliceInP
    split
    · exact hk _ _ _
    · refine call_safe fun w => ?_
      obtain ⟨w', x, hx⟩ := spliceOnce_safe hg ht a n w
      refine ⟨w', x, hx, fun en' => ?_⟩
      match x with
      | none => exact hk _ _ _
      | some 0 => exact hk _ _ _
      | some (m + 1) => exact ih _ (by omega) _ _ _

theorem peekP_safe (ex : Export) (k : List Byte → Prog World) (hk : ∀ bs, (k bs).Safe) (pipe : List Nat) :
    ∀ acc, (peekP ex k pipe acc).Safe := by
  induction pipe with
  | nil => intro acc; exact hk acc
  | cons a pipe ih =>
    intro acc w
    exact ⟨w, _, rfl, ih _⟩

theorem readP_safe (e : Endian) (cl : Client) (hg : GoodExport cl.ex) (ht : has cl.ex.flags F_TREEFILES = false) (lg : Bool)
    (r : Req) (hdf : has r.type CMD_FLAG_DF = false) (hr : r.start + r.len ≤ cl.ex.exportsize) (en : Nat) :
    (readP e cl lg r en).Safe := by
  unfold readP
  simp only [hdf, Bool.and_false, Bool.false_and, Bool.false_eq_true, if_false, Bool.false_or]
  refine readFullyP_safe hg ht e r.cookie lg (st := cl.structured) _ ?_ r.len _ en rfl ?_ (by dsimp only; omega)
  · intro c ok en hi hok
    refine completeReadP_safe e lg c r.cookie _ en hi ?_
    cases ok with
    | true => exact fun _ => hok rfl
    | false => simp
  · refine ⟨rfl, rfl, fun hst => ⟨[], ?_, rfl⟩⟩
    simp [hst]

theorem spliceReadP_safe (e : Endian) (cl : Client) (hg : GoodExport cl.ex) (ht : has cl.ex.flags F_TREEFILES = false) (lg : Bool)
    (r : Req) (hdf : has r.type CMD_FLAG_DF = false) (hr : r.start + r.len ≤ cl.ex.exportsize) (en : Nat) :
    (spliceReadP e cl lg r en).Safe := by
  have hread := readP_safe e cl hg ht lg r hdf hr
  unfold spliceReadP
  split
  · exact hread en
  · refine call_safe fun w => ⟨(mkpipe w r.len).1, (mkpipe w r.len).2, rfl, fun en' => ?_⟩
    split
    · refine spliceInP_safe hg ht _ (fun ok pipe en => ?_) _ _ _ _
      split
      · refine peekP_safe _ _ (fun bs => ?_) _ _
        exact sendReplyP_safe _ _ _ trivial
      · exact hread en
    · exact hread en'

/-- No request makes the program for an export of plain files fail, with or without splice. -/
theorem requestS_safe (e : Endian) (cl : Client) (hcl : Spliced cl) (lg : Bool) (en : Nat) (j : Job) (hj : j.Fits) :
    (requestS e cl lg en j.req j.payload).Safe := by
  obtain ⟨id, r, p⟩ := j
  obtain ⟨hlen, hfit⟩ := hj
  change r.len < 2 ^ 32 at hlen
  change p.fits r at hfit
  have hg := hcl.plain.good
  have hans : ∀ ok en, (answerP e lg r ok en).Safe := fun _ _ => sendReplyP_safe _ _ _ trivial
  -- the payload does not matter to a request that is not a write
  have hother : r.type % 65536 ≠ CMD_WRITE → (requestP e cl lg en r p).Safe := by
    intro ht
    exact requestP_safe_of e cl hcl.plain hcl.tree lg en ⟨id, r, p⟩ ⟨hlen, fun h => absurd h ht⟩
  show (requestS e cl lg en r p).Safe
  unfold requestS
  dsimp only
  split
  · rename_i hf
    unfold requestP
    dsimp only
    rw [if_pos hf]
    exact sendReplyP_safe _ _ _ trivial
  · rename_i hf
    have hdf : has r.type CMD_FLAG_DF = false := has_df_of_flags (by omega)
    split
    · rename_i ht
      split
      · exact hother (by rw [ht]; decide)
      · rename_i hb
        have hin := inRange hg hlen (by simpa using hb)
        split
        · exact spliceReadP_safe e cl hg hcl.tree lg r hdf hin en
        · exact readP_safe e cl hg hcl.tree lg r hdf hin en
    · split
      · rename_i hnr ht
        split
        · rename_i hb
          unfold requestP
          dsimp only
          rw [if_neg hf, if_neg hnr, if_pos ht, if_pos hb]
          exact sendReplyP_safe _ _ _ trivial
        · rename_i hbw
          split
          · rename_i hb
            unfold requestP
            dsimp only
            rw [if_neg hf, if_neg hnr, if_pos ht, if_neg hbw, if_pos hb]
            exact sendReplyP_safe _ _ _ trivial
          · split
            · rename_i bs
              change bs.length = r.len at hfit
              rw [← hfit, spliceOutP_eq _ _ _ _ _ _ _ rfl]
              exact writeFullyP_safe hg hcl.tree _ _ hans _ _ _
            · rename_i hnp
              refine requestP_safe_of e cl hcl.plain hcl.tree lg en ⟨id, r, p⟩ ⟨hlen, fun _ => ?_⟩
              cases p with
              | nothing => exact absurd ht hfit
              | data bs => exact ⟨bs, rfl, hfit⟩
              | pipe bs => exact absurd rfl (hnp bs)
      · rename_i ht
        exact hother ht

theorem spliceServer_safe (e : Endian) (cl : Client) (hcl : Spliced cl)
    (htls : cl.tls = false ∨ has cl.ex.flags F_SPLICE = false) (lg : Bool) : (spliceServer e cl lg).Safe Job.Fits where
  take st stream := by
    refine ⟨fun h => ?_, (fetch_safe e cl st stream).1⟩
    have := (fetch_safe e cl st stream).2.1 h
    rcases htls with h | h
    · rw [h] at this; cases this.1
    · rw [h] at this; cases this.2
  job st stream st' n r p rest h := (fetch_safe e cl st stream).2.2 _ _ _ _ h
  code en j hj := requestS_safe e cl hcl lg en j hj

end Nbd
