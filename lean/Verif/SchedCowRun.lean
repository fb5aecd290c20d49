import Verif.SchedCow
import Verif.SchedSeq
import Verif.TrLogLemmas
/-!
# One thread of a copy-on-write session alone

When nothing comes between its steps, `cowP` does what `handleRequest` does.
-/

set_option autoImplicit false

namespace Nbd

theorem Mem.put_self (s : Mem) (sid : Nat) : s.put sid (s.1 sid) = s := by
  unfold Mem.put
  have : (fun j => if j = sid then s.1 sid else s.1 j) = s.1 := by
    funext j
    split
    · rename_i h; rw [h]
    · rfl
  rw [this]

theorem Mem.put_at (s : Mem) (sid : Nat) (cl : Client) : (s.put sid cl).1 sid = cl := by
  unfold Mem.put
  simp

theorem Mem.put_files (s : Mem) (sid : Nat) (cl : Client) : (s.put sid cl).2 = s.2 := rfl

theorem Mem.put_put (s : Mem) (sid : Nat) (cl cl' : Client) : (s.put sid cl).put sid cl' = s.put sid cl' := by
  unfold Mem.put
  congr 1
  funext j
  by_cases h : j = sid <;> simp [h]

/-- The memory with a changed record and changed files. -/
def Mem.both (s : Mem) (sid : Nat) (cl : Client) (w : World) : Mem := ((s.put sid cl).1, w)

theorem Mem.both_self (s : Mem) (sid : Nat) : s.both sid (s.1 sid) s.2 = s := by
  have := Mem.put_self s sid
  unfold Mem.both
  rw [this]

theorem Mem.both_same (s : Mem) (sid : Nat) (w : World) : s.both sid (s.1 sid) w = (s.1, w) := by
  have := Mem.put_self s sid
  unfold Mem.both
  rw [this]

theorem Mem.both_at (s : Mem) (sid : Nat) (cl : Client) (w : World) : (s.both sid cl w).1 sid = cl := Mem.put_at s sid cl

theorem Mem.both_both (s : Mem) (sid : Nat) (cl cl' : Client) (w w' : World) :
    (s.both sid cl w).both sid cl' w' = s.both sid cl' w' := by
  have := Mem.put_put s sid cl cl'
  unfold Mem.both Mem.put at *
  simp only [Prod.mk.injEq, and_true] at this ⊢
  exact this

theorem callM_run {α : Type} (f : World → Out (World × α)) (k : α → Nat → Prog Mem) (acc : List Msg) (s : Mem) :
    (callM f s.2.errno k).run acc s =
      match f s.2 with
      | .ub => .ub
      | .exit => .exit
      | .val (w', a) => (k a w'.errno).run acc (s.1, w') := by
  unfold callM
  rw [Prog.run]
  have h : ({ s.2 with errno := s.2.errno } : World) = s.2 := rfl
  rw [h]
  cases f s.2 with
  | ub => rfl
  | exit => rfl
  | val x => rfl

theorem loadMap_run (sid mapcnt : Nat) (k : Nat → Prog Mem) (acc : List Msg) (s : Mem) :
    (loadMap sid mapcnt k).run acc s =
      match (s.1 sid).difmap[mapcnt]? with
      | none => .ub
      | some m => (k m).run acc s := by
  unfold loadMap
  rw [Prog.run]
  cases (s.1 sid).difmap[mapcnt]? <;> rfl

theorem newSlot_run (sparse : Bool) (sid mapcnt : Nat) (k : Prog Mem) (acc : List Msg) (s : Mem) :
    (newSlot sparse sid mapcnt k).run acc s =
      k.run acc (s.both sid { s.1 sid with
        difmap := (s.1 sid).difmap.set mapcnt (if sparse then mapcnt % 2 ^ 32 else (s.1 sid).difffilelen)
        difffilelen := if sparse then (s.1 sid).difffilelen else ((s.1 sid).difffilelen + 1) % 2 ^ 32 } s.2) := by
  unfold newSlot
  cases sparse with
  | true => rfl
  | false =>
    simp only [Bool.false_eq_true, if_false]
    unfold loadLen storeLen storeMap
    rw [Prog.run, ]
    dsimp only
    rw [Prog.run]
    dsimp only
    rw [Prog.run]
    dsimp only
    rw [Mem.put_put, Mem.put_at]
    rfl

theorem appendM_run (sid : Nat) (page : List Byte) (k : Option Nat → Nat → Prog Mem) (acc : List Msg) (s : Mem) :
    (appendM sid page s.2.errno k).run acc s =
      (k (diffAppend (s.1 sid) s.2 page).2.2 (diffAppend (s.1 sid) s.2 page).1.errno).run acc
        (s.both sid (diffAppend (s.1 sid) s.2 page).2.1 (diffAppend (s.1 sid) s.2 page).1) := by
  unfold appendM
  rw [Prog.run]
  have h : ({ s.2 with errno := s.2.errno } : World) = s.2 := rfl
  rw [h]
  rfl

theorem pageInM_run (ex : Export) (k : List (Option Byte) → Bool → Nat → Prog Mem) (acc : List Msg) (n : Nat) :
    ∀ (pb : List (Option Byte)) (ps dn rdlen : Nat) (s : Mem), rdlen = n →
    (pageInM ex k pb ps dn rdlen s.2.errno).run acc s =
      match pageIn ex s.2 pb ps dn rdlen with
      | .ub => .ub
      | .exit => .exit
      | .val (w', pb', ok) => (k pb' ok w'.errno).run acc (s.1, w') := by
  induction n using Nat.strongRecOn with
  | _ n ih =>
    intro pb ps dn rdlen s hn
    unfold pageInM pageIn
    split
    · rfl
    · rename_i h0
      rw [callM_run]
      cases rawexpread ex s.2 ps rdlen with
      | ub => rfl
      | exit => rfl
      | val x =>
        obtain ⟨w1, x⟩ := x
        cases x with
        | none => rfl
        | some x =>
          cases x with
          | nil => rfl
          | cons b bs =>
            exact ih (rdlen - (b :: bs).length) (by rw [List.length_cons]; omega) _ _ _ _ (s.1, w1) rfl

theorem writePagesM_run (cl : Client) (sid : Nat) (k : Bool → Nat → Prog Mem) (acc : List Msg) (hw : cl.waiting = false)
    (n : Nat) : ∀ (pb : List (Option Byte)) (mapcnt a : Nat) (buf : List Byte) (s : Mem), SameSeat cl (s.1 sid) →
    (writePagesM cl sid k n pb mapcnt a buf s.2.errno).run acc s =
      match expwritePages n (s.1 sid) s.2 pb mapcnt a buf with
      | .ub => .ub
      | .exit => .exit
      | .val (cl', w', ok) => (k ok w'.errno).run acc (s.both sid cl' w') := by
  induction n with
  | zero =>
    intro pb mapcnt a buf s hs
    simp only [writePagesM, expwritePages]
    rw [Mem.both_self]
  | succ n ih =>
    intro pb mapcnt a buf s hs
    rw [writePagesM, expwritePages]
    simp only []
    rw [loadMap_run]
    cases hm : (s.1 sid).difmap[mapcnt]? with
    | none => rfl
    | some m =>
      simp only []
      split
      · rw [loadMap_run, hm]
        simp only []
        rw [callM_run, hs.difffile]
        simp only []
        generalize sysPwrite s.2 (.fd cl.difffile) (diffOffset m (a - mapcnt * DIFFPAGESIZE))
          (buf.take (pageLen (a - mapcnt * DIFFPAGESIZE) buf.length)) = x
        obtain ⟨w1, x⟩ := x
        cases x with
        | none => simp only []; rw [Mem.both_same]
        | some x =>
          simp only []
          split
          · simp only []; rw [Mem.both_same]
          · have := ih pb (mapcnt + 1) (a + pageLen (a - mapcnt * DIFFPAGESIZE) buf.length)
              (buf.drop (pageLen (a - mapcnt * DIFFPAGESIZE) buf.length)) (s.1, w1) hs
            simp only [] at this
            rw [this]
            rfl
      · rw [newSlot_run, show has (s.1 sid).ex.flags F_SPARSE = has cl.ex.flags F_SPARSE by rw [hs.ex]]
        generalize hcl1 : ({ s.1 sid with
          difmap := (s.1 sid).difmap.set mapcnt (if has cl.ex.flags F_SPARSE = true then mapcnt % 2 ^ 32 else (s.1 sid).difffilelen)
          difffilelen := if has cl.ex.flags F_SPARSE = true then (s.1 sid).difffilelen else ((s.1 sid).difffilelen + 1) % 2 ^ 32 } : Client) = cl1
        have hseat : SameSeat cl cl1 := by subst hcl1; exact ⟨hs.1, hs.2, hs.3, hs.4, hs.5⟩
        rw [show (s.1 sid).waiting = false from hs.waiting.trans hw, show (s.1 sid).ex = cl.ex from hs.ex]
        simp only [Bool.false_eq_true, and_false, if_false]
        -- from the filled page on
        have hput : ∀ (pb : List (Option Byte)) (w1 : World),
            Prog.run (match allInit (bufSet pb (a - mapcnt * DIFFPAGESIZE) (buf.take (pageLen (a - mapcnt * DIFFPAGESIZE) buf.length))) with
              | none => crash
              | some page =>
                appendM sid page w1.errno fun r en =>
                  match r with
                  | none => k false en
                  | some x =>
                    if x ≠ DIFFPAGESIZE then k false en
                    else
                      writePagesM cl sid k n (bufSet pb (a - mapcnt * DIFFPAGESIZE) (buf.take (pageLen (a - mapcnt * DIFFPAGESIZE) buf.length)))
                        (mapcnt + 1) (a + pageLen (a - mapcnt * DIFFPAGESIZE) buf.length)
                        (buf.drop (pageLen (a - mapcnt * DIFFPAGESIZE) buf.length)) en) acc (s.both sid cl1 w1) =
            match (match allInit (bufSet pb (a - mapcnt * DIFFPAGESIZE) (buf.take (pageLen (a - mapcnt * DIFFPAGESIZE) buf.length))) with
              | none => Out.ub
              | some page =>
                match diffAppend cl1 w1 page with
                | (w, cl, none) => .val (cl, w, false)
                | (w, cl, some k) =>
                  if k ≠ DIFFPAGESIZE then .val (cl, w, false)
                  else expwritePages n cl w (bufSet pb (a - mapcnt * DIFFPAGESIZE) (buf.take (pageLen (a - mapcnt * DIFFPAGESIZE) buf.length)))
                    (mapcnt + 1) (a + pageLen (a - mapcnt * DIFFPAGESIZE) buf.length)
                    (buf.drop (pageLen (a - mapcnt * DIFFPAGESIZE) buf.length))) with
            | .ub => .ub
            | .exit => .exit
            | .val (cl', w', ok) => (k ok w'.errno).run acc (s.both sid cl' w') := by
          intro pb w1
          cases allInit (bufSet pb (a - mapcnt * DIFFPAGESIZE) (buf.take (pageLen (a - mapcnt * DIFFPAGESIZE) buf.length))) with
          | none => rfl
          | some page =>
            simp only []
            have h1 := appendM_run sid page (fun r en =>
                  match r with
                  | none => k false en
                  | some x =>
                    if x ≠ DIFFPAGESIZE then k false en
                    else
                      writePagesM cl sid k n (bufSet pb (a - mapcnt * DIFFPAGESIZE) (buf.take (pageLen (a - mapcnt * DIFFPAGESIZE) buf.length)))
                        (mapcnt + 1) (a + pageLen (a - mapcnt * DIFFPAGESIZE) buf.length)
                        (buf.drop (pageLen (a - mapcnt * DIFFPAGESIZE) buf.length)) en) acc (s.both sid cl1 w1)
            rw [Mem.both_at, Mem.both_both] at h1
            have h2 : (s.both sid cl1 w1).2 = w1 := rfl
            rw [h2] at h1
            rw [h1]
            have hk := diffAppend_keptOff cl1 true w1 page
            generalize diffAppend cl1 w1 page = d at hk ⊢
            obtain ⟨w2, cl2, r⟩ := d
            have hs2 : SameSeat cl cl2 := hseat.trans ⟨hk.2.1, hk.2.2.1, hk.2.2.2.1, hk.2.2.2.2.1, hk.2.2.2.2.2⟩
            cases r with
            | none => rfl
            | some x =>
              simp only []
              split
              · rfl
              · have := ih (bufSet pb (a - mapcnt * DIFFPAGESIZE) (buf.take (pageLen (a - mapcnt * DIFFPAGESIZE) buf.length)))
                  (mapcnt + 1) (a + pageLen (a - mapcnt * DIFFPAGESIZE) buf.length)
                  (buf.drop (pageLen (a - mapcnt * DIFFPAGESIZE) buf.length)) (s.both sid cl2 w2) (by rw [Mem.both_at]; exact hs2)
                rw [Mem.both_at] at this
                have h3 : (s.both sid cl2 w2).2 = w2 := rfl
                rw [h3] at this
                rw [this]
                simp only [Mem.both_both]
        split
        · have h1 := pageInM_run cl.ex (fun pagebuf ok en =>
            if ok = true then
              match allInit (bufSet pagebuf (a - mapcnt * DIFFPAGESIZE) (buf.take (pageLen (a - mapcnt * DIFFPAGESIZE) buf.length))) with
              | none => crash
              | some page =>
                appendM sid page en fun r en =>
                  match r with
                  | none => k false en
                  | some x =>
                    if x ≠ DIFFPAGESIZE then k false en
                    else
                      writePagesM cl sid k n (bufSet pagebuf (a - mapcnt * DIFFPAGESIZE) (buf.take (pageLen (a - mapcnt * DIFFPAGESIZE) buf.length)))
                        (mapcnt + 1) (a + pageLen (a - mapcnt * DIFFPAGESIZE) buf.length)
                        (buf.drop (pageLen (a - mapcnt * DIFFPAGESIZE) buf.length)) en
            else k false en) acc _ pb (mapcnt * DIFFPAGESIZE) 0 DIFFPAGESIZE (s.both sid cl1 s.2) rfl
          have h2 : (s.both sid cl1 s.2).2 = s.2 := rfl
          rw [h2] at h1
          refine h1.trans ?_
          cases pageIn cl.ex s.2 pb (mapcnt * DIFFPAGESIZE) 0 DIFFPAGESIZE with
          | ub => rfl
          | exit => rfl
          | val x =>
            obtain ⟨w1, pb1, ok⟩ := x
            cases ok with
            | false => rfl
            | true => exact hput pb1 w1
        · exact hput pb s.2

/-- `expwrite` with the number of blocks and the empty page left open. -/
theorem expwriteM_run_aux (cl : Client) (sid : Nat) (fua : Bool) (k : Bool → Nat → Prog Mem) (acc : List Msg)
    (hw : cl.waiting = false) (n : Nat) (pb : List (Option Byte)) (m a : Nat) (buf : List Byte) (s : Mem)
    (hs : SameSeat cl (s.1 sid)) :
    (writePagesM cl sid
      (fun ok en =>
        if ok then
          if has cl.ex.flags F_SYNC || fua then
            callM (fun w => .val (sysFsync w (.fd cl.difffile))) en fun _ en => k true en
          else k true en
        else k false en)
      n pb m a buf s.2.errno).run acc s =
      match (match expwritePages n (s.1 sid) s.2 pb m a buf with
        | .ub => Out.ub
        | .exit => .exit
        | .val (cl, w, false) => .val (cl, w, false)
        | .val (cl, w, true) =>
          if has cl.ex.flags F_SYNC || fua then .val (cl, (sysFsync w (.fd cl.difffile)).1, true)
          else .val (cl, w, true)) with
      | .ub => .ub
      | .exit => .exit
      | .val (cl', w', ok) => (k ok w'.errno).run acc (s.both sid cl' w') := by
  rw [writePagesM_run cl sid _ acc hw _ pb _ _ _ s hs]
  cases hx : expwritePages n (s.1 sid) s.2 pb m a buf with
  | ub => rfl
  | exit => rfl
  | val x =>
    obtain ⟨cl1, w1, ok⟩ := x
    have hseat := (expwritePages_keptOff _ _ _ _ _ _ _ _ _ _ hx).2
    cases ok with
    | false => rfl
    | true =>
      simp only [if_true]
      rw [show cl1.ex = cl.ex from hseat.ex.trans hs.ex, show cl1.difffile = cl.difffile from hseat.difffile.trans hs.difffile]
      split
      · exact callM_run (fun w => .val (sysFsync w (.fd cl.difffile))) (fun _ en => k true en) acc (s.both sid cl1 w1)
      · rfl

theorem expwriteM_run (cl : Client) (sid : Nat) (fua : Bool) (k : Bool → Nat → Prog Mem) (acc : List Msg)
    (hw : cl.waiting = false) (hc : has cl.ex.flags F_COPYONWRITE = true) (a : Nat) (buf : List Byte) (s : Mem)
    (hs : SameSeat cl (s.1 sid)) :
    (expwriteM cl sid fua k a buf s.2.errno).run acc s =
      match expwrite (s.1 sid) s.2 a buf fua with
      | .ub => .ub
      | .exit => .exit
      | .val (cl', w', ok) => (k ok w'.errno).run acc (s.both sid cl' w') := by
  have hp : (s.1 sid).paged = true := by
    unfold Client.paged
    rw [hs.ex, hc]
    rfl
  have := expwriteM_run_aux cl sid fua k acc hw (pageCount a buf.length) (List.replicate DIFFPAGESIZE none)
    (a / DIFFPAGESIZE) a buf s hs
  rw [expwriteM]
  refine this.trans ?_
  rw [expwrite, if_pos hp]
  generalize expwritePages (pageCount a buf.length) (s.1 sid) s.2 (List.replicate DIFFPAGESIZE none) (a / DIFFPAGESIZE) a buf = x
  cases x with
  | ub => rfl
  | exit => rfl
  | val x => obtain ⟨cl1, w1, ok⟩ := x; cases ok <;> rfl

theorem writeZeroesM_run (cl : Client) (sid : Nat) (fua : Bool) (k : Bool → Nat → Prog Mem) (acc : List Msg)
    (hw : cl.waiting = false) (hc : has cl.ex.flags F_COPYONWRITE = true) (a : Nat) (n : Nat) :
    ∀ (s : Mem), SameSeat cl (s.1 sid) →
    (writeZeroesM cl sid fua k a n s.2.errno).run acc s =
      match expwriteZeroes (s.1 sid) s.2 a n fua with
      | .ub => .ub
      | .exit => .exit
      | .val (cl', w', ok) => (k ok w'.errno).run acc (s.both sid cl' w') := by
  induction n using Nat.strongRecOn with
  | _ n ih =>
    intro s hs
    unfold writeZeroesM expwriteZeroes
    split
    · simp only []; rw [Mem.both_self]
    · rename_i h0
      simp only []
      rw [expwriteM_run cl sid fua _ acc hw hc a _ s hs]
      cases hx : expwrite (s.1 sid) s.2 a (Flat.zeros (min n ZEROCHUNK)) fua with
      | ub => rfl
      | exit => rfl
      | val x =>
        obtain ⟨cl1, w1, ok⟩ := x
        cases ok with
        | false => rfl
        | true =>
          have : 0 < ZEROCHUNK := by decide
          have h1 := ih (n - min n ZEROCHUNK) (by omega) (s.both sid cl1 w1)
            (by rw [Mem.both_at]; exact hs.trans (expwrite_seat _ _ _ _ _ _ _ _ hx))
          rw [Mem.both_at] at h1
          have h2 : (s.both sid cl1 w1).2 = w1 := rfl
          rw [h2] at h1
          simp only [if_true]
          rw [h1]
          simp only [Mem.both_both]

theorem readFullyM_run (e : Endian) (ex : Export) (cookie : List Byte) (lg : Bool)
    (k : ReadCtx → Bool → Nat → Prog Mem) (n : Nat) : ∀ (c : ReadCtx) (s : Mem), c.curLen = n →
    (readFullyM e ex cookie lg k c s.2.errno).run (c.chunks.map (dataMsg e cookie)) s =
      match rawexpreadFully ex s.2 c with
      | .ub => .ub
      | .exit => .exit
      | .val (w', c', ok) => (k c' ok w'.errno).run (c'.chunks.map (dataMsg e cookie)) (s.1, w') := by
  induction n using Nat.strongRecOn with
  | _ n ih =>
    intro c s hn
    unfold readFullyM rawexpreadFully
    split
    · rfl
    · rename_i h0
      rw [callM_run]
      unfold readOnce
      cases rawexpread ex s.2 (c.start + c.curOff) c.curLen with
      | ub => rfl
      | exit => rfl
      | val x =>
        obtain ⟨w1, x⟩ := x
        cases x with
        | none => rfl
        | some x =>
          cases x with
          | nil => rfl
          | cons b bs =>
            dsimp only
            cases hd : c.deliver (b :: bs) with
            | ub => rfl
            | exit => rfl
            | val c' =>
              dsimp only
              have := ih (c.curLen - (b :: bs).length) (by rw [List.length_cons]; omega)
                { c' with curOff := c.curOff + (b :: bs).length, curLen := c.curLen - (b :: bs).length }
                (s.1, w1) rfl
              dsimp only at this
              unfold ReadCtx.deliver at hd
              split
              · rename_i hch
                rw [if_pos hch] at hd
                split at hd
                · cases hd
                · cases hd
                  dsimp only at this
                  rw [List.map_append] at this
                  unfold sendChunkP
                  split <;> exact this
              · rename_i hch
                rw [if_neg hch] at hd
                split at hd
                · cases hd
                · cases hd
                  exact this

theorem readPagesM_run (e : Endian) (cl : Client) (sid : Nat) (cookie : List Byte) (lg : Bool)
    (k : ReadCtx → Bool → Nat → Prog Mem) (hw : cl.waiting = false) (n : Nat) :
    ∀ (c : ReadCtx) (mapcnt a len : Nat) (s : Mem), SameSeat cl (s.1 sid) →
    (readPagesM e cl sid cookie lg k n c mapcnt a len s.2.errno).run (c.chunks.map (dataMsg e cookie)) s =
      match expreadPages (s.1 sid) n s.2 c mapcnt a len with
      | .ub => .ub
      | .exit => .exit
      | .val (w', c', ok) => (k c' ok w'.errno).run (c'.chunks.map (dataMsg e cookie)) (s.1, w') := by
  induction n with
  | zero => intro c mapcnt a len s hs; rfl
  | succ n ih =>
    intro c mapcnt a len s hs
    rw [readPagesM, expreadPages]
    rw [loadMap_run]
    cases hm : (s.1 sid).difmap[mapcnt]? with
    | none => rfl
    | some m =>
      simp only []
      split
      · rw [loadMap_run, hm]
        simp only []
        rw [callM_run, hs.difffile]
        unfold readDiff
        generalize sysPread s.2 (.fd cl.difffile) (diffOffset m (a - mapcnt * DIFFPAGESIZE))
          (pageLen (a - mapcnt * DIFFPAGESIZE) len) = x
        obtain ⟨w1, x⟩ := x
        cases x with
        | none => rfl
        | some bs =>
          simp only []
          cases hd : c.deliver bs with
          | ub => rfl
          | exit => rfl
          | val c' =>
            simp only []
            by_cases hl : bs.length ≠ pageLen (a - mapcnt * DIFFPAGESIZE) len
            · rw [if_pos hl, if_pos hl]
            · rw [if_neg hl, if_neg hl]
              have := ih c' (mapcnt + 1) (a + pageLen (a - mapcnt * DIFFPAGESIZE) len)
                (len - pageLen (a - mapcnt * DIFFPAGESIZE) len) (s.1, w1) hs
              simp only [] at this ⊢
              unfold ReadCtx.deliver at hd
              split
              · rename_i hch
                rw [if_pos hch] at hd
                split at hd
                · cases hd
                · cases hd
                  dsimp only at this
                  rw [List.map_append] at this
                  unfold sendChunkP
                  split <;> exact this
              · rename_i hch
                rw [if_neg hch] at hd
                split at hd
                · cases hd
                · cases hd
                  exact this
      · rw [if_neg (by rw [hs.waiting, hw]; simp), hs.ex]
        have h1 := readFullyM_run e cl.ex cookie lg (fun c ok en =>
            if ok = true then readPagesM e cl sid cookie lg k n c (mapcnt + 1) (a + pageLen (a - mapcnt * DIFFPAGESIZE) len)
              (len - pageLen (a - mapcnt * DIFFPAGESIZE) len) en
            else k c false en) _ { c with curLen := pageLen (a - mapcnt * DIFFPAGESIZE) len } s rfl
        refine h1.trans ?_
        cases rawexpreadFully cl.ex s.2 { c with curLen := pageLen (a - mapcnt * DIFFPAGESIZE) len } with
        | ub => rfl
        | exit => rfl
        | val x =>
          obtain ⟨w1, c1, ok⟩ := x
          cases ok with
          | false => rfl
          | true => exact ih c1 _ _ _ (s.1, w1) hs

/-- The sessions `cowP` is for. -/
structure CowSeat (cl : Client) : Prop where
  cow : has cl.ex.flags F_COPYONWRITE = true
  nosplice : has cl.ex.flags F_SPLICE = false
  waiting : cl.waiting = false

/-- What is left of a request whose handler has come to an end. -/
theorem answerM_run (e : Endian) (lg : Bool) (r : Req) (ok : Bool) (s : Mem) :
    (answerM e lg r ok s.2.errno).run [] s =
      .val (s, [simpleMsg e r (if ok then none else some (nbdErrno e s.2.errno))], s.2.errno) :=
  sendReplyP_run _ _ _ _ _

theorem cowWrite_run (e : Endian) (cl : Client) (hcl : CowSeat cl) (sid : Nat) (lg : Bool) (s : Mem) (hs : SameSeat cl (s.1 sid))
    (r : Req) (bs : List Byte) :
    (expwriteM cl sid (has r.type CMD_FLAG_FUA) (answerM e lg r) r.start bs s.2.errno).run [] s =
      match handleWrite e (s.1 sid) s.2 r (.data bs) with
      | .ub => .ub
      | .exit => .exit
      | .val (cl', w', msgs) => .val (s.both sid cl' w', msgs, w'.errno) := by
  refine (expwriteM_run cl sid _ _ _ hcl.waiting hcl.cow _ _ s hs).trans ?_
  unfold handleWrite
  dsimp only
  generalize expwrite (s.1 sid) s.2 r.start bs (has r.type CMD_FLAG_FUA) = x
  cases x with
  | ub => rfl
  | exit => rfl
  | val x =>
    obtain ⟨cl1, w1, ok⟩ := x
    exact answerM_run e lg r ok (s.both sid cl1 w1)

theorem cowZeroes_run (e : Endian) (cl : Client) (hcl : CowSeat cl) (sid : Nat) (lg : Bool) (s : Mem) (hs : SameSeat cl (s.1 sid))
    (r : Req) :
    (writeZeroesM cl sid (has r.type CMD_FLAG_FUA) (answerM e lg r) r.start r.len s.2.errno).run [] s =
      match handleWriteZeroes e (s.1 sid) s.2 r with
      | .ub => .ub
      | .exit => .exit
      | .val (cl', w', msgs) => .val (s.both sid cl' w', msgs, w'.errno) := by
  refine (writeZeroesM_run cl sid _ _ _ hcl.waiting hcl.cow _ _ s hs).trans ?_
  unfold handleWriteZeroes
  generalize expwriteZeroes (s.1 sid) s.2 r.start r.len (has r.type CMD_FLAG_FUA) = x
  cases x with
  | ub => rfl
  | exit => rfl
  | val x =>
    obtain ⟨cl1, w1, ok⟩ := x
    exact answerM_run e lg r ok (s.both sid cl1 w1)

theorem cowFlush_run (e : Endian) (cl : Client) (hcl : CowSeat cl) (sid : Nat) (lg : Bool) (s : Mem) (hs : SameSeat cl (s.1 sid))
    (r : Req) :
    (callM (fun w => .val (sysFsync w (.fd cl.difffile))) s.2.errno (answerM e lg r)).run [] s =
      .val ((s.1, (handleFlush e (s.1 sid) s.2 r).1), (handleFlush e (s.1 sid) s.2 r).2, (handleFlush e (s.1 sid) s.2 r).1.errno) := by
  rw [callM_run]
  unfold handleFlush expflush
  rw [hs.ex, hcl.cow, hs.difffile]
  simp only [if_true]
  generalize sysFsync s.2 (.fd cl.difffile) = x
  obtain ⟨w1, ok⟩ := x
  simp only []
  exact answerM_run e lg r ok (s.1, w1)

theorem completeReadM_run (e : Endian) (lg : Bool) (cookie : List Byte) (err : Option UInt32) (c : ReadCtx) (s : Mem) :
    (completeReadP e lg c cookie err s.2.errno).run (c.chunks.map (dataMsg e cookie)) s =
      match completeRead e c cookie err with
      | .ub => .ub
      | .exit => .exit
      | .val msgs => .val (s, c.chunks.map (dataMsg e cookie) ++ msgs, s.2.errno) := by
  unfold completeReadP
  cases hcr : completeRead e c cookie err with
  | ub => rfl
  | exit =>
    unfold completeRead at hcr
    cases err with
    | some err => split at hcr <;> cases hcr
    | none =>
      split at hcr
      · cases hcr
      · simp only [] at hcr; split at hcr <;> cases hcr
  | val msgs =>
    dsimp only
    split
    · exact sendChunksP_run _ _ _ _ _
    · rename_i hst
      unfold completeRead at hcr
      rw [if_neg hst] at hcr
      split at hcr
      · cases hcr
        exact sendReplyP_run _ _ _ _ _
      · split at hcr
        · cases hcr
        · cases hcr
          exact sendReplyP_run _ _ _ _ _

theorem cowRead_run_aux (e : Endian) (cl : Client) (sid : Nat) (lg : Bool) (hw : cl.waiting = false) (cookie : List Byte)
    (n : Nat) (c : ReadCtx) (hc : c.chunks = []) (m a len : Nat) (s : Mem) (hs : SameSeat cl (s.1 sid)) (o : Out (World × ReadCtx × Bool))
    (ho : expreadPages (s.1 sid) n s.2 c m a len = o) :
    (readPagesM e cl sid cookie lg
      (fun c ok en => completeReadP e lg c cookie (if ok then none else some (nbdErrno e en)) en) n c m a len s.2.errno).run [] s =
      match o with
      | .ub => .ub
      | .exit => .exit
      | .val (w, c, ok) =>
        match completeRead e c cookie (if ok then none else some (nbdErrno e w.errno)) with
        | .ub => .ub
        | .exit => .exit
        | .val msgs => .val ((s.1, w), c.chunks.map (dataMsg e cookie) ++ msgs, w.errno) := by
  have := readPagesM_run e cl sid cookie lg
    (fun c ok en => completeReadP e lg c cookie (if ok then none else some (nbdErrno e en)) en) hw n c m a len s hs
  rw [hc, List.map_nil, ho] at this
  rw [this]
  cases o with
  | ub => rfl
  | exit => rfl
  | val x =>
    obtain ⟨w1, c1, ok⟩ := x
    exact completeReadM_run e lg cookie _ c1 (s.1, w1)

theorem cowRead_run (e : Endian) (cl : Client) (hcl : CowSeat cl) (sid : Nat) (lg : Bool) (s : Mem) (hs : SameSeat cl (s.1 sid))
    (r : Req) :
    (readM e cl sid lg r s.2.errno).run [] s =
      match handleRead e (s.1 sid) s.2 r with
      | .ub => .ub
      | .exit => .exit
      | .val (w', msgs) => .val ((s.1, w'), msgs, w'.errno) := by
  have hpg : (s.1 sid).paged = true := by
    unfold Client.paged
    rw [hs.ex, hcl.cow]
    rfl
  unfold handleRead
  rw [hs.ex, hcl.nosplice, if_neg (by simp)]
  unfold readM handleNormalRead
  rw [hs.structured]
  by_cases hl : (cl.structured && has r.type CMD_FLAG_DF && decide (r.len > 1048576)) = true
  · simp only [hl, if_true]
    unfold sendChunkP
    split <;> rfl
  · simp only [if_neg hl]
    generalize hbuf : (if (has r.type CMD_FLAG_DF || !cl.structured) = true then List.replicate r.len none else [] : List (Option Byte)) = buf
    generalize ho : expread (s.1 sid) s.2 { start := r.start, reqLen := r.len, structured := cl.structured, df := has r.type CMD_FLAG_DF
                                            buf := buf, curOff := 0, curLen := r.len, chunks := [] } = o
    have ho' := ho
    unfold expread at ho'
    rw [if_pos hpg] at ho'
    simp only [Nat.add_zero] at ho'
    rw [cowRead_run_aux e cl sid lg hcl.waiting r.cookie _ _ rfl _ _ _ s hs o ho']
    cases o with
    | ub => rfl
    | exit => rfl
    | val x =>
      obtain ⟨w1, c1, ok⟩ := x
      simp only []
      cases completeRead e c1 r.cookie (if ok then none else some (nbdErrno e w1.errno)) <;> rfl

/-- Alone, the program of a request is `handleRequest`. -/
theorem cowP_run (e : Endian) (cl : Client) (hcl : CowSeat cl) (sid : Nat) (lg : Bool) (s : Mem) (hs : SameSeat cl (s.1 sid))
    (r : Req) (p : Payload) (hp : r.type % 65536 = CMD_WRITE → ∃ bs, p = .data bs) :
    (cowP e cl sid lg s.2.errno r p).run [] s =
      match handleRequest e (s.1 sid) s.2 r p with
      | .ub => .ub
      | .exit => .exit
      | .val (cl', w', msgs) => .val (s.both sid cl' w', msgs, w'.errno) := by
  have hbr : badRange (s.1 sid) r = badRange cl r := by unfold badRange; rw [hs.ex]
  have hbw : badWrite (s.1 sid) = badWrite cl := by unfold badWrite; rw [hs.ex]
  have hrefuse : ∀ n, (sendReplyP lg (simpleMsg e r (some (nbdErrno e n))) (.done s.2.errno)).run [] s =
      Out.val (s.both sid (s.1 sid) s.2, [simpleMsg e r (some (nbdErrno e n))], s.2.errno) := by
    intro n
    rw [Mem.both_self]
    exact sendReplyP_run _ _ _ _ _
  unfold cowP handleRequest errorReply
  dsimp only
  rw [hbr, hbw]
  split
  · exact hrefuse _
  · split
    · split
      · exact hrefuse _
      · refine (cowRead_run e cl hcl sid lg s hs r).trans ?_
        generalize handleRead e (s.1 sid) s.2 r = x
        cases x with
        | ub => rfl
        | exit => rfl
        | val x =>
          have := Mem.both_same s sid x.1
          simp only [this]
    · split
      · rename_i ht
        split
        · exact hrefuse _
        · split
          · exact hrefuse _
          · obtain ⟨bs, rfl⟩ := hp ht
            refine (cowWrite_run e cl hcl sid lg s hs r bs).trans ?_
            generalize handleWrite e (s.1 sid) s.2 r (.data bs) = x
            cases x <;> rfl
      · split
        · refine (cowFlush_run e cl hcl sid lg s hs r).trans ?_
          generalize handleFlush e (s.1 sid) s.2 r = x
          have := Mem.both_same s sid x.1
          simp only [this]
        · split
          · split
            · exact hrefuse _
            · split
              · exact hrefuse _
              · unfold handleTrim exptrim
                rw [hs.ex, hcl.cow]
                split
                · rfl
                · split
                  · rfl
                  · simp only [if_true, Mem.both_self]
                    exact sendReplyP_run _ _ _ _ _
          · split
            · split
              · exact hrefuse _
              · split
                · exact hrefuse _
                · refine (cowZeroes_run e cl hcl sid lg s hs r).trans ?_
                  generalize handleWriteZeroes e (s.1 sid) s.2 r = x
                  cases x <;> rfl
            · exact hrefuse _

end Nbd
