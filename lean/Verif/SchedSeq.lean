import Verif.SchedPlain
/-!
# One thread alone

When nothing comes between its steps, the program of a request does what `handleRequest` does.
-/

set_option autoImplicit false

namespace Nbd

/-- Run a program with nothing in between; `acc` are the messages sent so far. -/
def Prog.run {σ : Type} : Prog σ → List Msg → σ → Out (σ × List Msg × Nat)
  | .done en, acc, s => .val (s, acc, en)
  | .op f k, acc, s =>
    match f s with
    | .ub => .ub
    | .exit => .exit
    | .val (s', a) => (k a).run acc s'
  | .send m k, acc, s => k.run (acc ++ [m]) s
  | .log _ k, acc, s => k.run acc s

theorem call_run {α : Type} (f : World → Out (World × α)) (k : α → Nat → Prog World)
    (acc : List Msg) (w : World) :
    (call f w.errno k).run acc w =
      match f w with
      | .ub => .ub
      | .exit => .exit
      | .val (w', a) => (k a w'.errno).run acc w' := by
  unfold call
  rw [Prog.run]
  have h : ({ w with errno := w.errno } : World) = w := rfl
  rw [h]
  cases f w with
  | ub => rfl
  | exit => rfl
  | val x => rfl

theorem writeFullyP_run (ex : Export) (fua : Bool) (k : Bool → Nat → Prog World) (acc : List Msg)
    (n : Nat) : ∀ (a : Nat) (buf : List Byte) (w : World), buf.length = n →
    (writeFullyP ex fua k a buf w.errno).run acc w =
      match rawexpwriteFully ex w a buf fua with
      | .ub => .ub
      | .exit => .exit
      | .val (w', ok) => (k ok w'.errno).run acc w' := by
  induction n using Nat.strongRecOn with
  | _ n ih =>
    intro a buf w hn
    unfold writeFullyP rawexpwriteFully
    split
    · rfl
    · rename_i h0
      rw [call_run]
      unfold rawPwrite rawexpwrite
      cases getFilepos ex w a with
      | ub => rfl
      | exit => rfl
      | val x =>
        obtain ⟨w1, x⟩ := x
        cases x with
        | none => rfl
        | some x =>
          obtain ⟨h, off, mb⟩ := x
          dsimp only
          generalize handlePwrite w1 h off (buf.take (clip mb buf.length)) = pr
          obtain ⟨w2, r⟩ := pr
          dsimp only
          have hnext : ∀ w3 : World,
              (match r with
                | none => k false w3.errno
                | some 0 => k false w3.errno
                | some (n + 1) => writeFullyP ex fua k (a + (n + 1)) (buf.drop (n + 1)) w3.errno).run acc w3 =
              match (match r with
                | none => Out.val (w3, false)
                | some 0 => .val (w3, false)
                | some (n + 1) => rawexpwriteFully ex w3 (a + (n + 1)) (buf.drop (n + 1)) fua) with
              | .ub => .ub
              | .exit => .exit
              | .val (w', ok) => (k ok w'.errno).run acc w' := by
            intro w3
            cases r with
            | none => rfl
            | some m =>
              cases m with
              | zero => rfl
              | succ m => exact ih _ (by rw [List.length_drop]; omega) _ _ w3 rfl
          split
          · rw [call_run]
            have := hnext (handleSyncIgnored w2 h)
            cases r with
            | none => rfl
            | some m =>
              cases m with
              | zero => rfl
              | succ m => exact this
          · have := hnext w2
            cases r with
            | none => rfl
            | some m =>
              cases m with
              | zero => rfl
              | succ m => exact this

theorem writeZeroesP_run (cl : Client) (hp : cl.paged = false) (fua : Bool)
    (k : Bool → Nat → Prog World) (acc : List Msg) (a : Nat) (n : Nat) : ∀ (w : World),
    (writeZeroesP cl.ex fua k a n w.errno).run acc w =
      match expwriteZeroes cl w a n fua with
      | .ub => .ub
      | .exit => .exit
      | .val (_, w', ok) => (k ok w'.errno).run acc w' := by
  induction n using Nat.strongRecOn with
  | _ n ih =>
    intro w
    unfold writeZeroesP expwriteZeroes
    split
    · rfl
    · rename_i h0
      dsimp only
      rw [writeFullyP_run _ _ _ _ _ _ _ _ rfl]
      unfold expwrite
      rw [hp]
      simp only [Bool.false_eq_true, if_false]
      cases rawexpwriteFully cl.ex w a (Flat.zeros (min n ZEROCHUNK)) fua with
      | ub => rfl
      | exit => rfl
      | val x =>
        obtain ⟨w1, ok⟩ := x
        cases ok with
        | false => rfl
        | true =>
          have : 0 < ZEROCHUNK := by decide
          exact ih _ (by omega) w1

theorem readFullyP_run (e : Endian) (ex : Export) (cookie : List Byte) (lg : Bool)
    (k : ReadCtx → Bool → Nat → Prog World) (n : Nat) : ∀ (c : ReadCtx) (w : World), c.curLen = n →
    (readFullyP e ex cookie lg k c w.errno).run (c.chunks.map (dataMsg e cookie)) w =
      match rawexpreadFully ex w c with
      | .ub => .ub
      | .exit => .exit
      | .val (w', c', ok) => (k c' ok w'.errno).run (c'.chunks.map (dataMsg e cookie)) w' := by
  induction n using Nat.strongRecOn with
  | _ n ih =>
    intro c w hn
    unfold readFullyP rawexpreadFully
    split
    · rfl
    · rename_i h0
      rw [call_run]
      unfold readOnce
      cases rawexpread ex w (c.start + c.curOff) c.curLen with
      | ub => rfl
      | exit => rfl
      | val x =>
        obtain ⟨w1, x⟩ := x
        cases x with
        | none => rfl
        | some x =>
          cases x with
          | nil => rfl
          | cons b bs =>
            dsimp only
            cases hd : c.deliver (b :: bs) with
            | ub => rfl
            | exit => rfl
            | val c' =>
              dsimp only
              have := ih (c.curLen - (b :: bs).length) (by rw [List.length_cons]; omega)
                { c' with curOff := c.curOff + (b :: bs).length, curLen := c.curLen - (b :: bs).length }
                w1 rfl
              dsimp only at this
              unfold ReadCtx.deliver at hd
              split
              · rename_i hch
                rw [if_pos hch] at hd
                split at hd
                · cases hd
                · cases hd
                  dsimp only at this
                  rw [List.map_append] at this
                  unfold sendChunkP
                  split <;> exact this
              · rename_i hch
                rw [if_neg hch] at hd
                split at hd
                · cases hd
                · cases hd
                  exact this

theorem sendReplyP_run {σ : Type} (lg : Bool) (m : Msg) (en : Nat) (acc : List Msg) (s : σ) :
    (sendReplyP lg m (.done en)).run acc s = .val (s, acc ++ [m], en) := by
  unfold sendReplyP
  split <;> rfl

theorem flushFilesP_run (k : Bool → Nat → Prog World) (acc : List Msg) (files : List FileInfo)
    (w : World) :
    (flushFilesP k files w.errno).run acc w =
      (k (flushFiles files w).2 (flushFiles files w).1.errno).run acc (flushFiles files w).1 := by
  induction files generalizing w with
  | nil => rfl
  | cons fi rest ih =>
    unfold flushFilesP flushFiles
    rw [call_run]
    dsimp only
    generalize sysFsync w (.fd fi.fhandle) = x
    obtain ⟨w1, ok⟩ := x
    cases ok with
    | false => rfl
    | true => exact ih w1

theorem trimFilesP_run (files : List FileInfo) (exportsize start len : Nat) (k : Nat → Prog World)
    (acc : List Msg) (n : Nat) (w : World) (cur : FileInfo) (i : Nat) :
    (trimFilesP files exportsize start len k n cur i w.errno).run acc w =
      (k (trimFiles files exportsize start len n w cur i).errno).run acc
        (trimFiles files exportsize start len n w cur i) := by
  induction n generalizing w cur i with
  | zero => rfl
  | succ n ih =>
    unfold trimFilesP trimFiles
    rw [call_run]
    dsimp only
    generalize trimOne files exportsize start len w cur i = w1
    cases files[i]? with
    | none => rfl
    | some nx =>
      dsimp only
      split
      · exact ih w1 _ _
      · rfl

theorem sendChunksP_run {σ : Type} (lg : Bool) (ms : List Msg) (en : Nat) (acc : List Msg) (s : σ) :
    (sendChunksP lg ms (.done en)).run acc s = .val (s, acc ++ ms, en) := by
  induction ms generalizing acc with
  | nil => rw [List.append_nil]; rfl
  | cons m ms ih =>
    unfold sendChunksP sendChunkP
    have := ih (acc ++ [m])
    rw [List.append_assoc] at this
    split <;> exact this

/-- Alone, the program of a read is `handle_normal_read`. -/
theorem readP_run (e : Endian) (cl : Client) (hpg : cl.paged = false) (lg : Bool) (w : World)
    (r : Req) :
    (readP e cl lg r w.errno).run [] w =
      match handleNormalRead e cl w r with
      | .ub => .ub
      | .exit => .exit
      | .val (w', msgs) => .val (w', msgs, w'.errno) := by
  unfold readP handleNormalRead
  dsimp only
  split
  · unfold sendChunkP
    split <;> rfl
  · have := readFullyP_run e cl.ex r.cookie lg
      (fun c ok en =>
        completeReadP e lg c r.cookie (if ok then none else some (nbdErrno e en)) en) r.len
      { start := r.start, reqLen := r.len, structured := cl.structured, df := has r.type CMD_FLAG_DF
        buf := if has r.type CMD_FLAG_DF || !cl.structured then List.replicate r.len none else []
        curOff := 0, curLen := r.len, chunks := [] } w rfl
    rw [List.map_nil] at this
    rw [this]
    unfold expread
    simp only [hpg, Bool.false_eq_true, if_false]
    generalize rawexpreadFully cl.ex w _ = o
    cases o with
    | ub => rfl
    | exit => rfl
    | val x =>
      obtain ⟨w1, c1, ok⟩ := x
      dsimp only
      unfold completeReadP
      cases hcr : completeRead e c1 r.cookie (if ok = true then none else some (nbdErrno e w1.errno)) with
      | ub => rfl
      | exit =>
        unfold completeRead at hcr
        split at hcr <;> split at hcr
        · cases hcr
        · cases hcr
        · cases hcr
        · split at hcr <;> cases hcr
      | val msgs =>
        dsimp only
        split
        · exact sendChunksP_run _ _ _ _ _
        · rename_i hst
          unfold completeRead at hcr
          rw [if_neg hst] at hcr
          split at hcr
          · cases hcr
            exact sendReplyP_run _ _ _ _ _
          · split at hcr
            · cases hcr
            · cases hcr
              exact sendReplyP_run _ _ _ _ _

/-- Alone, the program of a request is `handleRequest`, if pipes are not used for it. -/
theorem requestP_alone (e : Endian) (cl : Client) (hpl : Plain cl)
    (htree : has cl.ex.flags F_TREEFILES = false) (hwait : has cl.ex.flags F_WAIT = false)
    (lg : Bool) (w : World) (r : Req) (p : Payload)
    (hsp : (r.type - r.type % 65536) / 65536 / 4 = 0 → r.type % 65536 = CMD_READ →
      badRange cl r = false → has cl.ex.flags F_SPLICE = false)
    (hp : (r.type - r.type % 65536) / 65536 / 4 = 0 → r.type % 65536 = CMD_WRITE →
      badWrite cl = false → badRange cl r = false → ∃ bs, p = .data bs) :
    (requestP e cl lg w.errno r p).run [] w =
      match handleRequest e cl w r p with
      | .ub => .ub
      | .exit => .exit
      | .val (_, w', msgs) => .val (w', msgs, w'.errno) := by
  have hpg := hpl.paged
  have hcow : has cl.ex.flags F_COPYONWRITE = false := by
    unfold Client.paged at hpg
    simp only [Bool.or_eq_false_iff] at hpg
    simp_all
  unfold requestP handleRequest errorReply
  dsimp only
  split
  · exact sendReplyP_run _ _ _ _ _
  · rename_i hfl
    split
    · rename_i htr
      split
      · exact sendReplyP_run _ _ _ _ _
      · rename_i hbr
        unfold handleRead
        rw [hsp (by omega) htr (by simpa using hbr), if_neg (by simp)]
        rw [readP_run e cl hpg]
        cases handleNormalRead e cl w r <;> rfl
    · split
      · rename_i ht
        split
        · exact sendReplyP_run _ _ _ _ _
        · rename_i hbw
          split
          · exact sendReplyP_run _ _ _ _ _
          · rename_i hbr
            obtain ⟨bs, rfl⟩ := hp (by omega) ht (by simpa using hbw) (by simpa using hbr)
            unfold handleWrite expwrite
            dsimp only
            rw [writeFullyP_run _ _ _ _ _ _ _ _ rfl, hpg, if_neg (by simp)]
            cases rawexpwriteFully cl.ex w r.start bs (has r.type CMD_FLAG_FUA) with
            | ub => rfl
            | exit => rfl
            | val x => exact sendReplyP_run _ _ _ _ _
      · split
        · rw [hwait, if_neg (by simp), flushFilesP_run]
          unfold handleFlush expflush
          rw [hcow, hwait, htree]
          simp only [Bool.false_eq_true, if_false]
          generalize flushFiles cl.ex.files w = x
          obtain ⟨w1, ok⟩ := x
          exact sendReplyP_run _ _ _ _ _
        · split
          · split
            · exact sendReplyP_run _ _ _ _ _
            · split
              · exact sendReplyP_run _ _ _ _ _
              · unfold trimP handleTrim exptrim
                rw [hcow, htree]
                split
                · rfl
                · split
                  · rfl
                  · simp only [Bool.false_eq_true, if_false]
                    cases cl.ex.files with
                    | nil => rfl
                    | cons cur rest =>
                      dsimp only
                      rw [trimFilesP_run]
                      exact sendReplyP_run _ _ _ _ _
          · split
            · split
              · exact sendReplyP_run _ _ _ _ _
              · split
                · exact sendReplyP_run _ _ _ _ _
                · unfold handleWriteZeroes
                  rw [writeZeroesP_run cl hpg]
                  cases expwriteZeroes cl w r.start r.len (has r.type CMD_FLAG_FUA) with
                  | ub => rfl
                  | exit => rfl
                  | val x => exact sendReplyP_run _ _ _ _ _
            · exact sendReplyP_run _ _ _ _ _

/-- Alone, the program of a request is `handleRequest`. -/
theorem requestP_run (e : Endian) (cl : Client) (hcl : Flatfile cl) (lg : Bool) (w : World)
    (r : Req) (p : Payload) (hp : r.type % 65536 = CMD_WRITE → ∃ bs, p = .data bs) :
    (requestP e cl lg w.errno r p).run [] w =
      match handleRequest e cl w r p with
      | .ub => .ub
      | .exit => .exit
      | .val (_, w', msgs) => .val (w', msgs, w'.errno) :=
  requestP_alone e cl hcl.plain hcl.tree hcl.wait lg w r p (fun _ _ _ => hcl.splice)
    (fun _ h _ _ => hp h)

end Nbd
