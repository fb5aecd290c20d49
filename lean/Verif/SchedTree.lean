import Verif.SchedSeq
/-!
# Worker threads on a tree of block files

In a tree export (`treefiles`) every access opens the file of its block, and creates it if it does not exist (treefiles.c 61-107).
That takes several system calls, during which other processes that serve the same export can do theirs. Here each of them is a step.

Simplifications: the directories are created in the same step as the file; a file that is removed (by a trim) while a thread has it
open is gone for that thread too; a trim is one step. `client->lock` (treefiles.c 73, 105), which keeps the threads of one process
from coming between the calls of `open_treefile`, is not modelled, so this model is meant for processes with one worker thread.
-/

set_option autoImplicit false

namespace Nbd

/-- treefiles.c 74: `open` without `O_CREAT`. `none` is `ENOENT`. -/
def openOld (p : List Char) (w : World) : Out (World × Option Handle) :=
  match w.files (.path p) with
  | some _ =>
    match w.next with
    | .done _ => .val (w.step, some (.file (.path p)))
    | .err e => .val (w.fail e, some .bad)
  | none =>
    match w.next with
    | .err e => .val (w.fail e, some .bad)
    | .done _ => .val (w.fail ENOENT, none)

/-- treefiles.c 80-84: `mkdir_path`, and `open` with `O_CREAT`: a file that exists by now is opened as it is. -/
def openNew (p : List Char) (w : World) : Out (World × Unit) :=
  match w.next with
  | .err _ => .exit
  | .done _ =>
    match w.files (.path p) with
    | some _ => .val (w.step, ())
    | none => .val (w.step.create p (File.clean (fun _ => 0) 0), ())

/-- treefiles.c 96-103: `lseek`, and `write` of one zero byte at the end of the block. -/
def extend (p : List Char) (w : World) : Out (World × Unit) :=
  match w.next with
  | .err _ => .exit
  | .done 0 => .exit
  | .done (_ + 1) =>
    match w.files (.path p) with
    | none => .val (w.step, ())
    | some f => .val (w.step.set (.path p) (f.pwrite (TREEPAGESIZE - 1) [0]), ())

/-- treefiles.c 86-93, 96-103: a temporary file in place of the block. -/
def openDummy (w : World) : Out (World × Unit) :=
  match w.next with
  | .err _ => .exit
  | .done _ => .val (w.step, ())

/-- treefiles.c 61-107 `open_treefile`, call by call. -/
def openTreeP (ex : Export) (a : Nat) (k : Handle → Nat → Prog World) (en : Nat) : Prog World :=
  match treeFilename ex.name ex.exportsize a with
  | none => .op (α := Unit) (fun _ => .exit) (fun _ => .done en)
  | some p =>
    call (openOld p) en fun h en =>
      match h with
      | some h => k h en
      | none =>
        if !has ex.flags F_READONLY then
          call (openNew p) en fun _ en => call (extend p) en fun _ en => k (.file (.path p)) en
        else call openDummy en fun _ en => k .dummy en

/-- nbd-server.c 1200-1282 `rawexpwrite` and `rawexpwrite_fully` on a tree. -/
def writeFullyT (ex : Export) (fua : Bool) (k : Bool → Nat → Prog World) (a : Nat) (buf : List Byte) (en : Nat) : Prog World :=
  if buf.length = 0 then k true en
  else if 2 ^ 63 ≤ a then k false en
  else
    openTreeP ex a (fun h en =>
      call (fun w => .val (handlePwrite w h (a % TREEPAGESIZE)
          (buf.take (clip ((1 + a / TREEPAGESIZE) * TREEPAGESIZE - a) buf.length)))) en fun x en =>
        let next := fun en =>
          match x with
          | none => k false en
          | some 0 => k false en
          | some (n + 1) => writeFullyT ex fua k (a + (n + 1)) (buf.drop (n + 1)) en
        if has ex.flags F_SYNC || fua then
          call (fun w => .val (handleSyncIgnored w h, ())) en fun _ en => next en
        else next en) en
termination_by buf.length
decreasing_by all_goals (simp only [List.length_drop]; omega)

/-- nbd-server.c 1704-1724 `expwrite_zeroes` on a tree. -/
def writeZeroesT (ex : Export) (fua : Bool) (k : Bool → Nat → Prog World) (a len : Nat) (en : Nat) : Prog World :=
  if len = 0 then k true en
  else
    let l := min len ZEROCHUNK
    writeFullyT ex fua (fun ok en => if ok then writeZeroesT ex fua k a (len - l) en else k false en) a (Flat.zeros l) en
termination_by len
decreasing_by
  have : 0 < ZEROCHUNK := by decide
  omega

/-- nbd-server.c 1459-1480: the `pread` of one turn of `rawexpread_fully` and what becomes of the context. -/
def preadOnce (c : ReadCtx) (h : Handle) (w : World) : Out (World × Option (ReadCtx × List Byte × Nat)) :=
  let a := c.start + c.curOff
  match handlePread w h (a % TREEPAGESIZE) (clip ((1 + a / TREEPAGESIZE) * TREEPAGESIZE - a) c.curLen) with
  | (w, none) => .val (w, none)
  | (w, some []) => .val (w, none)
  | (w, some (b :: bs)) =>
    match c.deliver (b :: bs) with
    | .ub => .ub
    | .exit => .exit
    | .val c' => .val (w, some (c', b :: bs, bs.length))

/-- nbd-server.c 1444-1483 `rawexpread` and `rawexpread_fully` on a tree. -/
def readFullyT (e : Endian) (ex : Export) (cookie : List Byte) (lg : Bool) (k : ReadCtx → Bool → Nat → Prog World) (c : ReadCtx)
    (en : Nat) : Prog World :=
  if c.curLen = 0 then k c true en
  else if 2 ^ 63 ≤ c.start + c.curOff then k c false en
  else
    openTreeP ex (c.start + c.curOff) (fun h en =>
      call (preadOnce c h) en fun r en =>
        match r with
        | none => k c false en
        | some (c', bs, n) =>
          let c'' := { c' with curOff := c.curOff + (n + 1), curLen := c.curLen - (n + 1) }
          if c.chunked then
            sendChunkP lg (dataMsg e cookie (c.start + c.curOff, bs)) (readFullyT e ex cookie lg k c'' en)
          else readFullyT e ex cookie lg k c'' en) en
termination_by c.curLen
decreasing_by all_goals omega

/-- nbd-server.c 2871-2913 `handle_normal_read` on a tree. -/
def readT (e : Endian) (cl : Client) (lg : Bool) (r : Req) (en : Nat) : Prog World :=
  let df := has r.type CMD_FLAG_DF
  if cl.structured && df && decide (r.len > 1048576) then
    sendChunkP lg (chunkMsg e r.cookie REPLY_FLAG_DONE REPLY_TYPE_ERROR
      (UInt32.ofNat (6 + tooLong.length))
      (store32 e NBD_EOVERFLOW ++ store16 e (UInt16.ofNat tooLong.length) ++ tooLong)) (.done en)
  else
    readFullyT e cl.ex r.cookie lg
      (fun c ok en => completeReadP e lg c r.cookie (if ok then none else some (nbdErrno e en)) en)
      { start := r.start, reqLen := r.len, structured := cl.structured, df := df
        buf := if df || !cl.structured then List.replicate r.len none else []
        curOff := 0, curLen := r.len, chunks := [] } en

/-- nbd-server.c 3025-3093 `handle_request` on a tree (not copy-on-write, not waiting, no splice). -/
def requestT (e : Endian) (cl : Client) (lg : Bool) (en : Nat) (r : Req) (p : Payload) : Prog World :=
  let type := r.type % 65536
  let flags := r.type - r.type % 65536
  let refuse := fun n => sendReplyP lg (simpleMsg e r (some (nbdErrno e n))) (.done en)
  if flags / 65536 / 4 ≠ 0 then refuse EINVAL
  else if type = CMD_READ then
    if badRange cl r then refuse EINVAL else readT e cl lg r en
  else if type = CMD_WRITE then
    if badWrite cl then refuse EPERM
    else if badRange cl r then refuse ENOSPC
    else
      match p with
      | .data bs => writeFullyT cl.ex (has r.type CMD_FLAG_FUA) (answerP e lg r) r.start bs en
      | .pipe _ => crash
      | .nothing => crash
  else if type = CMD_FLUSH then
    call (fun w => .val (expflush cl w)) en (answerP e lg r)
  else if type = CMD_TRIM then
    if badWrite cl then refuse EPERM
    else if badRange cl r then refuse EINVAL
    else
      call (fun w =>
        match exptrim cl w r.start r.len with
        | .ub => .ub
        | .exit => .exit
        | .val w => .val (w, ())) en fun _ en => answerP e lg r true en
  else if type = CMD_WRITE_ZEROES then
    if badWrite cl then refuse EPERM
    else if badRange cl r then refuse ENOSPC
    else writeZeroesT cl.ex (has r.type CMD_FLAG_FUA) (answerP e lg r) r.start r.len en
  else refuse EINVAL

/-- A session on a tree export: every system call on a block file is a step. nbd-server.c 3025-3152 with treefiles.c 17-108. -/
def treeServer (e : Endian) (cl : Client) (lg : Bool) : Server World where
  e := e
  cl := cl
  logging := lg
  take := fun w stream => fetch e cl w stream
  code := requestT e cl lg

/-! ### One thread alone -/

/-- A tree export that is neither copy-on-write nor waiting, without splice. (A hypothesis of the statements; models no code of its own.) -/
structure Treefile (cl : Client) : Prop where
  plain : Plain cl
  tree : has cl.ex.flags F_TREEFILES = true
  splice : has cl.ex.flags F_SPLICE = false
  wait : has cl.ex.flags F_WAIT = false

theorem openTreeP_run (ex : Export) (a : Nat) (k : Handle → Nat → Prog World) (acc : List Msg) (w : World) :
    (openTreeP ex a k w.errno).run acc w =
      match openTreefile w ex.name (!has ex.flags F_READONLY) ex.exportsize a with
      | .ub => .ub
      | .exit => .exit
      | .val (w', h) => (k h w'.errno).run acc w' := by
  unfold openTreeP openTreefile
  cases treeFilename ex.name ex.exportsize a with
  | none => rfl
  | some p =>
    dsimp only
    rw [call_run]
    unfold openOld
    cases hf : w.files (.path p) with
    | some f =>
      dsimp only
      cases w.next with
      | err e => rfl
      | done n => rfl
    | none =>
      dsimp only
      cases w.next with
      | err e => rfl
      | done n =>
        dsimp only
        split
        · rw [call_run]
          unfold openNew
          cases (w.fail ENOENT).next with
          | err e => rfl
          | done n =>
            have hf' : (w.fail ENOENT).files (.path p) = none := hf
            rw [hf']
            dsimp only
            rw [call_run]
            unfold extend
            cases ((w.fail ENOENT).step.create p (File.clean (fun _ => 0) 0)).next with
            | err e => rfl
            | done n =>
              cases n with
              | zero => rfl
              | succ n =>
                dsimp only
                have hc : ((w.fail ENOENT).step.create p (File.clean (fun _ => 0) 0)).files (.path p) =
                    some (File.clean (fun _ => 0) 0) := by simp [World.create]
                rw [hc]
        · rw [call_run]
          unfold openDummy
          cases (w.fail ENOENT).next with
          | err e => rfl
          | done n => rfl

theorem writeFullyT_run (ex : Export) (ht : has ex.flags F_TREEFILES = true) (fua : Bool) (k : Bool → Nat → Prog World)
    (acc : List Msg) (n : Nat) : ∀ (a : Nat) (buf : List Byte) (w : World), buf.length = n →
    (writeFullyT ex fua k a buf w.errno).run acc w =
      match rawexpwriteFully ex w a buf fua with
      | .ub => .ub
      | .exit => .exit
      | .val (w', ok) => (k ok w'.errno).run acc w' := by
  induction n using Nat.strongRecOn with
  | _ n ih =>
    intro a buf w hn
    unfold writeFullyT rawexpwriteFully
    split
    · rfl
    · rename_i h0
      unfold rawexpwrite getFilepos
      split
      · rfl
      · rw [openTreeP_run]
        cases openTreefile w ex.name (!has ex.flags F_READONLY) ex.exportsize a with
        | ub => rfl
        | exit => rfl
        | val x =>
          obtain ⟨w1, h⟩ := x
          dsimp only
          rw [call_run]
          dsimp only
          generalize handlePwrite w1 h (a % TREEPAGESIZE)
            (buf.take (clip ((1 + a / TREEPAGESIZE) * TREEPAGESIZE - a) buf.length)) = pr
          obtain ⟨w2, r⟩ := pr
          dsimp only
          have hnext : ∀ (m : Nat) (w3 : World),
              (writeFullyT ex fua k (a + (m + 1)) (buf.drop (m + 1)) w3.errno).run acc w3 =
              match rawexpwriteFully ex w3 (a + (m + 1)) (buf.drop (m + 1)) fua with
              | .ub => .ub
              | .exit => .exit
              | .val (w', ok) => (k ok w'.errno).run acc w' :=
            fun m w3 => ih _ (by rw [List.length_drop]; omega) _ _ w3 rfl
          cases r with
          | none => split <;> rfl
          | some m =>
            cases m with
            | zero => split <;> rfl
            | succ m =>
              split
              · rw [call_run]
                exact hnext m _
              · exact hnext m _

theorem writeZeroesT_run (cl : Client) (hp : cl.paged = false) (ht : has cl.ex.flags F_TREEFILES = true) (fua : Bool)
    (k : Bool → Nat → Prog World) (acc : List Msg) (a : Nat) (n : Nat) : ∀ (w : World),
    (writeZeroesT cl.ex fua k a n w.errno).run acc w =
      match expwriteZeroes cl w a n fua with
      | .ub => .ub
      | .exit => .exit
      | .val (_, w', ok) => (k ok w'.errno).run acc w' := by
  induction n using Nat.strongRecOn with
  | _ n ih =>
    intro w
    unfold writeZeroesT expwriteZeroes
    split
    · rfl
    · rename_i h0
      dsimp only
      rw [writeFullyT_run _ ht _ _ _ _ _ _ _ rfl]
      unfold expwrite
      rw [hp]
      simp only [Bool.false_eq_true, if_false]
      cases rawexpwriteFully cl.ex w a (Flat.zeros (min n ZEROCHUNK)) fua with
      | ub => rfl
      | exit => rfl
      | val x =>
        obtain ⟨w1, ok⟩ := x
        cases ok with
        | false => rfl
        | true =>
          have : 0 < ZEROCHUNK := by decide
          exact ih _ (by omega) w1

theorem readFullyT_run (e : Endian) (ex : Export) (ht : has ex.flags F_TREEFILES = true) (cookie : List Byte) (lg : Bool)
    (k : ReadCtx → Bool → Nat → Prog World) (n : Nat) : ∀ (c : ReadCtx) (w : World), c.curLen = n →
    (readFullyT e ex cookie lg k c w.errno).run (c.chunks.map (dataMsg e cookie)) w =
      match rawexpreadFully ex w c with
      | .ub => .ub
      | .exit => .exit
      | .val (w', c', ok) => (k c' ok w'.errno).run (c'.chunks.map (dataMsg e cookie)) w' := by
  induction n using Nat.strongRecOn with
  | _ n ih =>
    intro c w hn
    unfold readFullyT rawexpreadFully
    split
    · rfl
    · rename_i h0
      unfold rawexpread getFilepos
      split
      · rfl
      · rw [openTreeP_run]
        cases openTreefile w ex.name (!has ex.flags F_READONLY) ex.exportsize (c.start + c.curOff) with
        | ub => rfl
        | exit => rfl
        | val x =>
          obtain ⟨w0, h⟩ := x
          dsimp only
          rw [call_run]
          unfold preadOnce
          dsimp only
          generalize handlePread w0 h ((c.start + c.curOff) % TREEPAGESIZE)
            (clip ((1 + (c.start + c.curOff) / TREEPAGESIZE) * TREEPAGESIZE - (c.start + c.curOff)) c.curLen) = pr
          obtain ⟨w1, x⟩ := pr
          cases x with
          | none => rfl
          | some x =>
            cases x with
            | nil => rfl
            | cons b bs =>
              dsimp only
              cases hd : c.deliver (b :: bs) with
              | ub => rfl
              | exit => rfl
              | val c' =>
                dsimp only
                have := ih (c.curLen - (b :: bs).length) (by rw [List.length_cons]; omega)
                  { c' with curOff := c.curOff + (b :: bs).length, curLen := c.curLen - (b :: bs).length }
                  w1 rfl
                dsimp only at this
                unfold ReadCtx.deliver at hd
                split
                · rename_i hch
                  rw [if_pos hch] at hd
                  split at hd
                  · cases hd
                  · cases hd
                    dsimp only at this
                    rw [List.map_append] at this
                    unfold sendChunkP
                    split <;> exact this
                · rename_i hch
                  rw [if_neg hch] at hd
                  split at hd
                  · cases hd
                  · cases hd
                    exact this

/-- Alone, the program of a request is `handleRequest`. -/
theorem requestT_run (e : Endian) (cl : Client) (hcl : Treefile cl) (lg : Bool) (w : World)
    (r : Req) (p : Payload) (hp : r.type % 65536 = CMD_WRITE → ∃ bs, p = .data bs) :
    (requestT e cl lg w.errno r p).run [] w =
      match handleRequest e cl w r p with
      | .ub => .ub
      | .exit => .exit
      | .val (_, w', msgs) => .val (w', msgs, w'.errno) := by
  have hpg := hcl.plain.paged
  unfold requestT handleRequest errorReply
  dsimp only
  split
  · exact sendReplyP_run _ _ _ _ _
  · split
    · split
      · exact sendReplyP_run _ _ _ _ _
      · unfold handleRead
        rw [hcl.splice, if_neg (by simp)]
        unfold readT handleNormalRead
        dsimp only
        split
        · unfold sendChunkP
          split <;> rfl
        · have := readFullyT_run e cl.ex hcl.tree r.cookie lg
            (fun c ok en =>
              completeReadP e lg c r.cookie (if ok then none else some (nbdErrno e en)) en) r.len
            { start := r.start, reqLen := r.len, structured := cl.structured, df := has r.type CMD_FLAG_DF
              buf := if has r.type CMD_FLAG_DF || !cl.structured then List.replicate r.len none else []
              curOff := 0, curLen := r.len, chunks := [] } w rfl
          rw [List.map_nil] at this
          rw [this]
          unfold expread
          simp only [hpg, Bool.false_eq_true, if_false]
          generalize rawexpreadFully cl.ex w _ = o
          cases o with
          | ub => rfl
          | exit => rfl
          | val x =>
            obtain ⟨w1, c1, ok⟩ := x
            dsimp only
            unfold completeReadP
            cases hcr : completeRead e c1 r.cookie (if ok = true then none else some (nbdErrno e w1.errno)) with
            | ub => rfl
            | exit =>
              unfold completeRead at hcr
              split at hcr <;> split at hcr
              · cases hcr
              · cases hcr
              · cases hcr
              · split at hcr <;> cases hcr
            | val msgs =>
              dsimp only
              split
              · exact sendChunksP_run _ _ _ _ _
              · rename_i hst
                unfold completeRead at hcr
                rw [if_neg hst] at hcr
                split at hcr
                · cases hcr
                  exact sendReplyP_run _ _ _ _ _
                · split at hcr
                  · cases hcr
                  · cases hcr
                    exact sendReplyP_run _ _ _ _ _
    · split
      · rename_i ht
        split
        · exact sendReplyP_run _ _ _ _ _
        · split
          · exact sendReplyP_run _ _ _ _ _
          · obtain ⟨bs, rfl⟩ := hp ht
            unfold handleWrite expwrite
            dsimp only
            rw [writeFullyT_run _ hcl.tree _ _ _ _ _ _ _ rfl, hpg, if_neg (by simp)]
            cases rawexpwriteFully cl.ex w r.start bs (has r.type CMD_FLAG_FUA) with
            | ub => rfl
            | exit => rfl
            | val x => exact sendReplyP_run _ _ _ _ _
      · split
        · rw [call_run]
          unfold handleFlush
          generalize expflush cl w = x
          obtain ⟨w1, ok⟩ := x
          exact sendReplyP_run _ _ _ _ _
        · split
          · split
            · exact sendReplyP_run _ _ _ _ _
            · split
              · exact sendReplyP_run _ _ _ _ _
              · rw [call_run]
                unfold handleTrim
                cases exptrim cl w r.start r.len with
                | ub => rfl
                | exit => rfl
                | val w' => exact sendReplyP_run _ _ _ _ _
          · split
            · split
              · exact sendReplyP_run _ _ _ _ _
              · split
                · exact sendReplyP_run _ _ _ _ _
                · unfold handleWriteZeroes
                  rw [writeZeroesT_run cl hpg hcl.tree]
                  cases expwriteZeroes cl w r.start r.len (has r.type CMD_FLAG_FUA) with
                  | ub => rfl
                  | exit => rfl
                  | val x => exact sendReplyP_run _ _ _ _ _
            · exact sendReplyP_run _ _ _ _ _

end Nbd
