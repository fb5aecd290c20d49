import Verif.Props.TrLog

/-!
# C100: one transaction log, several sessions

A transaction log belongs to an export, so every session on the export opens the same file. Each
session has its own descriptor (`setup_transactionlog`, nbd-server.c 2216-2219) and starts to write
at the beginning of the file, which is neither emptied nor opened for appending. The semaphore
(2247-2265) only makes single records atomic. So the sessions overwrite one another's records.
-/

set_option autoImplicit false

namespace Nbd

/-! ### One session on a file with contents -/

theorem Log.write_fits (l : Log) (bs : List Byte) (h : l.pos ≤ l.file.length) :
    (l.write bs).pos ≤ (l.write bs).file.length := by
  unfold Log.write
  simp only [List.length_append, List.length_take, List.length_replicate, List.length_drop]
  omega

theorem logFetch_writes (e : Endian) (cl : Client) (stream : List Byte) :
    ∃ bs, ∀ l : Log, l.pos ≤ l.file.length → logFetch e cl stream l = l.write bs := by
  unfold logFetch
  by_cases h : stream.length < 28
  · simp only [h, if_true]
    exact ⟨[], fun l hl => (Log.write_nil l hl).symm⟩
  · simp only [h, if_false]
    split
    · refine ⟨stream.take 28 ++ (stream.drop 28).take (loadReq e (stream.take 28)).len, fun l hl => ?_⟩
      rw [Log.write_write l _ _ hl]
    · exact ⟨_, fun l _ => rfl⟩

theorem logReplies_writes (msgs : List Msg) :
    ∃ bs, ∀ l : Log, l.pos ≤ l.file.length → logReplies l msgs = l.write bs := by
  induction msgs with
  | nil => exact ⟨[], fun l hl => (Log.write_nil l hl).symm⟩
  | cons m ms ih =>
    obtain ⟨bs, hbs⟩ := ih
    refine ⟨m.hdr ++ bs, fun l hl => ?_⟩
    have : logReplies l (m :: ms) = logReplies (l.write m.hdr) ms := rfl
    rw [this, hbs _ (Log.write_fits l _ hl), Log.write_write l _ _ hl]

/-- What a session writes to its log does not depend on what the file contains. -/
theorem mainloopLog_writes (e : Endian) (n : Nat) :
    ∀ (cl : Client) (w : World) (stream : List Byte), stream.length ≤ n →
    ∃ bs, ∀ l : Log, l.pos ≤ l.file.length → (mainloopLog e cl w stream l).2 = l.write bs := by
  induction n with
  | zero =>
    intro cl w stream hn
    obtain ⟨a, ha⟩ := logFetch_writes e cl stream
    refine ⟨a, fun l hl => ?_⟩
    rw [mainloopLog]
    simp only []
    split
    · exact ha l hl
    · exact ha l hl
    · exact ha l hl
    · exact ha l hl
    · rename_i w' r p rest hf
      have := fetch_push_lt _ _ _ _ _ _ _ _ hf
      omega
  | succ n ih =>
    intro cl w stream hn
    obtain ⟨a, ha⟩ := logFetch_writes e cl stream
    cases hf : fetch e cl w stream with
    | ub =>
      refine ⟨a, fun l hl => ?_⟩
      rw [mainloopLog]
      simp only []
      split <;> first
        | exact ha l hl
        | (rename_i h; rw [hf] at h; cases h)
    | exit =>
      refine ⟨a, fun l hl => ?_⟩
      rw [mainloopLog]
      simp only []
      split <;> first
        | exact ha l hl
        | (rename_i h; rw [hf] at h; cases h)
    | val x =>
      obtain ⟨w', f⟩ := x
      cases f with
      | gone =>
        refine ⟨a, fun l hl => ?_⟩
        rw [mainloopLog]
        simp only []
        split <;> first
          | exact ha l hl
          | (rename_i h; rw [hf] at h; cases h)
      | disc r =>
        refine ⟨a, fun l hl => ?_⟩
        rw [mainloopLog]
        simp only []
        split <;> first
          | exact ha l hl
          | (rename_i h; rw [hf] at h; cases h)
      | push r p rest =>
        have hlt := fetch_push_lt _ _ _ _ _ _ _ _ hf
        cases hr : handleRequest e cl w' r p with
        | ub =>
          refine ⟨a, fun l hl => ?_⟩
          rw [mainloopLog]
          simp only []
          split <;> first
            | exact ha l hl
            | (rename_i h; rw [hf] at h; cases h; rw [hr]; exact ha l hl)
        | exit =>
          refine ⟨a, fun l hl => ?_⟩
          rw [mainloopLog]
          simp only []
          split <;> first
            | exact ha l hl
            | (rename_i h; rw [hf] at h; cases h; rw [hr]; exact ha l hl)
        | val y =>
          obtain ⟨cl', w'', msgs⟩ := y
          obtain ⟨b, hb⟩ := logReplies_writes msgs
          obtain ⟨c, hc⟩ := ih cl' w'' rest (by omega)
          refine ⟨a ++ b ++ c, fun l hl => ?_⟩
          rw [mainloopLog]
          simp only []
          split <;> first
            | (rename_i h; rw [hf] at h; cases h; done)
            | (rename_i h; rw [hf] at h; cases h; rw [hr]; simp only []
               have h1 := Log.write_fits l a hl
               rw [ha l hl, hb _ h1, Log.write_write l _ _ hl, hc _ (Log.write_fits l _ hl),
                 Log.write_write l _ _ hl])

theorem loggedSession_over (e : Endian) (cl : Client) (w : World) (stream old : List Byte) :
    (loggedSession e cl w stream old).2 = (loggedSession e cl w stream []).2 ++
      old.drop (loggedSession e cl w stream []).2.length := by
  obtain ⟨bs, hbs⟩ := mainloopLog_writes e stream.length cl w stream (Nat.le_refl _)
  have hset : ∃ a, ∀ f, setupLog e cl.ex.flags f = (Log.mk f 0).write a := by
    unfold setupLog
    cases has cl.ex.flags F_DATALOG with
    | false => exact ⟨[], fun f => (Log.write_nil ⟨f, 0⟩ (Nat.zero_le _)).symm⟩
    | true => exact ⟨optionRecord e, fun f => rfl⟩
  obtain ⟨a, ha⟩ := hset
  have hall : ∀ f, (loggedSession e cl w stream f).2 = (a ++ bs) ++ f.drop (a ++ bs).length := by
    intro f
    unfold loggedSession
    simp only []
    rw [ha f, hbs _ (Log.write_fits ⟨f, 0⟩ a (Nat.zero_le _)),
      Log.write_write ⟨f, 0⟩ _ _ (Nat.zero_le _)]
    simp [Log.write]
  have h0 : (loggedSession e cl w stream []).2 = a ++ bs := by rw [hall []]; simp
  rw [hall old, h0]

/-! ### Several sessions at the same time -/

/-- The file and the offsets of the descriptors of the sessions that write to it. -/
structure SharedLog where
  file : List Byte
  pos : Nat → Nat

/-- One `write` to the log by session `s` (nbd-server.c 1293, 1301, 2237, 3108, 3140): it goes to
the offset of that session's own descriptor. -/
def SharedLog.write (l : SharedLog) (s : Nat) (bs : List Byte) : SharedLog :=
  let x := (Log.mk l.file (l.pos s)).write bs
  ⟨x.file, fun i => if i = s then x.pos else l.pos i⟩

/-- The writes of several sessions in the order in which they happen. Every session opens the file
itself, so all offsets are 0 at first (nbd-server.c 2216-2219). -/
def sharedLog (old : List Byte) (writes : List (Nat × List Byte)) : SharedLog :=
  writes.foldl (fun l w => l.write w.1 w.2) ⟨old, fun _ => 0⟩

namespace Spec

/-- What session `s` recorded, in order. -/
def recordedBy (s : Nat) (writes : List (Nat × List Byte)) : List Byte :=
  (writes.filter (fun w => w.1 == s)).flatMap (·.2)

end Spec

open Spec in
theorem recordedBy_concat (s : Nat) (ws : List (Nat × List Byte)) (w : Nat × List Byte) :
    recordedBy s (ws ++ [w]) = recordedBy s ws ++ if w.1 = s then w.2 else [] := by
  unfold recordedBy
  rw [List.filter_append, List.flatMap_append]
  by_cases h : w.1 = s <;> simp [h]

theorem sharedLog_concat (old : List Byte) (ws : List (Nat × List Byte)) (w : Nat × List Byte) :
    sharedLog old (ws ++ [w]) = (sharedLog old ws).write w.1 w.2 := by
  simp [sharedLog, List.foldl_append]

open Spec in
theorem sharedLog_state (old : List Byte) (ws : List (Nat × List Byte)) :
    (∀ s, (sharedLog old ws).pos s = (recordedBy s ws).length) ∧
    (∀ s, (recordedBy s ws).length ≤ (sharedLog old ws).file.length) ∧
    old.length ≤ (sharedLog old ws).file.length ∧
    ((sharedLog old ws).file.length = old.length ∨
      ∃ s, (sharedLog old ws).file.length = (recordedBy s ws).length) := by
  rw [← List.reverse_reverse ws]
  induction ws.reverse with
  | nil => exact ⟨fun _ => rfl, fun _ => Nat.zero_le _, Nat.le_refl _, .inl rfl⟩
  | cons w rs ih =>
    rw [List.reverse_cons]
    generalize rs.reverse = ws at ih ⊢
    obtain ⟨h1, h2, h3, h4⟩ := ih
    rw [sharedLog_concat]
    have hp := h1 w.1
    have hb := h2 w.1
    have hlen : ((sharedLog old ws).write w.1 w.2).file.length =
        max (sharedLog old ws).file.length ((recordedBy w.1 ws).length + w.2.length) := by
      unfold SharedLog.write Log.write
      simp only [List.length_append, List.length_take, List.length_replicate, List.length_drop]
      omega
    refine ⟨fun s => ?_, fun s => ?_, ?_, ?_⟩
    · rw [recordedBy_concat]
      unfold SharedLog.write Log.write
      simp only []
      by_cases hs : s = w.1
      · subst hs; simp [hp]
      · rw [if_neg hs, if_neg (fun h => hs h.symm), h1]; simp
    · rw [hlen, recordedBy_concat]
      have := h2 s
      by_cases hs : w.1 = s
      · subst hs; simp; omega
      · rw [if_neg hs]; simp; omega
    · rw [hlen]; omega
    · rw [hlen]
      by_cases hm : (recordedBy w.1 ws).length + w.2.length ≤ (sharedLog old ws).file.length
      · rw [Nat.max_eq_left hm]
        rcases h4 with h4 | ⟨s, h4⟩
        · exact .inl h4
        · refine .inr ⟨s, ?_⟩
          rw [recordedBy_concat]
          by_cases hs : w.1 = s
          · subst hs; simp; omega
          · rw [if_neg hs]; simp [h4]
      · refine .inr ⟨w.1, ?_⟩
        rw [recordedBy_concat]
        simp
        omega

namespace Props

open Nbd.Spec

/-- **C100** (partial). Whatever the log file contained, after a session it begins with exactly the
log the session would have written to a new file, which is the one `C40_partial` reads back; the
bytes of the old contents that lie behind it are still there. So if the file was not longer than the
new log, it is now exactly the log of this session.

Missing from the full property: the records of the earlier sessions. They are overwritten, see
`C100_false_sequence`. -/
theorem C100_partial (e : Endian) (cl : Client) (w : World) (stream old : List Byte) :
    let mine := (loggedSession e cl w stream []).2
    (loggedSession e cl w stream old).1 = (loggedSession e cl w stream []).1 ∧
    (loggedSession e cl w stream old).2 = mine ++ old.drop mine.length ∧
    (old.length ≤ mine.length → (loggedSession e cl w stream old).2 = mine) := by
  refine ⟨?_, loggedSession_over e cl w stream old, fun h => ?_⟩
  · unfold loggedSession
    simp only []
    rw [mainloopLog_run, mainloopLog_run]
  · rw [loggedSession_over e cl w stream old, List.drop_eq_nil_of_le h, List.append_nil]

/-- **C100 is false**, of every pair of sessions one after the other: if the second session
records at least as much as the first one did, nothing of the first session is left in the log. -/
theorem C100_false_sequence (e : Endian) (cl₁ cl₂ : Client) (w₁ w₂ : World) (s₁ s₂ : List Byte)
    (h : (loggedSession e cl₁ w₁ s₁ []).2.length ≤ (loggedSession e cl₂ w₂ s₂ []).2.length) :
    (loggedSession e cl₂ w₂ s₂ (loggedSession e cl₁ w₁ s₁ []).2).2 =
      (loggedSession e cl₂ w₂ s₂ []).2 :=
  (C100_partial e cl₂ w₂ s₂ _).2.2 h

/-- Two sessions that write two bytes each: the log contains the second one's write only. -/
example :
    readLog false (loggedSession .little (logClient false) Demo.world
      ([Demo.write 0 [1, 2]].flatMap Sent.encode) []).2 =
        some [.dataOn, .request ⟨0x25609513, 1, Demo.cookie, 0, 2⟩ [1, 2], .reply 0 Demo.cookie] ∧
    readLog false (loggedSession .little (logClient false) Demo.world
      ([Demo.write 4 [5, 6]].flatMap Sent.encode)
      (loggedSession .little (logClient false) Demo.world
        ([Demo.write 0 [1, 2]].flatMap Sent.encode) []).2).2 =
        some [.dataOn, .request ⟨0x25609513, 1, Demo.cookie, 4, 2⟩ [5, 6], .reply 0 Demo.cookie] := by
  decide +kernel

/-- **C100 is false** of sessions at the same time, in whatever order their records are written: a
new log file becomes as long as the longest of the sessions' logs, so if two sessions record
something, it is shorter than what they recorded together. -/
theorem C100_false_together (writes : List (Nat × List Byte)) (a b : Nat) (hab : a ≠ b)
    (ha : recordedBy a writes ≠ []) (hb : recordedBy b writes ≠ []) :
    (∃ s, (sharedLog [] writes).file.length = (recordedBy s writes).length) ∧
    (∀ s, (recordedBy s writes).length ≤ (sharedLog [] writes).file.length) ∧
    ((∀ s, s ≠ a → s ≠ b → recordedBy s writes = []) →
      (sharedLog [] writes).file.length + min (recordedBy a writes).length (recordedBy b writes).length
        = (recordedBy a writes).length + (recordedBy b writes).length ∧
      (sharedLog [] writes).file.length <
        (recordedBy a writes).length + (recordedBy b writes).length) := by
  obtain ⟨-, h2, -, h4⟩ := sharedLog_state [] writes
  have ha' := List.length_pos_iff.mpr ha
  have hb' := List.length_pos_iff.mpr hb
  have h5 : ∃ s, (sharedLog [] writes).file.length = (recordedBy s writes).length := by
    rcases h4 with h4 | h4
    · have := h2 a
      simp only [List.length_nil] at h4
      omega
    · exact h4
  refine ⟨h5, h2, fun honly => ?_⟩
  obtain ⟨s, hs⟩ := h5
  have h2a := h2 a
  have h2b := h2 b
  by_cases hsa : s = a
  · subst hsa; omega
  · by_cases hsb : s = b
    · subst hsb; omega
    · rw [honly s hsa hsb] at hs
      simp only [List.length_nil] at hs
      omega

/-- Two sessions, each of which records one request and one reply (28 and 16 bytes), in turns. -/
def twoLogs : List (Nat × List Byte) :=
  [(0, List.replicate 28 1), (1, List.replicate 28 2), (1, List.replicate 16 4),
   (0, List.replicate 16 3)]

/-- The request of session 0 and the reply to session 1 are lost: what is left looks like one
session with the request of the one and the reply to the other. -/
example : recordedBy 0 twoLogs ≠ [] ∧ recordedBy 1 twoLogs ≠ [] ∧
    (sharedLog [] twoLogs).file = List.replicate 28 2 ++ List.replicate 16 3 := by decide +kernel

/-! ### What C40 and C41 say of a log file that existed before -/

/-- A log has at least 28 bytes per request. -/
theorem records_length (keep : Bool) (ss : List Sent) (hok : ∀ s ∈ ss, s.Ok) : ∀ answers : List (List Reply),
    answers.length = ss.length → 28 * ss.length ≤ ((records keep ss answers).flatMap Record.encode).length := by
  induction ss with
  | nil => intro _ _; simp
  | cons s ss ih =>
    intro answers hl
    cases answers with
    | nil => cases hl
    | cons a as =>
      have h28 := Sent.encode_length s (hok s List.mem_cons_self)
      have := ih (fun x hx => hok x (List.mem_cons_of_mem _ hx)) as (by simpa using hl)
      have hrec : records keep (s :: ss) (a :: as) =
          .request s.req (if keep then s.data else []) :: a.map Reply.record ++ records keep ss as := rfl
      rw [hrec, List.flatMap_append, List.flatMap_cons]
      simp only [List.length_append, Record.encode, h28, List.length_cons]
      omega

theorem loggedSession_length (e : Endian) (cl : Client) (w : World) (ss : List Sent) (hok : ∀ s ∈ ss, s.Ok)
    (fin : Option Request) (hfin : ∀ r ∈ fin, r.IsDisc)
    (hns : has cl.ex.flags F_DATALOG = true → has cl.ex.flags F_SPLICE = false)
    (hend : Clean (mainloop e cl w (ss.flatMap Sent.encode ++ closing fin)).ending) :
    28 * ss.length ≤ (loggedSession e cl w (ss.flatMap Sent.encode ++ closing fin) []).2.length := by
  obtain ⟨answers, h1, _, _, h4⟩ := session_log e cl w ss hok fin hfin hns hend
  rw [h4]
  unfold sessionLog
  have := records_length (has cl.ex.flags F_DATALOG) ss hok answers h1
  simp only [List.flatMap_append, List.length_append]
  omega

/-- **C40** for a log file that existed before (partial: it is not longer than 28 bytes for each request of the session;
`C40_false_stale` is about longer ones). The old contents are gone, and reading the log back yields exactly this session. -/
theorem C40_over_partial (e : Endian) (cl : Client) (w : World) (ss : List Sent) (hok : ∀ s ∈ ss, s.Ok)
    (fin : Option Request) (hfin : ∀ r ∈ fin, r.IsDisc)
    (hns : has cl.ex.flags F_DATALOG = true → has cl.ex.flags F_SPLICE = false)
    (hend : Clean (mainloop e cl w (ss.flatMap Sent.encode ++ closing fin)).ending)
    (old : List Byte) (hold : old.length ≤ 28 * ss.length) :
    ∃ answers : List (List Reply), answers.length = ss.length ∧
      (mainloop e cl w (ss.flatMap Sent.encode ++ closing fin)).sent = wire answers.flatten ∧
      (∀ (i : Nat) (s : Sent) (rs : List Reply), ss[i]? = some s → answers[i]? = some rs → Answer s.req.cookie rs) ∧
      readLog false (loggedSession e cl w (ss.flatMap Sent.encode ++ closing fin) old).2 =
        some (sessionLog (has cl.ex.flags F_DATALOG) ss answers fin) ∧
      trdump e false (loggedSession e cl w (ss.flatMap Sent.encode ++ closing fin) old).2 =
        (sessionLog (has cl.ex.flags F_DATALOG) ss answers fin).flatMap (Record.lines e) := by
  rw [(C100_partial e cl w (ss.flatMap Sent.encode ++ closing fin) old).2.2
    (Nat.le_trans hold (loggedSession_length e cl w ss hok fin hfin hns hend))]
  exact (C40_partial e cl w ss hok fin hfin hns hend).2

-- A file of 84 bytes is overwritten by the session of four requests of C40.
example : ∃ answers : List (List Reply), answers.length = logSent.length ∧
    readLog false (loggedSession .little (logClient false) Demo.world
      (logSent.flatMap Sent.encode ++ closing (some logBye)) (List.replicate 84 9)).2 =
        some (sessionLog (has (logClient false).ex.flags F_DATALOG) logSent answers (some logBye)) := by
  obtain ⟨answers, h1, _, _, h4, _⟩ := C40_over_partial .little (logClient false) Demo.world logSent logSent_ok (some logBye)
    (by intro r hr; cases hr; exact logBye_disc) (by decide) (.inr (by decide +kernel)) (List.replicate 84 9) (by decide)
  exact ⟨answers, h1, h4⟩

/-- **C41** for a log file that existed before (partial: as `C40_over_partial` and `C41_partial`): the replay gives what it gives of
a new file. -/
theorem C41_over_partial (e : Endian) (cl : Client) (w : World) (hns : has cl.ex.flags F_SPLICE = false)
    (ss : List Sent) (hok : ∀ s ∈ ss, s.Ok) (fin : Option Request) (hfin : ∀ r ∈ fin, r.IsDisc)
    (hend : Clean (mainloop e cl w (ss.flatMap Sent.encode ++ closing fin)).ending)
    (old : List Byte) (hold : old.length ≤ 28 * ss.length) (bsz max : Nat) (id : FileId) (w0 : World) :
    trplay e bsz max id (loggedSession e cl w (ss.flatMap Sent.encode ++ closing fin) old).2 false w0 0 =
      trplay e bsz max id (loggedSession e cl w (ss.flatMap Sent.encode ++ closing fin) []).2 false w0 0 := by
  rw [(C100_partial e cl w (ss.flatMap Sent.encode ++ closing fin) old).2.2
    (Nat.le_trans hold (loggedSession_length e cl w ss hok fin hfin (fun _ => hns) hend))]

end Props

end Nbd
