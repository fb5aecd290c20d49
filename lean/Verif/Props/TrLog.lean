import Verif.TrPlayLemmas
import Verif.Props.Durable
/-!
# The transaction log: C40, C41

A record, its bytes, and an independent reader of logs (`Spec.readLog`) are defined in `Verif.TrLogLemmas`; `Spec.records keep ss
answers` lists what a log of a session should contain: every request (with its data if `keep`), each followed by the headers of the
replies to it. `loggedSession e cl w stream old` is a whole connection: what happened, and the log file afterwards, when the file
contained `old` before.
-/

set_option autoImplicit false

namespace Nbd.Spec

/-- The log of a session: the option record if the data of writes is kept, a record for each request and reply, and one for the
disconnect request. -/
def sessionLog (keep : Bool) (ss : List Sent) (answers : List (List Reply)) (fin : Option Request) : List Record :=
  (if keep then [.dataOn] else []) ++ (records keep ss answers ++ closingRecords fin)

end Nbd.Spec

namespace Nbd.Props

open Nbd.Spec

theorem records_ok (keep : Bool) (st : Bool) (ss : List Sent) (hok : ∀ s ∈ ss, s.Ok) (answers : List (List Reply))
    (ha : ∀ (i : Nat) (s : Sent) (rs : List Reply), ss[i]? = some s → answers[i]? = some rs →
      Answer s.req.cookie rs ∧ (∀ x ∈ rs, x.Recordable) ∧
        (st = false ∨ s.req.type % 65536 ≠ 0 → ∀ x ∈ rs, x.isSimple = true)) :
    (∀ x ∈ records keep ss answers, x.Ok keep) ∧
    ∀ x ∈ records keep ss answers,
      (∃ s ∈ ss, x = .request s.req (if keep then s.data else [])) ∨
      (∃ s ∈ ss, ∃ r, x = Reply.record r ∧ (st = false ∨ s.req.type % 65536 ≠ 0 → r.isSimple = true)) := by
  have key : ∀ x ∈ records keep ss answers, x.Ok keep ∧
      ((∃ s ∈ ss, x = .request s.req (if keep then s.data else [])) ∨
      (∃ s ∈ ss, ∃ r, x = Reply.record r ∧ (st = false ∨ s.req.type % 65536 ≠ 0 → r.isSimple = true))) := by
    intro x hx
    unfold records at hx
    rw [List.mem_flatMap] at hx
    obtain ⟨⟨s, rs⟩, hz, hx⟩ := hx
    obtain ⟨i, hi⟩ := List.getElem?_of_mem hz
    rw [List.getElem?_zip_eq_some] at hi
    have hmem : s ∈ ss := List.mem_of_getElem? hi.1
    obtain ⟨h1, h2, h3⟩ := ha i s rs hi.1 hi.2
    have hs := hok s hmem
    rw [List.mem_cons] at hx
    rcases hx with rfl | hx
    · refine ⟨⟨hs.fits, hs.magic, ?_⟩, .inl ⟨s, hmem, rfl⟩⟩
      cases keep
      · rfl
      · have := hs.data
        simpa using this
    · obtain ⟨r, hr, rfl⟩ := List.mem_map.mp hx
      refine ⟨?_, .inr ⟨s, hmem, r, rfl, fun h => h3 h r hr⟩⟩
      have hc := h1.cookie r hr
      have h8 := hs.fits.cookie
      have h2 := h2 r hr
      cases r with
      | simple err c d =>
        have hc : c = s.req.cookie := hc
        exact ⟨h2, by rw [hc]; exact h8⟩
      | chunk f t c p =>
        have hc : c = s.req.cookie := hc
        exact ⟨h2.1, h2.2.1, by rw [hc]; exact h8, h2.2.2⟩
  exact ⟨fun x hx => (key x hx).1, fun x hx => (key x hx).2⟩

theorem closingRecords_ok (keep : Bool) (fin : Option Request) (hfin : ∀ r ∈ fin, r.IsDisc) :
    ∀ x ∈ closingRecords fin, x.Ok keep := by
  intro x hx
  cases fin with
  | none => cases hx
  | some r =>
    simp only [closingRecords, List.mem_singleton] at hx
    subst hx
    have h := hfin r rfl
    exact ⟨h.fits, h.magic, by rw [h.disc]; simp⟩

theorem fresh_write (bs : List Byte) : (Log.write ⟨[], 0⟩ bs) = ⟨bs, bs.length⟩ := by
  simp [Log.write]

/-- The bytes of a fresh log. -/
theorem session_log (e : Endian) (cl : Client) (w : World) (ss : List Sent) (hok : ∀ s ∈ ss, s.Ok)
    (fin : Option Request) (hfin : ∀ r ∈ fin, r.IsDisc)
    (hns : has cl.ex.flags F_DATALOG = true → has cl.ex.flags F_SPLICE = false)
    (hend : Clean (mainloop e cl w (ss.flatMap Sent.encode ++ closing fin)).ending) :
    ∃ answers : List (List Reply), answers.length = ss.length ∧
      (mainloop e cl w (ss.flatMap Sent.encode ++ closing fin)).sent = wire answers.flatten ∧
      (∀ (i : Nat) (s : Sent) (rs : List Reply), ss[i]? = some s → answers[i]? = some rs →
        Answer s.req.cookie rs ∧ (∀ x ∈ rs, x.Recordable) ∧
          (cl.structured = false ∨ s.req.type % 65536 ≠ 0 → ∀ x ∈ rs, x.isSimple = true)) ∧
      (loggedSession e cl w (ss.flatMap Sent.encode ++ closing fin) []).2 =
        (sessionLog (has cl.ex.flags F_DATALOG) ss answers fin).flatMap Record.encode := by
  have hk : keepsData cl = has cl.ex.flags F_DATALOG := by
    unfold keepsData
    cases h : has cl.ex.flags F_DATALOG with
    | false => rfl
    | true => rw [hns h]; rfl
  have hset : setupLog e cl.ex.flags [] = ⟨if has cl.ex.flags F_DATALOG then Record.dataOn.encode else [],
      (if has cl.ex.flags F_DATALOG then Record.dataOn.encode else []).length⟩ := by
    unfold setupLog
    cases has cl.ex.flags F_DATALOG with
    | false => rfl
    | true =>
      simp only [if_true]
      rw [fresh_write, optionRecord_eq]
  have hpos : (setupLog e cl.ex.flags []).pos ≤ (setupLog e cl.ex.flags []).file.length := by
    rw [hset]; exact Nat.le_refl _
  obtain ⟨answers, h1, h2, h3, h4⟩ := mainloopLog_records e ss hok fin hfin cl w _ hpos hend
  refine ⟨answers, h1, h2, h3, ?_⟩
  unfold loggedSession
  simp only []
  rw [h4, hk, hset]
  unfold sessionLog
  rw [List.flatMap_append]
  generalize (records (has cl.ex.flags F_DATALOG) ss answers ++ closingRecords fin).flatMap Record.encode = bs
  cases has cl.ex.flags F_DATALOG
  · simp [Log.write]
  · simp [Log.write]

/-- **C40.** A session whose requests are well-formed and that ends with the client closing the connection, with or without a
disconnect request, on an export that keeps a transaction log in a new file: reading the log back yields exactly the requests in
order, with their data if data logging is on, each followed by the replies that were sent for it; and `nbd-trdump` prints exactly
these. (Only the headers of replies are logged. Data logging together with splice is refused by the configuration reader.)

Missing from the full property: a log file that existed before (`C40_false_stale`), and the length of structured replies as printed
by nbd-trdump (`C40_false_length`). -/
theorem C40_partial (e : Endian) (cl : Client) (w : World) (ss : List Sent) (hok : ∀ s ∈ ss, s.Ok)
    (fin : Option Request) (hfin : ∀ r ∈ fin, r.IsDisc)
    (hns : has cl.ex.flags F_DATALOG = true → has cl.ex.flags F_SPLICE = false)
    (hend : Clean (mainloop e cl w (ss.flatMap Sent.encode ++ closing fin)).ending) :
    (loggedSession e cl w (ss.flatMap Sent.encode ++ closing fin) []).1 =
      mainloop e cl w (ss.flatMap Sent.encode ++ closing fin) ∧
    ∃ answers : List (List Reply), answers.length = ss.length ∧
      (mainloop e cl w (ss.flatMap Sent.encode ++ closing fin)).sent = wire answers.flatten ∧
      (∀ (i : Nat) (s : Sent) (rs : List Reply), ss[i]? = some s → answers[i]? = some rs → Answer s.req.cookie rs) ∧
      readLog false (loggedSession e cl w (ss.flatMap Sent.encode ++ closing fin) []).2 =
        some (sessionLog (has cl.ex.flags F_DATALOG) ss answers fin) ∧
      trdump e false (loggedSession e cl w (ss.flatMap Sent.encode ++ closing fin) []).2 =
        (sessionLog (has cl.ex.flags F_DATALOG) ss answers fin).flatMap (Record.lines e) := by
  refine ⟨mainloopLog_run e cl w _ _, ?_⟩
  obtain ⟨answers, h1, h2, h3, h4⟩ := session_log e cl w ss hok fin hfin hns hend
  refine ⟨answers, h1, h2, fun i s rs a b => (h3 i s rs a b).1, ?_, ?_⟩
  all_goals
    rw [h4]
    have hrec : ∀ x ∈ records (has cl.ex.flags F_DATALOG) ss answers ++ closingRecords fin,
        x.Ok (has cl.ex.flags F_DATALOG) := by
      intro x hx
      rcases List.mem_append.mp hx with hx | hx
      · exact (records_ok _ _ ss hok answers h3).1 x hx
      · exact closingRecords_ok _ fin hfin x hx
    revert hrec
    unfold sessionLog
    cases has cl.ex.flags F_DATALOG <;> intro hrec
  · simp only [Bool.false_eq_true, if_false, List.nil_append]
    exact readLog_records _ _ hrec
  · simp only [if_true, List.singleton_append, List.flatMap_cons]
    rw [readLog_dataOn, readLog_records _ _ hrec]
    rfl
  · simp only [Bool.false_eq_true, if_false, List.nil_append]
    exact trdump_records e _ _ hrec
  · simp only [if_true, List.singleton_append, List.flatMap_cons]
    rw [trdump_dataOn, trdump_records e _ _ hrec]

/-- The demo export with a data log. -/
def logClient (structured : Bool) : Client :=
  ⟨⟨F_MULTIFILE ||| F_DATALOG, 11, [⟨3, 0⟩, ⟨4, 5⟩], []⟩, false, [], 0, 0, 0, structured, false⟩

theorem log_plain (s : Bool) : Plain (logClient s) where
  good := by cases s <;> exact ⟨by decide, fun _ => ⟨by decide, by decide, by decide⟩⟩
  paged := by cases s <;> decide

/-- Two writes, a read and a write-zeroes request. -/
def logSent : List Sent :=
  [Demo.write 4 [10, 11, 12, 13], Demo.request 0 2 4, Demo.request 6 6 2, Demo.write 8 [20, 21]]

/-- The disconnect request of nbd-client. -/
def logBye : Request := ⟨0x25609513, 2, Demo.cookie, 0, 0⟩

theorem logBye_disc : logBye.IsDisc := ⟨⟨by decide, by decide, by decide, by decide, by decide⟩, rfl, rfl⟩

theorem logSent_ok : ∀ s ∈ logSent, s.Ok := by
  intro s hs
  simp only [logSent, List.mem_cons, List.not_mem_nil, or_false] at hs
  rcases hs with rfl | rfl | rfl | rfl <;>
    exact ⟨⟨by decide, by decide, by decide, by decide, by decide⟩, rfl, by decide, by decide⟩

/-- The hypotheses of `C40_partial` are met, and the log has ten records. -/
example : has (logClient false).ex.flags F_DATALOG = true ∧ has (logClient false).ex.flags F_SPLICE = false ∧
    (mainloop .little (logClient false) Demo.world (logSent.flatMap Sent.encode ++ closing (some logBye))).ending
      = .disconnected ∧
    readLog false (loggedSession .little (logClient false) Demo.world
      (logSent.flatMap Sent.encode ++ closing (some logBye)) []).2 = some
      [.dataOn, .request ⟨0x25609513, 1, Demo.cookie, 4, 4⟩ [10, 11, 12, 13], .reply 0 Demo.cookie,
       .request ⟨0x25609513, 0, Demo.cookie, 2, 4⟩ [], .reply 0 Demo.cookie,
       .request ⟨0x25609513, 6, Demo.cookie, 6, 2⟩ [], .reply 0 Demo.cookie,
       .request ⟨0x25609513, 1, Demo.cookie, 8, 2⟩ [20, 21], .reply 0 Demo.cookie,
       .request logBye []] := by decide +kernel

/-- **C40 is false** of a log file that exists already: it is neither emptied nor appended to. Here the log of a first session is
followed by a shorter session; afterwards the file contains the second session's records followed by the rest of the first
session's, which never happened after it, and the first session's beginning is lost. -/
theorem C40_false_stale :
    ∃ (cl : Client) (w : World) (old : List Byte) (ss : List Sent), (∀ s ∈ ss, s.Ok) ∧
      (mainloop .little cl w (ss.flatMap Sent.encode)).ending = .gone ∧
      (mainloop .little cl w (ss.flatMap Sent.encode)).sent = wire [.simple 0 Demo.cookie []] ∧
      readLog false old = some [.dataOn, .request ⟨0x25609513, 1, Demo.cookie, 0, 2⟩ [1, 2], .reply 0 Demo.cookie,
        .request ⟨0x25609513, 1, Demo.cookie, 4, 2⟩ [7, 8], .reply 0 Demo.cookie] ∧
      readLog false (loggedSession .little cl w (ss.flatMap Sent.encode) old).2 =
        some [.dataOn, .request ⟨0x25609513, 1, Demo.cookie, 4, 2⟩ [5, 6], .reply 0 Demo.cookie,
          .request ⟨0x25609513, 1, Demo.cookie, 4, 2⟩ [7, 8], .reply 0 Demo.cookie] := by
  refine ⟨logClient false, Demo.world,
    (loggedSession .little (logClient false) Demo.world
      ([Demo.write 0 [1, 2], Demo.write 4 [7, 8]].flatMap Sent.encode) []).2,
    [Demo.write 4 [5, 6]], ?_, ?_, ?_, ?_, ?_⟩
  · intro s hs
    rw [List.mem_singleton] at hs
    subst hs
    exact ⟨⟨by decide, by decide, by decide, by decide, by decide⟩, rfl, by decide, by decide⟩
  all_goals decide +kernel

/-- **C40 is false** of the length of structured replies in nbd-trdump: on a little-endian machine the chunk of 8 + 1 bytes that
answers a read of one byte is printed with length 0. -/
theorem C40_false_length :
    ∃ (cl : Client) (w : World) (ss : List Sent), (∀ s ∈ ss, s.Ok) ∧
      readLog false (loggedSession .little cl w (ss.flatMap Sent.encode) []).2 =
        some [.dataOn, .request ⟨0x25609513, 0, Demo.cookie, 0, 1⟩ [], .chunk 0 1 Demo.cookie 9, .chunk 1 0 Demo.cookie 0] ∧
      trdump .little false (loggedSession .little cl w (ss.flatMap Sent.encode) []).2 =
        [.option 1 0x4A93BA39A54F31B6 1, .datalog true, .request 0x0102030405060708 0 0 1,
         .chunk 0x0102030405060708 1 0 0, .chunk 0x0102030405060708 0 1 0] := by
  refine ⟨logClient true, Demo.world, [Demo.request 0 0 1], ?_, ?_, ?_⟩
  · intro s hs
    rw [List.mem_singleton] at hs
    subst hs
    exact ⟨⟨by decide, by decide, by decide, by decide, by decide⟩, rfl, by decide, by decide⟩
  all_goals decide +kernel

/-! ### Replay -/

/-- A successful answer is not an error. -/
theorem acked_zero {msgs : List Msg} {err : Nat} {c : List Byte} {rs : List Reply} (hw : Encodes msgs rs)
    (hrs : rs = [.simple err c []]) (he : err < 2 ^ 32)
    (ha : (msgs.map Msg.bytes).flatten = wire [.simple 0 c []]) : err = 0 := by
  have h1 := hw.wire
  rw [ha, hrs] at h1
  exact (simple_encode_inj (by decide) he (by simpa [wire] using h1)).symm

/-- The effect of a request that was accepted. -/
theorem accepted_step {size : Nat} {ro : Bool} {fr : List Bool} {f g : Flat} {s : Sent} {rs : List Reply} {msgs : List Msg}
    (bsz : Nat) (_hb : 0 < bsz) (h : FlatStep size ro fr f s.cmd rs g) (hok : s.Ok) (henc : Encodes msgs rs)
    (hal : s.req.len % bsz = 0) (hcode : s.req.type % 65536 ∈ [0, 1, 3, 6])
    (hacc : s.req.type % 65536 = 1 ∨ s.req.type % 65536 = 6 →
      (msgs.map Msg.bytes).flatten = wire [.simple 0 s.req.cookie []]) :
    g = applyBlocks f (s.req.pieces bsz s.data) ∧
      (s.req.type % 65536 = 1 ∨ s.req.type % 65536 = 6 → s.req.start + s.req.len ≤ size) := by
  have hlen : s.req.len / bsz * bsz = s.req.len := by
    have := Nat.div_add_mod s.req.len bsz
    rw [hal, Nat.mul_comm] at this
    omega
  have hdat := hok.data
  have hcmd : s.cmd.code = 65535 ∨ s.cmd.code = s.req.type % 65536 := by
    simp only [Sent.cmd]
    split
    · exact .inr rfl
    · exact .inl rfl
  have herr : ∀ err ∈ errnos, err < 2 ^ 32 ∧ err ≠ 0 := by decide
  simp only [List.mem_cons, List.not_mem_nil, or_false] at hcode
  have nothing : s.req.type % 65536 ≠ 1 → s.req.type % 65536 ≠ 6 → s.req.pieces bsz s.data = [] := by
    intro h1 h6
    unfold Request.pieces
    rw [if_neg h1, if_neg h6]
  cases h with
  | read rs hc _ _ _ _ =>
    exact ⟨by rw [nothing (by omega) (by omega)]; rfl, by omega⟩
  | readFails rs hc _ _ _ _ =>
    exact ⟨by rw [nothing (by omega) (by omega)]; rfl, by omega⟩
  | flush hc err he => exact ⟨by rw [nothing (by omega) (by omega)]; rfl, by omega⟩
  | write hc hw hr =>
    have ht : s.req.type % 65536 = 1 := by omega
    refine ⟨?_, fun _ => hr⟩
    rw [if_pos ht] at hdat
    have hp : s.req.pieces bsz s.data = blocks bsz (s.req.len / bsz) s.req.start s.data := by
      unfold Request.pieces; rw [if_pos ht]
    rw [hp, applyBlocks_blocks _ _ _ _ _ (by omega), hlen, ← hdat, List.take_length]
    rfl
  | zeroes hc hw hr =>
    have ht : s.req.type % 65536 = 6 := by omega
    refine ⟨?_, fun _ => hr⟩
    have hp : s.req.pieces bsz s.data = blocks bsz (s.req.len / bsz) s.req.start (Flat.zeros s.req.len) := by
      unfold Request.pieces; rw [ht]; rfl
    have hzl : (Flat.zeros s.req.len).length = s.req.len := by simp [Flat.zeros]
    rw [hp, applyBlocks_blocks _ _ _ _ _ (by omega), hlen, List.take_of_length_le (by omega)]
    rfl
  | writeFails hc hw hr err n he =>
    exfalso
    exact (herr err he).2 (acked_zero henc rfl (herr err he).1 (hacc (by omega)))
  | zeroesFails hc hw hr err n he hn =>
    exfalso
    exact (herr err he).2 (acked_zero henc rfl (herr err he).1 (hacc (by omega)))
  | trim hc hw hr g hin hout => omega
  | refused err he why =>
    by_cases h16 : s.req.type % 65536 = 1 ∨ s.req.type % 65536 = 6
    · exfalso
      exact (herr err he).2 (acked_zero henc rfl (herr err he).1 (hacc h16))
    · exact ⟨by rw [nothing (by omega) (by omega)]; rfl, fun h => absurd h h16⟩

/-- The image after a session in which every write was accepted. -/
theorem accepted_view (e : Endian) (ss : List Sent) (hok : ∀ s ∈ ss, s.Ok) (fin : Option Request)
    (hfin : ∀ r ∈ fin, r.IsDisc) (bsz : Nat) (hb : 0 < bsz) (hal : ∀ s ∈ ss, s.req.len % bsz = 0)
    (hcode : ∀ s ∈ ss, s.req.type % 65536 ∈ [0, 1, 3, 6])
    (hz : ∀ s ∈ ss, s.req.type % 65536 = 6 → s.req.len ≤ ZEROCHUNK) :
    ∀ cl w, Plain cl →
      Clean (mainloop e cl w (ss.flatMap Sent.encode ++ closing fin)).ending →
      (∀ d ∈ (mainloop e cl w (ss.flatMap Sent.encode ++ closing fin)).handled,
        d.req.type % 65536 = 1 ∨ d.req.type % 65536 = 6 → Acked d) →
      view cl.ex (mainloop e cl w (ss.flatMap Sent.encode ++ closing fin)).w =
        applyBlocks (view cl.ex w) (ss.flatMap fun s => s.req.pieces bsz s.data) ∧
      ∀ s ∈ ss, s.req.type % 65536 = 1 ∨ s.req.type % 65536 = 6 → s.req.start + s.req.len ≤ cl.ex.exportsize := by
  induction ss with
  | nil =>
    intro cl w hp hend hacc
    obtain ⟨_, _, h3, _⟩ := mainloopLog_closing e cl w ⟨[], 0⟩ (Nat.le_refl _) fin hfin
    rw [List.flatMap_nil, List.nil_append, h3]
    exact ⟨rfl, by simp⟩
  | cons s ss ih =>
    intro cl w hp hend hacc
    have hs := hok s (by simp)
    have hst : (s :: ss).flatMap Sent.encode ++ closing fin = s.encode ++ (ss.flatMap Sent.encode ++ closing fin) := by simp
    rw [hst] at hend hacc ⊢
    rcases fetch_sent e cl w s hs (ss.flatMap Sent.encode ++ closing fin) with ⟨hub, _⟩ | ⟨w1, p, hf, hsame, _, hfit, hb', _⟩
    · rw [mainloop_ub _ _ _ _ hub] at hend
      rcases hend with h | h <;> cases h
    · rw [mainloop_push _ _ _ _ _ _ _ _ hf] at hend hacc ⊢
      split at hend
      · rcases hend with h | h <;> cases h
      · rcases hend with h | h <;> cases h
      · rename_i cl' w' msgs hq
        rw [hq] at hacc
        have hcmd : cmdOf (reqOf e s) p = s.cmd := by
          unfold cmdOf Sent.cmd; rw [hb']; rfl
        obtain ⟨rfl, rs, henc, hstep⟩ := handleRequest_plain e cl cl' hp w1 w' (reqOf e s) p msgs
          hs.fits.len hfit (fun _ h2 => hz s (by simp) h2) hq
        rw [hcmd, hsame.view] at hstep
        obtain ⟨i1, i2⟩ := accepted_step bsz hb hstep hs henc (hal s (by simp)) (hcode s (by simp))
          (fun h => hacc ⟨reqOf e s, p, msgs⟩ (by simp [Run.cons]) h)
        obtain ⟨j1, j2⟩ := ih (fun x hx => hok x (by simp [hx])) (fun x hx => hal x (by simp [hx]))
          (fun x hx => hcode x (by simp [hx])) (fun x hx => hz x (by simp [hx])) cl' w' hp hend
          (fun d hd => hacc d (by simp [Run.cons, hd]))
        refine ⟨?_, ?_⟩
        · rw [List.flatMap_cons, applyBlocks_append, ← i1]
          exact j1
        · intro x hx
          rcases List.mem_cons.mp hx with rfl | hx
          · exact i2
          · exact j2 x hx

theorem pieces_of_records (bsz : Nat) (ss : List Sent) :
    ∀ (answers : List (List Reply)), answers.length = ss.length →
      (records true ss answers).flatMap (Record.pieces bsz) = ss.flatMap fun s => s.req.pieces bsz s.data := by
  induction ss with
  | nil => intro answers h; simp [records]
  | cons s ss ih =>
    intro answers h
    cases answers with
    | nil => cases h
    | cons rs answers =>
      have := ih answers (by simpa using h)
      have hr : (rs.map Reply.record).flatMap (Record.pieces bsz) = [] := by
        rw [List.flatMap_eq_nil_iff]
        intro x hx
        obtain ⟨r, _, rfl⟩ := List.mem_map.mp hx
        cases r <;> rfl
      have e1 : records true (s :: ss) (rs :: answers) =
          (Record.request s.req s.data :: rs.map Reply.record) ++ records true ss answers := by
        simp [records]
      rw [e1, List.flatMap_append, List.flatMap_cons, hr, this]
      simp [Record.pieces]

/-- **C41.** A session on a plain export that logs data into a new file, in which every request is a read, a flush, or an accepted
write or write-zeroes request, all aligned to the block size `bsz`, with simple replies. Let an image hold the contents the export
had before. Then replaying the log onto the image either fails because the kernel reported an error, or ends successfully with the
image as it is after exactly `max` of the session's blocks; and if the session wrote no more than `max` blocks, that is exactly the
contents the export had after the session.

Missing from the full property: logs that existed before (`C41_false_stale`), reads with structured replies
(`C41_false_structured`), requests that are not aligned although they write nothing (`C41_false_unaligned_read`), write-zeroes
requests of more than 64 MiB (of which the server zeroes only a part, `C09_false`). Here one request is dealt with after the other;
for several worker threads see `C41_threads_partial`. -/
theorem C41_partial (e : Endian) (cl : Client) (w : World) (hp : Plain cl) (hlog : has cl.ex.flags F_DATALOG = true)
    (hns : has cl.ex.flags F_SPLICE = false) (ss : List Sent) (hok : ∀ s ∈ ss, s.Ok)
    (fin : Option Request) (hfin : ∀ r ∈ fin, r.IsDisc) (bsz max : Nat) (hb : 0 < bsz) (hmax : 0 < max)
    (hal : ∀ s ∈ ss, s.req.start % bsz = 0 ∧ s.req.len % bsz = 0)
    (half : ∀ r ∈ fin, r.start % bsz = 0 ∧ r.len % bsz = 0)
    (hcode : ∀ s ∈ ss, s.req.type % 65536 ∈ [0, 1, 3, 6])
    (hz : ∀ s ∈ ss, s.req.type % 65536 = 6 → s.req.len ≤ 64 * 1024 * 1024)
    (hsimple : cl.structured = false ∨ ∀ s ∈ ss, s.req.type % 65536 ≠ 0)
    (hend : Clean (mainloop e cl w (ss.flatMap Sent.encode ++ closing fin)).ending)
    (hacc : ∀ d ∈ (mainloop e cl w (ss.flatMap Sent.encode ++ closing fin)).handled,
        d.req.type % 65536 = 1 ∨ d.req.type % 65536 = 6 → Acked d)
    (w0 : World) (id : FileId) (img : File) (himg : w0.files id = some img) (hcopy : img.data = view cl.ex w)
    (hmoves : ∀ t, w0.orc t ≠ .done 0)
    (p : Played)
    (hplay : p = trplay e bsz max id (loggedSession e cl w (ss.flatMap Sent.encode ++ closing fin) []).2 false w0 0) :
    (p.code = 0 ∨ (p.code = 1 ∧ ∃ t n, w0.orc t = .err n)) ∧
    (p.code = 0 →
      ∃ img', p.w.files id = some img' ∧
        img'.data = applyBlocks (view cl.ex w) ((ss.flatMap fun s => s.req.pieces bsz s.data).take max) ∧
        p.blocks = min max (ss.flatMap fun s => s.req.pieces bsz s.data).length ∧
        ((ss.flatMap fun s => s.req.pieces bsz s.data).length ≤ max →
          img'.data = view cl.ex (mainloop e cl w (ss.flatMap Sent.encode ++ closing fin)).w)) := by
  obtain ⟨answers, h1, h2, h3, h4⟩ := session_log e cl w ss hok fin hfin (fun _ => hns) hend
  obtain ⟨v1, v2⟩ := accepted_view e ss hok fin hfin bsz hb (fun s hs => (hal s hs).2) hcode hz cl w hp hend hacc
  have hrecs := records_ok true _ ss hok answers h3
  have hok' : ∀ x ∈ records true ss answers ++ closingRecords fin, x.Ok true := by
    intro x hx
    rcases List.mem_append.mp hx with hx | hx
    · exact hrecs.1 x hx
    · exact closingRecords_ok _ fin hfin x hx
  have hpl : ∀ x ∈ records true ss answers ++ closingRecords fin, x.Playable bsz := by
    intro x hx
    rcases List.mem_append.mp hx with hx | hx
    · rcases hrecs.2 x hx with ⟨s, hs, rfl⟩ | ⟨s, hs, r, rfl, hr⟩
      · refine ⟨(hal s hs).1, (hal s hs).2, ?_, ?_⟩
        · have := hcode s hs
          simp only [List.mem_cons, List.not_mem_nil, or_false] at this ⊢
          omega
        · intro h
          have h1 := v2 s hs h
          have h2 := hp.good.size
          omega
      · have hsr : r.isSimple = true := hr (by
          rcases hsimple with h | h
          · exact .inl h
          · exact .inr (h s hs))
        cases r with
        | simple => trivial
        | chunk => cases hsr
    · cases fin with
      | none => cases hx
      | some r =>
        simp only [closingRecords, List.mem_singleton] at hx
        subst hx
        have hd := (hfin r rfl).disc
        exact ⟨(half r rfl).1, (half r rfl).2, by rw [hd]; decide, by rw [hd]; simp⟩
  have hpieces : (records true ss answers ++ closingRecords fin).flatMap (Record.pieces bsz) =
      ss.flatMap fun s => s.req.pieces bsz s.data := by
    rw [List.flatMap_append, pieces_of_records bsz ss answers h1]
    cases fin with
    | none => simp [closingRecords]
    | some r =>
      have hd := (hfin r rfl).disc
      simp [closingRecords, Record.pieces, Request.pieces, hd]
  have hrep := trplay_records e bsz max hb id _ hok' hpl w0 0 (view cl.ex w) hmax ⟨img, himg, hcopy⟩ hmoves
  rw [hpieces] at hrep
  have hp' : p = trplay e bsz max id ((records true ss answers ++ closingRecords fin).flatMap Record.encode) true w0 0 := by
    rw [hplay, h4, hlog]
    unfold sessionLog
    simp only [if_true, List.singleton_append, List.flatMap_cons]
    rw [trplay_dataOn]
  rw [← hp'] at hrep
  refine ⟨hrep.code, fun h0 => ?_⟩
  obtain ⟨img', hi, hd⟩ := hrep.image h0
  refine ⟨img', hi, hd, by simpa using hrep.count h0, fun hle => ?_⟩
  rw [hd, v1, List.take_of_length_le (by omega)]

/-- The contents of the demo export as one image. -/
def imageWorld (orc : Nat → Kr) : World :=
  ⟨fun id => if id = .fd 9 then some (File.clean (view (logClient false).ex Demo.world) 11) else none, orc, 0, 0, fun _ => []⟩

/-- The session of the example above meets the hypotheses of `C41_partial` for blocks of two bytes, and the replay gives the
image the session left. -/
example : (∀ s ∈ logSent, s.req.start % 2 = 0 ∧ s.req.len % 2 = 0) ∧
    (∀ d ∈ (mainloop .little (logClient false) Demo.world (logSent.flatMap Sent.encode ++ closing (some logBye))).handled,
      d.req.type % 65536 = 1 ∨ d.req.type % 65536 = 6 →
        (d.msgs.map Msg.bytes).flatten = wire [.simple 0 d.req.cookie []]) ∧
    ((trplay .little 2 100 (.fd 9) (loggedSession .little (logClient false) Demo.world
      (logSent.flatMap Sent.encode ++ closing (some logBye)) []).2 false (imageWorld Demo.stingy) 0).code = 0) ∧
    ((trplay .little 2 100 (.fd 9) (loggedSession .little (logClient false) Demo.world
      (logSent.flatMap Sent.encode ++ closing (some logBye)) []).2 false (imageWorld Demo.stingy) 0).w.files (.fd 9)).map
        (fun f => f.data.read 0 11) = some [1, 2, 3, 4, 10, 11, 0, 0, 20, 21, 6] := by decide +kernel

/-- **C41 is false** of a log file that existed before: the accepted write of `[5, 6]` at offset 4 is undone in the replay by a
write of an older session that is still in the file. -/
theorem C41_false_stale :
    ∃ (cl : Client) (w w0 : World) (old : List Byte) (ss : List Sent), (∀ s ∈ ss, s.Ok) ∧
      (∃ img, w0.files (.fd 9) = some img ∧ img.data = view cl.ex w) ∧
      (mainloop .little cl w (ss.flatMap Sent.encode)).sent = wire [.simple 0 Demo.cookie []] ∧
      (view cl.ex (mainloop .little cl w (ss.flatMap Sent.encode)).w).read 4 2 = [5, 6] ∧
      (trplay .little 2 100 (.fd 9) (loggedSession .little cl w (ss.flatMap Sent.encode) old).2 false w0 0).code = 0 ∧
      ((trplay .little 2 100 (.fd 9) (loggedSession .little cl w (ss.flatMap Sent.encode) old).2 false w0 0).w.files
        (.fd 9)).map (fun f => f.data.read 4 2) = some [7, 8] := by
  refine ⟨logClient false, Demo.world, imageWorld Demo.stingy,
    (loggedSession .little (logClient false) Demo.world
      ([Demo.write 0 [1, 2], Demo.write 4 [7, 8]].flatMap Sent.encode) []).2,
    [Demo.write 4 [5, 6]], ?_, ⟨_, rfl, rfl⟩, ?_, ?_, ?_, ?_⟩
  · intro s hs
    rw [List.mem_singleton] at hs
    subst hs
    exact ⟨⟨by decide, by decide, by decide, by decide, by decide⟩, rfl, by decide, by decide⟩
  all_goals decide +kernel

/-- **C41 is false** of sessions with structured replies: a read between two accepted writes makes the replay stop with an error
at the read's reply; the second write is missing. -/
theorem C41_false_structured :
    ∃ (cl : Client) (w w0 : World) (ss : List Sent), (∀ s ∈ ss, s.Ok) ∧
      (∃ img, w0.files (.fd 9) = some img ∧ img.data = view cl.ex w) ∧
      (view cl.ex (mainloop .little cl w (ss.flatMap Sent.encode)).w).read 0 6 = [40, 41, 3, 4, 50, 51] ∧
      (trplay .little 2 100 (.fd 9) (loggedSession .little cl w (ss.flatMap Sent.encode) []).2 false w0 0).code = 1 ∧
      ((trplay .little 2 100 (.fd 9) (loggedSession .little cl w (ss.flatMap Sent.encode) []).2 false w0 0).w.files
        (.fd 9)).map (fun f => f.data.read 0 6) = some [40, 41, 3, 4, 5, 1] := by
  refine ⟨logClient true, Demo.world, imageWorld Demo.stingy,
    [Demo.write 0 [40, 41], Demo.request 0 0 2, Demo.write 4 [50, 51]], ?_, ⟨_, rfl, rfl⟩, ?_, ?_, ?_⟩
  · intro s hs
    simp only [List.mem_cons, List.not_mem_nil, or_false] at hs
    rcases hs with rfl | rfl | rfl <;>
      exact ⟨⟨by decide, by decide, by decide, by decide, by decide⟩, rfl, by decide, by decide⟩
  all_goals decide +kernel

/-- **C41 is false** when a session of aligned writes contains a read that is not aligned: the replay stops with an error at the
read. -/
theorem C41_false_unaligned_read :
    ∃ (cl : Client) (w w0 : World) (ss : List Sent), (∀ s ∈ ss, s.Ok) ∧
      (∃ img, w0.files (.fd 9) = some img ∧ img.data = view cl.ex w) ∧
      (view cl.ex (mainloop .little cl w (ss.flatMap Sent.encode)).w).read 0 6 = [40, 41, 3, 4, 50, 51] ∧
      (trplay .little 2 100 (.fd 9) (loggedSession .little cl w (ss.flatMap Sent.encode) []).2 false w0 0).code = 1 ∧
      ((trplay .little 2 100 (.fd 9) (loggedSession .little cl w (ss.flatMap Sent.encode) []).2 false w0 0).w.files
        (.fd 9)).map (fun f => f.data.read 0 6) = some [40, 41, 3, 4, 5, 1] := by
  refine ⟨logClient false, Demo.world, imageWorld Demo.stingy,
    [Demo.write 0 [40, 41], Demo.request 0 1 1, Demo.write 4 [50, 51]], ?_, ⟨_, rfl, rfl⟩, ?_, ?_, ?_⟩
  · intro s hs
    simp only [List.mem_cons, List.not_mem_nil, or_false] at hs
    rcases hs with rfl | rfl | rfl <;>
      exact ⟨⟨by decide, by decide, by decide, by decide, by decide⟩, rfl, by decide, by decide⟩
  all_goals decide +kernel

/-- A request that was refused is replayed all the same: here a write that reaches beyond the end of the export. (C41 speaks of
accepted writes only; this shows that the restriction is needed.) -/
theorem C41_refused_replayed :
    ∃ (cl : Client) (w w0 : World) (ss : List Sent), (∀ s ∈ ss, s.Ok) ∧
      (mainloop .little cl w (ss.flatMap Sent.encode)).sent = wire [.simple 28 Demo.cookie []] ∧
      (view cl.ex (mainloop .little cl w (ss.flatMap Sent.encode)).w).read 8 3 = [4, 5, 6] ∧
      (trplay .little 2 100 (.fd 9) (loggedSession .little cl w (ss.flatMap Sent.encode) []).2 false w0 0).code = 0 ∧
      ((trplay .little 2 100 (.fd 9) (loggedSession .little cl w (ss.flatMap Sent.encode) []).2 false w0 0).w.files
        (.fd 9)).map (fun f => f.data.read 8 3) = some [60, 61, 62] := by
  refine ⟨logClient false, Demo.world, imageWorld Demo.stingy, [Demo.write 8 [60, 61, 62, 63]], ?_, ?_, ?_, ?_, ?_⟩
  · intro s hs
    rw [List.mem_singleton] at hs
    subst hs
    exact ⟨⟨by decide, by decide, by decide, by decide, by decide⟩, rfl, by decide, by decide⟩
  all_goals decide +kernel

end Nbd.Props
