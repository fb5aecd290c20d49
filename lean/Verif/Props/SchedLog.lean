import Verif.SchedLog
import Verif.Props.Sched
import Verif.Props.TrLog
/-!
# The transaction log of a session with several worker threads (C40)

Several threads write to one log: the main thread writes the requests, and, if data logging is on, the data of a write request once
it has arrived; the other threads write the headers of the replies. A log semaphore keeps these writes apart.
-/

set_option autoImplicit false

namespace Nbd

namespace Spec

/-- Is the record about a request? -/
def Record.isRequest : Record → Bool
  | .request _ _ => true
  | _ => false

end Spec

namespace Props
open Spec

/-- What was done for a request includes a complete answer whose headers are records. -/
def Noted (j : Job) (l : List Msg) : Prop :=
  ∃ rs, Encodes l rs ∧ Answer j.req.cookie rs ∧ (∀ x ∈ rs, x.Recordable) ∧
    (j.req.cookie.length = 8 → l.map Msg.hdr = rs.map fun r => r.record.encode)

theorem sendWhole_any {lg : Bool} {en : Nat} (view : Client × World → Flat) (P : List Msg → Prop) (rest : List Msg)
    (l : List Act) (h : P (Act.msgs l ++ rest)) :
    (wholeP.sendWhole lg rest en).Good view (fun l => P (Act.msgs l)) (fun _ => True) l := by
  induction rest generalizing l with
  | nil =>
    rw [List.append_nil] at h
    exact h
  | cons m ms ih =>
    have h' : P (Act.msgs (l ++ [.msg m]) ++ ms) := by
      rw [msgs_append]
      simpa [Act.msgs] using h
    unfold wholeP.sendWhole sendChunkP sendReplyP
    split
    · refine ⟨trivial, ?_⟩
      split
      · exact ⟨trivial, ih _ h'⟩
      · exact ih _ h'
    · split
      · exact ⟨trivial, trivial, ih _ h'⟩
      · exact ⟨trivial, ih _ h'⟩

theorem hdr_each (e : Endian) (c : List Byte) (hc : c.length = 8) (msgs : List Msg) (rs : List Reply)
    (hm : ∀ m ∈ msgs, HdrOk e c m) (he : Encodes msgs rs) (hr : ∀ r ∈ rs, r.cookie = c) :
    msgs.map Msg.hdr = rs.map fun r => r.record.encode := by
  unfold Encodes at he
  induction msgs generalizing rs with
  | nil =>
    have : rs = [] := List.map_eq_nil_iff.mp he.symm
    subst this
    rfl
  | cons m ms ih =>
    cases rs with
    | nil => cases he
    | cons r rs =>
      simp only [List.map_cons, List.cons.injEq] at he
      have hrc := hr r (by simp)
      simp only [List.map_cons, List.cons.injEq]
      exact ⟨hdr_record e c m r (hm m (by simp)) he.1 (by rw [hrc, hc]) hc,
        ih rs (fun x hx => hm x (by simp [hx])) he.2 (fun x hx => hr x (by simp [hx]))⟩

/-- The code for any kind of export answers every request once, with headers that are records. -/
theorem anyServer_notes (e : Endian) (cl : Client) (lg : Bool) :
    (anyServer e cl lg).Meets (fun _ _ => 0) (fun _ => True) (fun j l => Noted j (Act.msgs l)) (fun _ _ => True) := by
  refine ⟨fun _ _ _ _ _ _ _ _ => trivial, ?_, fun _ _ _ _ _ => rfl, fun _ _ _ => trivial⟩
  intro en j _
  refine ⟨trivial, ?_⟩
  intro s s' a hf
  refine ⟨[], (by simp [Quiet]), .nil _, ?_⟩
  rw [List.append_nil]
  dsimp only at hf ⊢
  split at hf
  · cases hf
  · cases hf
  · rename_i cl' w' msgs hq
    cases hf
    obtain ⟨rs, h1, h2, h3, _⟩ := handleRequest_logged _ _ _ _ _ _ _ _ hq
    exact sendWhole_any _ (Noted j) msgs [] ⟨rs, h1, h2, h3, fun hc =>
      hdr_each e _ hc _ _ (handleRequest_hdr _ _ _ _ _ _ _ _ hq) h1 h2.cookie⟩

theorem anyServer_logs (e : Endian) (cl : Client) (en : Nat) (r : Req) (p : Payload) :
    ((anyServer e cl true).code en r p).Logs .nothing := by
  refine ⟨rfl, ?_⟩
  rintro ⟨msgs, en'⟩
  dsimp only
  induction msgs with
  | nil => rfl
  | cons m ms ih =>
    unfold wholeP.sendWhole
    by_cases h : m.hdr.length = 20
    · rw [if_pos h]
      exact .inl ⟨rfl, h, .inr ⟨rfl, ih⟩⟩
    · rw [if_neg h]
      exact .inl ⟨rfl, h, .inr ⟨rfl, ih⟩⟩

/-- The record a piece of the log is. -/
def recOf (keep : Bool) (bs : List Byte) : Record :=
  match readLog keep bs with
  | some (r :: _) => r
  | _ => .dataOn

theorem recOf_encode {keep : Bool} {x : Record} (h : x.Ok keep) : recOf keep x.encode = x := by
  have := readLog_records keep [x] (by simpa using h)
  rw [List.flatMap_cons, List.flatMap_nil, List.append_nil] at this
  unfold recOf
  rw [this]

theorem asked_filter (keep : Bool) (ss : List Sent) (i : Nat) {x : Sent} (hx : ss[i]? = some x) (n : Nat) (hn : n ≤ ss.length) :
    (asked keep ss n).filter (fun p => p.num == i) =
      if i < n then [⟨i, false, x.req.encode ++ if keep then x.data else []⟩] else [] := by
  induction n with
  | zero => simp [asked]
  | succ n ih =>
    have hlt : n < ss.length := by omega
    rw [asked_succ keep (List.getElem?_eq_getElem hlt), List.filter_append, ih (by omega)]
    by_cases h : n = i
    · subst h
      rw [List.getElem?_eq_getElem hlt] at hx
      cases hx
      simp
    · by_cases h1 : i < n
      · rw [if_pos h1, if_pos (show i < n + 1 by omega)]
        simp [h]
      · rw [if_neg h1, if_neg (show ¬ i < n + 1 by omega)]
        simp [h]

theorem asked_all (keep : Bool) (ss : List Sent) : asked keep ss ss.length =
    ss.mapIdx fun i x => ⟨i, false, x.req.encode ++ if keep then x.data else []⟩ := by
  unfold asked
  rw [List.take_length]

theorem reply_ok {keep : Bool} {r : Reply} (h : r.Recordable) (hc : r.cookie.length = 8) :
    r.record.Ok keep ∧ r.record.isRequest = false := by
  cases r with
  | simple err cookie data => exact ⟨⟨h, hc⟩, rfl⟩
  | chunk flags type cookie payload => exact ⟨⟨h.1, h.2.1, hc, h.2.2⟩, rfl⟩

theorem request_ok {keep : Bool} {x : Sent} (h : x.Ok) : (Record.request x.req (if keep then x.data else [])).Ok keep := by
  refine ⟨h.fits, h.magic, ?_⟩
  have := h.data
  cases keep with
  | false => simp
  | true => simpa using this

theorem pieces_bytes (keep : Bool) (L : List Piece) (h : ∀ p ∈ L, (recOf keep p.bs).encode = p.bs) :
    (L.map fun p => recOf keep p.bs).flatMap Record.encode = L.flatMap Piece.bs := by
  induction L with
  | nil => rfl
  | cons p L ih =>
    rw [List.map_cons, List.flatMap_cons, List.flatMap_cons, h p (by simp), ih (fun q hq => h q (by simp [hq]))]

/-- **C40** with any number of worker threads. A client sends the requests `ss` without waiting for replies and then closes, with or
without a disconnect request; the export keeps a transaction log in a new file. However the threads take turns, once the session
has ended in order, reading the log back yields whole records only (`nbd-trdump` prints exactly these). Each record can be given
the number of the request it is about such that:
* the requests are there, each once, in the order of sending, with their data if data logging is on, and the disconnect request
  after them;
* what the log says about request `i` is the request, followed by the replies sent for it, in the order of sending.
So only records about different requests can change places.

Missing from the full property: as in `C40_partial`. -/
theorem C40_threads_partial (e : Endian) (cl settings : Client) (w : World) (ss : List Sent) (hok : ∀ x ∈ ss, x.Ok)
    (fin : Option Request) (hfin : ∀ r ∈ fin, r.IsDisc)
    (hns : has settings.ex.flags F_DATALOG = true → has settings.ex.flags F_SPLICE = false) (errnos : List Nat)
    (T : System (Client × World)) (tr : List (Nat × Ext))
    (hx : Exec (fun _ => anyServer e settings true)
      ⟨⟨(cl, w), none, (setupLog e settings.ex.flags []).file⟩,
        [Session.fresh (ss.flatMap Sent.encode ++ closing fin) errnos (setupLog e settings.ex.flags []).pos]⟩ tr T)
    (s : Session (Client × World)) (hs : T.sessions[0]? = some s) (hov : s.main = .over) :
    ∃ recs : List (Nat × Record),
      readLog false T.sh.file =
        some ((if has settings.ex.flags F_DATALOG then [.dataOn] else []) ++ recs.map Prod.snd) ∧
      trdump e false T.sh.file =
        ((if has settings.ex.flags F_DATALOG then [Record.dataOn] else []) ++ recs.map Prod.snd).flatMap (Record.lines e) ∧
      recs.filter (fun x => x.2.isRequest) =
        ss.mapIdx (fun i x => (i, Record.request x.req (if has settings.ex.flags F_DATALOG then x.data else []))) ++
          (closingRecords fin).map (fun r => (ss.length, r)) ∧
      (∀ x ∈ recs, x.2.isRequest = false → x.1 < ss.length) ∧
      ∀ (i : Nat) (x : Sent), ss[i]? = some x → ∃ rs, Answer x.req.cookie rs ∧
        messagesFor 0 i tr = rs.map Reply.encode ∧
        recs.filter (fun y => y.1 == i) =
          (i, Record.request x.req (if has settings.ex.flags F_DATALOG then x.data else [])) ::
            rs.map (fun r => (i, r.record)) := by
  have hset : (setupLog e settings.ex.flags []).pos = (setupLog e settings.ex.flags []).file.length ∧
      (setupLog e settings.ex.flags []).file = if has settings.ex.flags F_DATALOG then Record.dataOn.encode else [] := by
    unfold setupLog
    cases has settings.ex.flags F_DATALOG with
    | false => exact ⟨rfl, rfl⟩
    | true =>
      simp only [if_true]
      rw [fresh_write, optionRecord_eq]
      exact ⟨rfl, rfl⟩
  rw [hset.1] at hx
  have hk : (has settings.ex.flags F_DATALOG && !has settings.ex.flags F_SPLICE) = has settings.ex.flags F_DATALOG := by
    cases h : has settings.ex.flags F_DATALOG with
    | false => rfl
    | true => rw [hns h]; rfl
  have hfresh : ∀ t ∈ [Session.fresh (σ := Client × World) (ss.flatMap Sent.encode ++ closing fin) errnos
      (setupLog e settings.ex.flags []).file.length], t.Fresh := by
    intro t ht; rw [List.mem_singleton] at ht; exact ⟨_, errnos, _, ht⟩
  obtain ⟨t, L, ht, hL⟩ := hx.logged (anyServer_notes e settings true) rfl (fun en j _ => anyServer_logs e settings en j.req j.payload)
    (anyServer_reads e settings true fin hfin) hok hfin
  rw [ht] at hs
  cases hs
  have hL : LogInv (has settings.ex.flags F_DATALOG) (setupLog e settings.ex.flags []).file ss fin tr T.sh s L := by
    rw [← hk]; exact hL
  obtain ⟨h, e1, _, _, _, e5⟩ := hx.inv (fun _ => anyServer_notes e settings true) hfresh
  have si := e5 0 s (by rw [ht]; rfl)
  obtain ⟨t1, t2⟩ := hx.tidy hfresh 0 s (by rw [ht]; rfl) hov
  obtain ⟨t, ht', hfo⟩ := hx.follows (sid := 0) (ss := ss) (tail := closing fin)
    (anyServer_reads e settings true fin hfin) hok ⟨errnos, _, rfl⟩
  rw [ht] at ht'
  cases ht'
  have hlen := hfo.all (.inr hov)
  have hread := hfo.read
  rw [hlen, List.take_length] at hread
  have r1 : received 0 tr = recvs 0 h := by rw [← e1, recvs_visible]
  have hids : (received 0 tr).map Job.id = List.range ss.length := by
    have := congrArg List.length si.ids
    rw [r1, si.ids, ← hlen, r1]
    congr 1
    simpa using this.symm
  have hcount : s.count = ss.length := by
    have := congrArg List.length si.ids
    rw [← hlen, r1]
    simpa using this.symm
  -- the replies to each request
  have hrep : ∀ i, repliesIn i L = hdrsFor i tr := fun i => hL.rest i (by
    intro k x j hx' hj
    obtain ⟨en, rfl⟩ := t2 x (List.mem_of_getElem? hx')
    cases hj)
  have hans : ∀ (i : Nat) (x : Sent), ss[i]? = some x → ∃ rs, Answer x.req.cookie rs ∧ (∀ r ∈ rs, r.Recordable) ∧
      messagesFor 0 i tr = rs.map Reply.encode ∧ repliesIn i L = rs.map fun r => r.record.encode := by
    intro i x hi
    have hlt : i < (received 0 tr).length := by
      rw [hlen]; exact (List.getElem?_eq_some_iff.mp hi).1
    have hid : (received 0 tr)[i].id = i := by
      have : ((received 0 tr).map Job.id)[i]? = some (received 0 tr)[i].id := by
        rw [List.getElem?_map, List.getElem?_eq_getElem hlt]; rfl
      rw [hids, List.getElem?_range (by omega)] at this
      exact (Option.some.inj this).symm
    have hreq : (received 0 tr)[i].req.cookie = x.req.cookie := by
      have : ((received 0 tr).map Job.what)[i]? = some (received 0 tr)[i].what := by
        rw [List.getElem?_map, List.getElem?_eq_getElem hlt]; rfl
      rw [hread, List.getElem?_map, hi] at this
      simp only [Option.map_some, Option.some.injEq, Job.what, Prod.mk.injEq] at this
      rw [← this.1]
      rfl
    have hmem : (received 0 tr)[i] ∈ recvs 0 h := by rw [← r1]; exact List.getElem_mem hlt
    rcases si.finished _ hmem with hq | ⟨k, y, hy, hyj⟩ | hp
    · rw [t1] at hq; cases hq
    · obtain ⟨en, rfl⟩ := t2 y (List.mem_of_getElem? hy)
      cases hyj
    · rw [hid, msgs_mine, e1] at hp
      obtain ⟨rs, p1, p2, p3, p4⟩ := hp
      rw [hreq] at p2 p4
      refine ⟨rs, p2, p3, ?_, ?_⟩
      · rw [messagesFor_eq]; exact p1
      · rw [hrep]; exact p4 (hok x (List.mem_of_getElem? hi)).fits.cookie
  obtain ⟨tl, q1, _, _, q4⟩ := hL.reqs
  rw [q4 (.inr hov), hlen] at q1
  generalize hkeep : has settings.ex.flags F_DATALOG = keep at hL q1 hset hk ⊢
  -- every piece is a record
  have hbye : ∀ r ∈ fin, (Record.request r []).Ok keep := by
    intro r hr
    have h := hfin r hr
    exact ⟨h.fits, h.magic, by rw [h.disc]; simp⟩
  have hpiece : ∀ p ∈ L, ∃ x : Record, x.Ok keep ∧ p.bs = x.encode ∧ x.isRequest = !p.rep ∧ (p.rep = true → p.num < ss.length) := by
    intro p hp
    cases hpr : p.rep with
    | false =>
      have hm : p ∈ L.filter (fun x => !x.rep) := List.mem_filter.mpr ⟨hp, by rw [hpr]; rfl⟩
      rw [q1, asked_all, List.mem_append] at hm
      rcases hm with hm | hm
      · obtain ⟨i, hi, rfl⟩ := List.mem_mapIdx.mp hm
        exact ⟨_, request_ok (hok _ (List.getElem_mem hi)), rfl, rfl, by simp⟩
      · cases fin with
        | none => cases hm
        | some r =>
          rw [byePiece, List.mem_singleton] at hm
          subst hm
          exact ⟨_, hbye r rfl, by simp [Record.encode], rfl, by simp⟩
    | true =>
      have hm : p.bs ∈ repliesIn p.num L := List.mem_map_of_mem (List.mem_filter.mpr ⟨hp, by simp [hpr]⟩)
      have hlt : p.num < ss.length := by
        by_cases hlt : p.num < ss.length
        · exact hlt
        · rw [hL.fresh p.num (by omega)] at hm
          cases hm
      obtain ⟨rs, a1, a2, _, a4⟩ := hans p.num _ (List.getElem?_eq_getElem hlt)
      rw [a4] at hm
      obtain ⟨r, hr, hb⟩ := List.mem_map.mp hm
      have := reply_ok (keep := keep) (a2 r hr) (by
        rw [a1.cookie r hr]; exact (hok _ (List.getElem_mem hlt)).fits.cookie)
      exact ⟨r.record, this.1, hb.symm, this.2, fun _ => hlt⟩
  have hrec : ∀ p ∈ L, (recOf keep p.bs).Ok keep ∧ (recOf keep p.bs).encode = p.bs ∧
      (recOf keep p.bs).isRequest = !p.rep := by
    intro p hp
    obtain ⟨x, x1, x2, x3, _⟩ := hpiece p hp
    rw [x2, recOf_encode x1]
    exact ⟨x1, rfl, x3⟩
  have hbytes := pieces_bytes keep L (fun p hp => (hrec p hp).2.1)
  have hfile := hL.file
  rw [hset.2, ← hbytes] at hfile
  have hokr : ∀ x ∈ L.map (fun p => recOf keep p.bs), x.Ok keep := by
    intro x hx'
    obtain ⟨p, hp, rfl⟩ := List.mem_map.mp hx'
    exact (hrec p hp).1
  refine ⟨L.map fun p => (p.num, recOf keep p.bs), ?_, ?_, ?_, ?_, ?_⟩
  · rw [List.map_map, hfile]
    cases keep with
    | false => simpa [Function.comp_def] using readLog_records _ _ hokr
    | true =>
      simp only [if_true]
      rw [readLog_dataOn, readLog_records _ _ hokr]
      rfl
  · rw [List.map_map, hfile]
    cases keep with
    | false => simpa [Function.comp_def] using trdump_records e _ _ hokr
    | true =>
      simp only [if_true]
      rw [trdump_dataOn, trdump_records e _ _ hokr]
      rfl
  · rw [List.filter_map]
    have : L.filter ((fun x : Nat × Record => x.2.isRequest) ∘ fun p => (p.num, recOf keep p.bs)) = L.filter (fun x => !x.rep) :=
      List.filter_congr (fun p hp => (hrec p hp).2.2)
    rw [this, q1, asked_all, List.map_append]
    congr 1
    · apply List.ext_getElem
      · simp
      · intro i h1 h2
        simp only [List.getElem_map, List.getElem_mapIdx]
        have hi : i < ss.length := by simpa using h1
        have := recOf_encode (request_ok (keep := keep) (hok _ (List.getElem_mem hi)))
        exact congrArg (Prod.mk i) this
    · cases fin with
      | none => rfl
      | some r =>
        have := recOf_encode (hbye r rfl)
        simp only [Record.encode, List.append_nil] at this
        simp [byePiece, closingRecords, this]
  · intro x hx' hxr
    obtain ⟨p, hp, rfl⟩ := List.mem_map.mp hx'
    obtain ⟨y, _, _, _, y4⟩ := hpiece p hp
    have := (hrec p hp).2.2
    rw [hxr] at this
    exact y4 (by simpa using this.symm)
  · intro i x hi
    obtain ⟨rs, a1, a2, a3, a4⟩ := hans i x hi
    refine ⟨rs, a1, a3, ?_⟩
    have hlt := (List.getElem?_eq_some_iff.mp hi).1
    have hf : (L.filter fun x => !x.rep && x.num == i) = [⟨i, false, x.req.encode ++ if keep then x.data else []⟩] := by
      have : (L.filter fun x => !x.rep && x.num == i) = (L.filter (fun x => !x.rep)).filter (fun x => x.num == i) := by
        rw [List.filter_filter]
        exact List.filter_congr (fun p _ => Bool.and_comm _ _)
      rw [this, q1, List.filter_append, asked_filter keep ss i hi _ (Nat.le_refl _), if_pos hlt]
      have hb : (byePiece ss.length fin).filter (fun x => x.num == i) = [] := by
        cases fin with
        | none => rfl
        | some r => simp [byePiece]; omega
      rw [hb, List.append_nil]
    rw [List.filter_map]
    have h1 : L.filter ((fun y : Nat × Record => y.1 == i) ∘ fun p => (p.num, recOf keep p.bs)) =
        L.filter (fun x => x.num == i) := rfl
    rw [h1, hL.after i, hf, List.map_append, List.map_cons, List.map_nil]
    have h2 : (L.filter fun x => x.rep && x.num == i).map (fun p => (p.num, recOf keep p.bs)) =
        (repliesIn i L).map fun b => (i, recOf keep b) := by
      unfold repliesIn
      rw [List.map_map]
      refine List.map_congr_left ?_
      intro p hp
      have := (List.mem_filter.mp hp).2
      simp only [Bool.and_eq_true, beq_iff_eq] at this
      simp [this.2]
    rw [h2, a4, List.map_map]
    have h3 := recOf_encode (request_ok (keep := keep) (hok _ (List.mem_of_getElem? hi)))
    simp only [Record.encode] at h3
    rw [h3, List.singleton_append]
    congr 1
    refine List.map_congr_left ?_
    intro r hr
    have := recOf_encode (reply_ok (keep := keep) (a2 r hr) (by
      rw [a1.cookie r hr]; exact (hok _ (List.mem_of_getElem? hi)).fits.cookie)).1
    simp only [Function.comp_apply, this]

/-- **C40** at every moment of such a session, also when the process dies then. The log consists of pieces about requests and
headers of replies; of the replies to one request, in their order, the log has exactly those that were sent, except that
* the last one in the log may not have been sent yet (it is a simple reply);
* the last one sent may not be in the log yet (it is a chunk of a structured reply: its header has 20 bytes).
So a client that has received a simple reply finds it in the log. -/
theorem C40_log_first_partial (e : Endian) (cl settings : Client) (w : World) (ss : List Sent) (hok : ∀ x ∈ ss, x.Ok)
    (fin : Option Request) (hfin : ∀ r ∈ fin, r.IsDisc) (pre : List Byte) (errnos : List Nat)
    (T : System (Client × World)) (tr : List (Nat × Ext))
    (hx : Exec (fun _ => anyServer e settings true)
      ⟨⟨(cl, w), none, pre⟩, [Session.fresh (ss.flatMap Sent.encode ++ closing fin) errnos pre.length]⟩ tr T) :
    ∃ L : List Piece, T.sh.file = pre ++ L.flatMap Piece.bs ∧
      ∀ i, ∃ logged sent : List (List Byte), logged = (L.filter fun x => x.rep && x.num == i).map Piece.bs ∧
        sent = (sentFor 0 i tr).map Msg.hdr ∧
        (logged = sent ∨ (∃ h, logged = sent ++ [h] ∧ h.length ≠ 20) ∨ ∃ h, sent = logged ++ [h] ∧ h.length = 20) := by
  obtain ⟨t, L, _, hL⟩ := hx.logged (anyServer_notes e settings true) rfl (fun en j _ => anyServer_logs e settings en j.req j.payload)
    (anyServer_reads e settings true fin hfin) hok hfin
  refine ⟨L, hL.file, fun i => ⟨_, _, rfl, rfl, ?_⟩⟩
  by_cases hh : ∃ (k : Nat) (x : Worker (Client × World)) (j : Job), t.workers[k]? = some x ∧ x.job = some j ∧ j.id = i
  · obtain ⟨k, x, j, h1, h2, rfl⟩ := hh
    obtain ⟨o, _, ho⟩ := hL.held k x j h1 h2
    cases o with
    | nothing => exact .inl ho
    | send h => exact .inr (.inl ⟨h, ho⟩)
    | log h => exact .inr (.inr ⟨h, ho⟩)
  · exact .inl (hL.rest i (fun k x j h1 h2 h3 => hh ⟨k, x, j, h1, h2, h3⟩))

/-- A write, a read, a flush and another write, sent at once. -/
def noteSent : List Sent :=
  [Demo.write 4 [10, 11, 12, 13], Demo.request 0 2 4, Demo.request 3 0 0, Demo.write 8 [20, 21]]

/-- An execution as in `C40_threads_partial`: three threads, data logging, structured replies. It ends in order; the
messages for the read come between and after those for the other requests, and the log is read back whole. -/
example : ∃ tr T, Exec (fun _ => anyServer .little (logClient true) true)
      ⟨⟨(logClient true, Demo.world), none, (setupLog .little (logClient true).ex.flags []).file⟩,
        [Session.fresh (noteSent.flatMap Sent.encode ++ closing (some logBye)) [0, 0, 0]
          (setupLog .little (logClient true).ex.flags []).pos]⟩ tr T ∧
    ((T.sessions.map (fun s => decide (s.main = .over))) == [true] &&
      (messages 0 tr).map Prod.fst == [0, 1, 2, 3, 1, 1, 1] &&
      decide (readLog false T.sh.file = some
        [.dataOn, .request ⟨0x25609513, 1, Demo.cookie, 4, 4⟩ [10, 11, 12, 13], .request ⟨0x25609513, 0, Demo.cookie, 2, 4⟩ [],
         .request ⟨0x25609513, 3, Demo.cookie, 0, 0⟩ [], .reply 0 Demo.cookie, .request ⟨0x25609513, 1, Demo.cookie, 8, 2⟩ [20, 21],
         .reply 0 Demo.cookie, .request logBye [], .reply 0 Demo.cookie, .chunk 0 1 Demo.cookie 9, .chunk 0 1 Demo.cookie 10,
         .chunk 0 1 Demo.cookie 9, .chunk 1 0 Demo.cookie 0])) = true :=
  System.play_check _ _ (parTurns 90) _ (by decide +kernel)

end Props
end Nbd
