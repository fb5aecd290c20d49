import Verif.SchedOne
import Verif.TrLogLemmas
/-! # What several worker threads write to the transaction log -/

set_option autoImplicit false

namespace Nbd

open Spec

/-- A piece of the log: which request it is about, whether it is a reply, and its bytes. (Models no code of its own.) -/
structure Piece where
  num : Nat
  rep : Bool
  bs : List Byte

/-- The header of a message that has been logged and is still to be sent, or the other way round. (Models no code of its own.) -/
inductive Owing where
  | nothing
  | send (h : List Byte)
  | log (h : List Byte)

/-- The program logs the header of every message it sends, once: that of a chunk right after sending it, that of a simple reply
right before. (Models no code of its own.) -/
def Prog.Logs {σ : Type} : Prog σ → Owing → Prop
  | .done _, o => o = .nothing
  | .op _ k, o => o = .nothing ∧ ∀ a, (k a).Logs .nothing
  | .send m k, o => (o = .nothing ∧ m.hdr.length = 20 ∧ k.Logs (.log m.hdr)) ∨ (o = .send m.hdr ∧ k.Logs .nothing)
  | .log bs k, o => (o = .nothing ∧ bs.length ≠ 20 ∧ k.Logs (.send bs)) ∨ (o = .log bs ∧ k.Logs .nothing)

/-- What a thread has still to do. (Models no code of its own.) -/
def Worker.Logs {σ : Type} : Worker σ → Owing → Prop
  | .idle _, _ => True
  | .busy _ p, o => p.Logs o
  | .sending _ m _ k, o => (Prog.send m k).Logs o

/-- The headers logged and those sent, of one request. (Models no code of its own.) -/
def Owing.Between (logged sent : List (List Byte)) : Owing → Prop
  | .nothing => logged = sent
  | .send h => logged = sent ++ [h] ∧ h.length ≠ 20
  | .log h => sent = logged ++ [h] ∧ h.length = 20

/-- The reply headers logged for a request. (Models no code of its own.) -/
def repliesIn (i : Nat) (L : List Piece) : List (List Byte) :=
  (L.filter fun x => x.rep && x.num == i).map Piece.bs

/-- The headers of the messages sent for a request. (Models no code of its own.) -/
def hdrsFor (i : Nat) (tr : List (Nat × Ext)) : List (List Byte) := (sentFor 0 i tr).map Msg.hdr

/-- The pieces about the first `n` requests. (Models no code of its own.) -/
def asked (keep : Bool) (ss : List Sent) (n : Nat) : List Piece :=
  (ss.take n).mapIdx fun i x => ⟨i, false, x.req.encode ++ if keep then x.data else []⟩

/-- The piece about the disconnect request. (Models no code of its own.) -/
def byePiece (n : Nat) : Option Request → List Piece
  | none => []
  | some r => [⟨n, false, r.encode⟩]

theorem repliesIn_append (i : Nat) (L M : List Piece) : repliesIn i (L ++ M) = repliesIn i L ++ repliesIn i M := by
  simp [repliesIn]

theorem hdrsFor_append (i : Nat) (a b : List (Nat × Ext)) : hdrsFor i (a ++ b) = hdrsFor i a ++ hdrsFor i b := by
  simp [hdrsFor, sentFor, sent_append]

/-- What is logged about a request comes before what is logged about its replies. (Models no code of its own.) -/
def Ordered (L : List Piece) : Prop :=
  ∀ i, L.filter (fun x => x.num == i) =
    L.filter (fun x => !x.rep && x.num == i) ++ L.filter (fun x => x.rep && x.num == i)

section
variable {σ : Type}

/-- What is in the log after the trace `tr`. (Models no code of its own.) -/
structure LogInv (keep : Bool) (pre : List Byte) (ss : List Sent) (fin : Option Request) (tr : List (Nat × Ext))
    (sh : Shared σ) (s : Session σ) (L : List Piece) : Prop where
  file : sh.file = pre ++ L.flatMap Piece.bs
  pos : s.main.alive = true → s.pos = sh.file.length
  reqs : ∃ tl, L.filter (fun x => !x.rep) = asked keep ss (received 0 tr).length ++ tl ∧
    (s.main = .reading → tl = []) ∧
    (s.main = .payload → sh.sem ≠ none ∧ keep = true ∧ ∃ x L0, ss[(received 0 tr).length]? = some x ∧
      tl = [⟨(received 0 tr).length, false, x.req.encode⟩] ∧ L = L0 ++ tl) ∧
    (s.main = .closing ∨ s.main = .over → tl = byePiece ss.length fin)
  after : Ordered L
  fresh : ∀ i, s.count ≤ i → repliesIn i L = []
  held : ∀ (k : Nat) x j, s.workers[k]? = some x → x.job = some j →
    ∃ o : Owing, x.Logs o ∧ o.Between (repliesIn j.id L) (hdrsFor j.id tr)
  rest : ∀ i, (∀ (k : Nat) x j, s.workers[k]? = some x → x.job = some j → j.id ≠ i) → repliesIn i L = hdrsFor i tr

theorem record_end {sh : Shared σ} {pos : Nat} (bs : List Byte) (h : pos = sh.file.length) :
    (sh.record pos bs).file = sh.file ++ bs := by
  subst h
  simp [Shared.record, Log.write]

/-- A request is added. -/
theorem Ordered.req {L : List Piece} {n : Nat} (bs : List Byte) (h : Ordered L) (hn : repliesIn n L = []) :
    Ordered (L ++ [⟨n, false, bs⟩]) := by
  intro i
  have hn' : L.filter (fun x => x.rep && x.num == n) = [] := List.map_eq_nil_iff.mp hn
  by_cases hi : n = i
  · subst hi
    rw [List.filter_append, List.filter_append, List.filter_append, h n, hn']
    simp
  · simp only [List.filter_append, h i]
    simp [hi]

/-- A reply is added. -/
theorem Ordered.rep {L : List Piece} {n : Nat} (bs : List Byte) (h : Ordered L) : Ordered (L ++ [⟨n, true, bs⟩]) := by
  intro i
  simp only [List.filter_append, h i]
  by_cases hi : n = i <;> simp [hi]

theorem repliesIn_req (i n : Nat) (L : List Piece) (bs : List Byte) : repliesIn i (L ++ [⟨n, false, bs⟩]) = repliesIn i L := by
  simp [repliesIn]

theorem repliesIn_rep (i n : Nat) (L : List Piece) (bs : List Byte) :
    repliesIn i (L ++ [⟨n, true, bs⟩]) = repliesIn i L ++ if n = i then [bs] else [] := by
  rw [repliesIn_append]
  by_cases hi : n = i <;> simp [repliesIn, hi]

theorem hdrsFor_recv (i : Nat) (tr : List (Nat × Ext)) (j : Job) : hdrsFor i (tr ++ [(0, .recv j)]) = hdrsFor i tr := by
  simp [hdrsFor, sentFor, sent_append, sent]

theorem hdrsFor_sent (i n : Nat) (tr : List (Nat × Ext)) (m : Msg) :
    hdrsFor i (tr ++ [(0, .sent n m)]) = hdrsFor i tr ++ if n = i then [m.hdr] else [] := by
  rw [hdrsFor_append]
  by_cases hi : n = i <;> simp [hdrsFor, sentFor, sent, hi]

theorem received_recv (tr : List (Nat × Ext)) (j : Job) : received 0 (tr ++ [(0, .recv j)]) = received 0 tr ++ [j] := by
  simp [received_append, received]

theorem received_sent (tr : List (Nat × Ext)) (n : Nat) (m : Msg) : received 0 (tr ++ [(0, .sent n m)]) = received 0 tr := by
  simp [received_append, received]

theorem asked_succ (keep : Bool) {ss : List Sent} {n : Nat} {x : Sent} (h : ss[n]? = some x) :
    asked keep ss (n + 1) = asked keep ss n ++ [⟨n, false, x.req.encode ++ if keep then x.data else []⟩] := by
  have hlt := (List.getElem?_eq_some_iff.mp h).1
  unfold asked
  rw [List.take_add_one, h]
  simp [List.mapIdx_append, Nat.min_eq_left (Nat.le_of_lt hlt)]

/-- Replacing one thread's state, when the log and the trace stay. -/
theorem LogInv.worker {keep : Bool} {pre : List Byte} {ss : List Sent} {fin : Option Request} {tr : List (Nat × Ext)}
    {sh sh' : Shared σ} {s s' : Session σ} {L : List Piece} (hi : LogInv keep pre ss fin tr sh s L) {i : Nat} {x y : Worker σ}
    (hw : s.workers[i]? = some x) (hw' : s'.workers = s.workers.set i y) (h1 : s'.main = s.main) (h2 : s'.pos = s.pos)
    (h3 : s'.count = s.count) (h4 : sh'.file = sh.file) (h5 : sh'.sem = sh.sem)
    (hjob : y.job = x.job) (hlogs : ∀ o, x.Logs o → y.Logs o) : LogInv keep pre ss fin tr sh' s' L := by
  obtain ⟨a, b, c, d, e, f, g⟩ := hi
  refine ⟨by rw [h4]; exact a, by rw [h1, h2, h4]; exact b, by rw [h1, h5]; exact c, d, by rw [h3]; exact e, ?_, ?_⟩
  · intro k z j hz hj
    rw [hw'] at hz
    rcases getElem?_set_cases hz with ⟨rfl, rfl⟩ | ⟨_, hz⟩
    · obtain ⟨o, o1, o2⟩ := f _ _ j hw (by rw [← hjob]; exact hj)
      exact ⟨o, hlogs o o1, o2⟩
    · exact f _ _ _ hz hj
  · intro n hn
    refine g n ?_
    intro k z j hz hj
    by_cases hk : k = i
    · subst hk
      rw [hw] at hz
      cases hz
      refine hn k y j ?_ (by rw [hjob]; exact hj)
      rw [hw', List.getElem?_set_self (List.getElem?_eq_some_iff.mp hw).1]
    · refine hn k z j ?_ hj
      rw [hw', List.getElem?_set_ne (Ne.symm hk)]
      exact hz

/-- A step of the main thread. -/
theorem LogInv.mainThread {keep : Bool} {pre : List Byte} {ss : List Sent} {fin : Option Request} {tr tr' : List (Nat × Ext)}
    {sh sh' : Shared σ} {s s' : Session σ} {L L' : List Piece} (hi : LogInv keep pre ss fin tr sh s L)
    (hw : s'.workers = s.workers) (hc : s.count ≤ s'.count) (htr : ∀ i, hdrsFor i tr' = hdrsFor i tr)
    (hL : ∀ i, repliesIn i L' = repliesIn i L) (ho : Ordered L') (hf : sh'.file = pre ++ L'.flatMap Piece.bs)
    (hp : s'.main.alive = true → s'.pos = sh'.file.length)
    (hr : ∃ tl, L'.filter (fun x => !x.rep) = asked keep ss (received 0 tr').length ++ tl ∧
      (s'.main = .reading → tl = []) ∧
      (s'.main = .payload → sh'.sem ≠ none ∧ keep = true ∧ ∃ x L0, ss[(received 0 tr').length]? = some x ∧
        tl = [⟨(received 0 tr').length, false, x.req.encode⟩] ∧ L' = L0 ++ tl) ∧
      (s'.main = .closing ∨ s'.main = .over → tl = byePiece ss.length fin)) :
    LogInv keep pre ss fin tr' sh' s' L' := by
  refine ⟨hf, hp, hr, ho, fun i h => by rw [hL]; exact hi.fresh i (by omega), ?_, ?_⟩
  · intro k x j hx hj
    rw [hw] at hx
    rw [hL, htr]
    exact hi.held k x j hx hj
  · intro i h
    rw [hL, htr]
    rw [hw] at h
    exact hi.rest i h

/-- What the session finds before it. -/
theorem Follows.next {v : Server σ} {ss : List Sent} {tail : List Byte} {got : List Job} {s : Session σ}
    (hf : Follows v ss tail got s) (hm : s.main = .reading ∨ s.main = .payload) :
    (∃ x, ss[got.length]? = some x ∧ s.stream = x.encode ++ ((ss.drop (got.length + 1)).flatMap Sent.encode ++ tail)) ∨
    (got.length = ss.length ∧ s.stream = tail) := by
  have hs := hf.left hm
  have hle := hf.le
  by_cases hlt : got.length < ss.length
  · left
    rw [List.drop_eq_getElem_cons hlt] at hs
    simp only [List.flatMap_cons, List.append_assoc] at hs
    exact ⟨_, List.getElem?_eq_getElem hlt, hs⟩
  · right
    rw [List.drop_eq_nil_of_le (by omega)] at hs
    exact ⟨by omega, hs⟩

theorem header_sent {v : Server σ} (hlog : v.logging = true) {x : Sent} (h : x.Ok) (rest : List Byte) :
    v.header (x.encode ++ rest) = x.req.encode := by
  have h28 := Sent.encode_length x h
  unfold Server.header
  rw [hlog, if_pos (by simp [Spec.Sent.encode, h28]), Spec.Sent.encode, List.append_assoc]
  exact List.take_left' h28

theorem header_closing {v : Server σ} (hlog : v.logging = true) (fin : Option Request) (hfin : ∀ r ∈ fin, r.IsDisc) :
    v.header (closing fin) = closing fin := by
  unfold Server.header
  cases fin with
  | none => simp [closing]
  | some r =>
    have h28 : r.encode.length = 28 := by simp [Spec.Request.encode, (hfin r rfl).fits.cookie]
    rw [hlog, if_pos (by simp [closing, h28])]
    exact List.take_of_length_le (by simp [closing, h28])

theorem byePiece_bytes (n : Nat) (fin : Option Request) : (byePiece n fin).flatMap Piece.bs = closing fin := by
  cases fin <;> simp [byePiece, closing]

theorem keeps_sent {v : Server σ} (hlog : v.logging = true) {x : Sent} (h : x.Ok) (rest : List Byte) :
    v.keeps (x.encode ++ rest) =
      (decide (x.req.type % 65536 = 1) && (has v.cl.ex.flags F_DATALOG && !has v.cl.ex.flags F_SPLICE)) := by
  have h28 := Sent.encode_length x h
  have ht : (x.encode ++ rest).take 28 = x.req.encode := by
    rw [Spec.Sent.encode, List.append_assoc]; exact List.take_left' h28
  have hl : 28 ≤ (x.encode ++ rest).length := by simp [Spec.Sent.encode, h28]
  unfold Server.keeps
  rw [hlog, ht, loadReq_encode v.e x h, decide_eq_true hl]
  simp [reqOf, CMD_WRITE, Bool.and_assoc]
  rfl

theorem keeps_closing {v : Server σ} (fin : Option Request) (hfin : ∀ r ∈ fin, r.IsDisc) : v.keeps (closing fin) = false := by
  unfold Server.keeps
  cases fin with
  | none => simp [closing]
  | some r =>
    obtain ⟨hfit, hm, hd⟩ := hfin r rfl
    have h28 : r.encode.length = 28 := by simp [Spec.Request.encode, hfit.cookie]
    have ht : (closing (some r)).take 28 = r.encode := List.take_of_length_le (by simp [closing, h28])
    have hdec := Request.decode_encode r hfit
    have h1 : (loadReq v.e r.encode).type = 2 := by
      have := ntohl_load32 v.e ((r.encode.drop 4).take 4) (by simp [h28])
      have h2 : (loadReq v.e r.encode).type = (Spec.Request.decode r.encode).type := this
      rw [h2, hdec, hd]
    rw [ht, h1]
    simp [CMD_WRITE]

/-- The main thread stops reading. -/
theorem LogInv.stops {keep : Bool} {pre : List Byte} {ss : List Sent} {fin : Option Request} {tr : List (Nat × Ext)}
    {v : Server σ} (hlog : v.logging = true) (hfin : ∀ r ∈ fin, r.IsDisc)
    {sh sh' : Shared σ} {s s' : Session σ} {L : List Piece} (hi : LogInv keep pre ss fin tr sh s L)
    (hcount : s.count = (received 0 tr).length) (hm : s.main = .reading) (hall : (received 0 tr).length = ss.length)
    (hst : s.stream = closing fin) (h1 : s'.main = .closing) (h2 : s'.workers = s.workers) (h3 : s'.count = s.count)
    (h4 : sh'.file = (sh.record s.pos (v.header s.stream)).file) (h5 : s'.pos = s.pos + (v.header s.stream).length) :
    ∃ L', LogInv keep pre ss fin tr sh' s' L' := by
  have hpos := hi.pos (by rw [hm]; rfl)
  obtain ⟨tl, r1, r2, _⟩ := hi.reqs
  have htl := r2 hm
  subst htl
  rw [hst, header_closing hlog fin hfin] at h4 h5
  rw [record_end _ hpos] at h4
  refine ⟨L ++ byePiece ss.length fin, hi.mainThread h2 (by omega) (fun _ => rfl) ?_ ?_ ?_ ?_ ?_⟩
  · intro i
    cases fin with
    | none => simp [byePiece]
    | some r => exact repliesIn_req _ _ _ _
  · cases fin with
    | none => simpa [byePiece] using hi.after
    | some r => exact hi.after.req _ (hi.fresh _ (by omega))
  · rw [h4, hi.file, List.flatMap_append, byePiece_bytes, List.append_assoc]
  · intro _
    rw [h5, h4, hpos, List.length_append]
  · refine ⟨byePiece ss.length fin, ?_, ?_, ?_, fun _ => rfl⟩
    · rw [List.filter_append, r1, List.append_nil]
      cases fin <;> simp [byePiece]
    · intro hh; rw [h1] at hh; cases hh
    · intro hh; rw [h1] at hh; cases hh

/-- The process ends, without having logged anything. -/
theorem LogInv.ends {keep : Bool} {pre : List Byte} {ss : List Sent} {fin : Option Request} {tr : List (Nat × Ext)}
    {sh : Shared σ} {s : Session σ} {L : List Piece} (hi : LogInv keep pre ss fin tr sh s L) {ph : Phase}
    (hph : ph = .dead ∨ ph = .broken) : LogInv keep pre ss fin tr sh { s with main := ph } L := by
  refine hi.mainThread rfl (Nat.le_refl _) (fun _ => rfl) (fun _ => rfl) hi.after hi.file ?_ ?_
  · intro h; rcases hph with rfl | rfl <;> cases h
  · obtain ⟨tl, r1, _⟩ := hi.reqs
    refine ⟨tl, r1, ?_, ?_, ?_⟩ <;> intro h <;> rcases hph with rfl | rfl <;> simp at h

/-- Every step of every thread keeps the log in order. -/
theorem LogInv.step {v : Server σ} {view : σ → Flat} {J : Job → Prop} {P Q : Job → List Act → Prop}
    {ss : List Sent} {fin : Option Request} (hlog : v.logging = true)
    (hcode : ∀ en j, J j → (v.code en j.req j.payload).Logs .nothing) (hr : v.Reads (closing fin)) (hok : ∀ x ∈ ss, x.Ok)
    (hfin : ∀ r ∈ fin, r.IsDisc) {pre : List Byte} {tr : List (Nat × Ext)} {h : List Ev} {sh sh' : Shared σ} {s s' : Session σ}
    {evs : List Ext} {L : List Piece} (hs : Step v 0 sh s evs sh' s') (hf : Follows v ss (closing fin) (received 0 tr) s)
    (hv : visible h = tr) (si : SInv view J P Q 0 h s)
    (hi : LogInv (has v.cl.ex.flags F_DATALOG && !has v.cl.ex.flags F_SPLICE) pre ss fin tr sh s L) :
    ∃ L', LogInv (has v.cl.ex.flags F_DATALOG && !has v.cl.ex.flags F_SPLICE) pre ss fin
      (tr ++ evs.map (fun x => (0, x))) sh' s' L' := by
  have hcount : s.count = (received 0 tr).length := by
    rw [← hv, recvs_visible]
    have := congrArg List.length si.ids
    simpa using this.symm
  generalize hk0 : (has v.cl.ex.flags F_DATALOG && !has v.cl.ex.flags F_SPLICE) = keep at hi ⊢
  obtain ⟨n, b1, b2, b3⟩ := si.started
  have hlt : ∀ (k : Nat) x j, s.workers[k]? = some x → x.job = some j → j.id < s.count := by
    intro k x j hx hj
    have := b3 k x hx
    cases x with
    | idle en => cases hj
    | busy j0 p => cases hj; have := this.2.2.1; omega
    | sending j0 m rest k => cases hj; have := this.2.2.1; omega
  cases hs with
  | accept st r p rest hm hk hsem ht =>
    have hpos := hi.pos (by rw [hm]; rfl)
    rcases hf.next (.inl hm) with ⟨x, hx, hst⟩ | ⟨_, hst⟩
    · have hxo := hok x (List.mem_of_getElem? hx)
      rw [hst, keeps_sent hlog hxo, hk0] at hk
      have hdata : (if keep then x.data else []) = [] := by
        cases keep with
        | false => rfl
        | true =>
          have hty : ¬ x.req.type % 65536 = 1 := by simpa using hk
          have := hxo.data
          rw [if_neg hty] at this
          exact List.length_eq_zero_iff.mp this
      obtain ⟨tl, r1, r2, _⟩ := hi.reqs
      have htl := r2 hm
      subst htl
      rw [List.append_nil] at r1
      have hhd : v.header s.stream = x.req.encode := by rw [hst]; exact header_sent hlog hxo _
      have hfile : (({ sh with st := st } : Shared σ).record s.pos (v.header s.stream)).file = sh.file ++ x.req.encode := by
        rw [hhd]; exact record_end (sh := { sh with st := st }) _ hpos
      simp only [List.map_cons, List.map_nil]
      refine ⟨L ++ [⟨s.count, false, x.req.encode⟩], hi.mainThread rfl (by simp) (fun i => hdrsFor_recv _ _ _)
        (fun i => repliesIn_req _ _ _ _) (hi.after.req _ (hi.fresh _ (Nat.le_refl _))) ?_ ?_ ?_⟩
      · rw [hfile, hi.file]; simp
      · intro _
        rw [hfile]
        simp [hpos, hhd]
      · refine ⟨[], ?_, fun _ => rfl, ?_, ?_⟩
        · rw [received_recv, List.length_append, List.length_singleton, asked_succ keep hx, hdata, List.append_nil,
            List.filter_append, r1, hcount]
          simp
        · intro hh; rw [show s.main = .payload from hh] at hm; cases hm
        · intro hh
          rcases hh with hh | hh
          · rw [show s.main = .closing from hh] at hm; cases hm
          · rw [show s.main = .over from hh] at hm; cases hm
    · rw [hst] at ht
      rcases hr.stop _ _ _ ht with hh | ⟨_, hh⟩ <;> cases hh
  | hold hm hk hsem =>
    have hpos := hi.pos (by rw [hm]; rfl)
    rcases hf.next (.inl hm) with ⟨x, hx, hst⟩ | ⟨_, hst⟩
    · have hxo := hok x (List.mem_of_getElem? hx)
      rw [hst, keeps_sent hlog hxo, hk0] at hk
      have hkeep : keep = true := by
        cases keep with
        | false => simp at hk
        | true => rfl
      obtain ⟨tl, r1, r2, _⟩ := hi.reqs
      have htl := r2 hm
      subst htl
      rw [List.append_nil] at r1
      have hhd : v.header s.stream = x.req.encode := by rw [hst]; exact header_sent hlog hxo _
      have hfile : (({ sh with sem := some 0 } : Shared σ).record s.pos (v.header s.stream)).file = sh.file ++ x.req.encode := by
        rw [hhd]; exact record_end (sh := { sh with sem := some 0 }) _ hpos
      simp only [List.map_nil, List.append_nil]
      refine ⟨L ++ [⟨s.count, false, x.req.encode⟩], hi.mainThread rfl (Nat.le_refl _) (fun i => rfl)
        (fun i => repliesIn_req _ _ _ _) (hi.after.req _ (hi.fresh _ (Nat.le_refl _))) ?_ ?_ ?_⟩
      · rw [hfile, hi.file]; simp
      · intro _
        rw [hfile]
        simp [hpos, hhd]
      · refine ⟨[⟨(received 0 tr).length, false, x.req.encode⟩], ?_, ?_, ?_, ?_⟩
        · rw [List.filter_append, r1, hcount]
          simp
        · intro hh; cases hh
        · intro _
          exact ⟨by simp [Shared.record], hkeep, x, L, hx, rfl, by rw [hcount]⟩
        · intro hh; rcases hh with hh | hh <;> cases hh
    · rw [hst, keeps_closing fin hfin] at hk
      cases hk
  | acceptData st r bs rest hm ht =>
    have hpos := hi.pos (by rw [hm]; rfl)
    obtain ⟨tl, r1, _, r3, _⟩ := hi.reqs
    obtain ⟨hsem, hkeep, x, L0, hx, htl, hL⟩ := r3 hm
    have hxo := hok x (List.mem_of_getElem? hx)
    subst hkeep
    have hbs : bs = x.data := by
      rcases hf.next (.inr hm) with ⟨x', hx', hst⟩ | ⟨hh, _⟩
      · rw [hx] at hx'
        cases hx'
        rw [hst] at ht
        rcases hr.request sh.st x _ hxo with hub | ⟨st2, p2, hp2, hq⟩
        · rw [hub] at ht; cases ht
        · rw [hq] at ht
          cases ht
          exact hp2
      · have := (List.getElem?_eq_some_iff.mp hx).1
        omega
    subst hbs
    subst htl
    subst hL
    have hpre := r1
    rw [List.filter_append] at hpre
    have hr0 : L0.filter (fun x => !x.rep) = asked true ss (received 0 tr).length := by
      simp only [List.filter_cons, List.filter_nil, Bool.not_false, if_true] at hpre
      exact List.append_cancel_right hpre
    have hrep : ∀ i, repliesIn i (L0 ++ [⟨(received 0 tr).length, false, x.req.encode⟩]) = repliesIn i L0 :=
      fun i => repliesIn_req _ _ _ _
    have hfile : (({ sh with st := st, sem := none } : Shared σ).record s.pos x.data).file = sh.file ++ x.data :=
      record_end (sh := { sh with st := st, sem := none }) _ hpos
    have ho : Ordered L0 := by
      intro i
      have := hi.after i
      by_cases hh : (received 0 tr).length = i
      · have hn : repliesIn i L0 = [] := by rw [← hrep]; exact hi.fresh i (by omega)
        have hn' : L0.filter (fun x => x.rep && x.num == i) = [] := List.map_eq_nil_iff.mp hn
        simp only [List.filter_append, hn', List.append_nil] at this ⊢
        simp [hh] at this
        simpa using this
      · simp only [List.filter_append] at this
        simpa [hh] using this
    simp only [List.map_cons, List.map_nil]
    refine ⟨L0 ++ [⟨(received 0 tr).length, false, x.req.encode ++ x.data⟩], hi.mainThread rfl (by simp) (fun i => hdrsFor_recv _ _ _)
      (fun i => by rw [repliesIn_req, hrep]) (ho.req _ (by rw [← hrep]; exact hi.fresh _ (by omega))) ?_ ?_ ?_⟩
    · rw [hfile, hi.file]; simp
    · intro _
      rw [hfile]
      simp [hpos]
    · refine ⟨[], ?_, fun _ => rfl, ?_, ?_⟩
      · rw [received_recv, List.length_append, List.length_singleton, asked_succ true hx, List.filter_append, hr0]
        simp
      · intro hh; cases hh
      · intro hh; rcases hh with hh | hh <;> cases hh
  | magic hm hb =>
    simp only [List.map_nil, List.append_nil]
    have hpos : s.pos = sh.file.length := by
      rcases hm with hm | hm
      · exact hi.pos (by rw [hm.1]; rfl)
      · exact hi.pos (by rw [hm]; rfl)
    obtain ⟨tl, r1, _⟩ := hi.reqs
    refine ⟨L ++ [⟨s.count, false, v.unlogged s⟩], hi.mainThread rfl (Nat.le_refl _) (fun i => rfl)
        (fun i => repliesIn_req _ _ _ _) (hi.after.req _ (hi.fresh _ (Nat.le_refl _))) ?_ ?_ ?_⟩
    · rw [record_end _ hpos, hi.file]; simp
    · intro hh; cases hh
    · refine ⟨tl ++ [⟨s.count, false, v.unlogged s⟩], ?_, ?_, ?_, ?_⟩
      · rw [List.filter_append, r1]; simp
      · intro hh; cases hh
      · intro hh; cases hh
      · intro hh; rcases hh with hh | hh <;> cases hh
  | gone st hm hb ht =>
    simp only [List.map_nil, List.append_nil]
    have hm' : s.main = .reading ∨ s.main = .payload := by
      rcases hm with hm | hm
      · exact .inl hm.1
      · exact .inr hm
    rcases hf.next hm' with ⟨x, hx, hst⟩ | ⟨hall, hst⟩
    · have hxo := hok x (List.mem_of_getElem? hx)
      rw [hst] at ht
      rcases hr.request sh.st x _ hxo with hub | ⟨st2, p2, hp2, hq⟩
      · rw [hub] at ht; cases ht
      · rw [hq] at ht; cases ht
    · rcases hm' with hm' | hm'
      · have hun : v.unlogged s = v.header s.stream := by unfold Server.unlogged; rw [if_pos hm']
        rw [hun]
        exact hi.stops hlog hfin hcount hm' hall hst rfl rfl rfl rfl rfl
      · obtain ⟨tl, _, _, r3, _⟩ := hi.reqs
        obtain ⟨_, _, x, _, hx, _⟩ := r3 hm'
        have := (List.getElem?_eq_some_iff.mp hx).1
        omega
  | disc st rest hm hk hsem ht =>
    simp only [List.map_nil, List.append_nil]
    rcases hf.next (.inl hm) with ⟨x, hx, hst⟩ | ⟨hall, hst⟩
    · have hxo := hok x (List.mem_of_getElem? hx)
      rw [hst] at ht
      rcases hr.request sh.st x _ hxo with hub | ⟨st2, p2, hp2, hq⟩
      · rw [hub] at ht; cases ht
      · rw [hq] at ht; cases ht
    · exact hi.stops hlog hfin hcount hm hall hst rfl rfl rfl rfl rfl
  | takeFails ph hm h =>
    simp only [List.map_nil, List.append_nil]
    exact ⟨L, hi.ends (by rcases h with ⟨_, rfl⟩ | ⟨_, rfl⟩ <;> simp)⟩
  | opFails i j f k ph ha hw h =>
    simp only [List.map_nil, List.append_nil]
    exact ⟨L, hi.ends (by rcases h with ⟨_, rfl⟩ | ⟨_, rfl⟩ <;> simp)⟩
  | close hm hq hw =>
    simp only [List.map_nil, List.append_nil]
    refine ⟨L, hi.mainThread rfl (Nat.le_refl _) (fun _ => rfl) (fun _ => rfl) hi.after hi.file ?_ ?_⟩
    · intro hh; cases hh
    · obtain ⟨tl, r1, _, _, r4⟩ := hi.reqs
      refine ⟨tl, r1, ?_, ?_, fun _ => r4 (.inl hm)⟩ <;> intro hh <;> cases hh
  | op i j f k st a ha hw hf' =>
    simp only [List.map_nil, List.append_nil]
    refine ⟨L, hi.worker hw rfl rfl rfl rfl rfl rfl rfl ?_⟩
    intro o ho
    obtain ⟨rfl, h2⟩ := (ho : (Prog.op f k).Logs o)
    exact h2 a
  | lock i j m k ha hw hl =>
    simp only [List.map_nil, List.append_nil]
    exact ⟨L, hi.worker hw rfl rfl rfl rfl rfl rfl rfl (fun o ho => ho)⟩
  | write i j m xs ys k ha hw hx hy =>
    simp only [List.map_nil, List.append_nil]
    exact ⟨L, hi.worker hw rfl rfl rfl rfl rfl rfl rfl (fun o ho => ho)⟩
  | start i en j q ha hw hq =>
    simp only [List.map_nil, List.append_nil]
    have hfree : ∀ (k : Nat) x j', s.workers[k]? = some x → x.job = some j' → j'.id ≠ j.id := by
      intro k x j' hx hj
      have h1 := b3 k x hx
      have h2 : j'.id < n := by
        cases x with
        | idle en => cases hj
        | busy j0 p => cases hj; exact h1.2.2.1
        | sending j0 m rest k => cases hj; exact h1.2.2.1
      rw [hq] at b2
      simp only [List.map_cons, List.length_cons, List.range'_succ, List.cons.injEq] at b2
      omega
    refine ⟨L, hi.file, hi.pos, hi.reqs, hi.after, hi.fresh, ?_, ?_⟩
    · intro k x j' hx hj
      rcases getElem?_set_cases hx with ⟨rfl, rfl⟩ | ⟨_, hx⟩
      · cases hj
        exact ⟨.nothing, hcode _ _ (si.wf _ (si.queued _ (by rw [hq]; exact List.mem_cons_self)).1), hi.rest _ hfree⟩
      · exact hi.held _ _ _ hx hj
    · intro m hm
      refine hi.rest m ?_
      intro k x j' hx hj
      by_cases hk : k = i
      · subst hk
        rw [hw] at hx
        cases hx
        cases hj
      · exact hm k x j' (by simp only; rw [List.getElem?_set_ne (Ne.symm hk)]; exact hx) hj
  | finish i j en ha hw =>
    simp only [List.map_nil, List.append_nil]
    refine ⟨L, hi.file, hi.pos, hi.reqs, hi.after, hi.fresh, ?_, ?_⟩
    · intro k x j' hx hj
      rcases getElem?_set_cases hx with ⟨rfl, rfl⟩ | ⟨_, hx⟩
      · cases hj
      · exact hi.held _ _ _ hx hj
    · intro m hm
      by_cases hjm : j.id = m
      · subst hjm
        obtain ⟨o, o1, o2⟩ := hi.held i _ j hw rfl
        have : o = .nothing := o1
        subst this
        exact o2
      · refine hi.rest m ?_
        intro k x j' hx hj
        by_cases hk : k = i
        · subst hk
          rw [hw] at hx
          cases hx
          cases hj
          exact hjm
        · exact hm k x j' (by simp only; rw [List.getElem?_set_ne (Ne.symm hk)]; exact hx) hj
  | unlock i j m rest k ha hw =>
    simp only [List.map_cons, List.map_nil]
    have hothers : ∀ (a : Nat) x j', a ≠ i → s.workers[a]? = some x → x.job = some j' → ¬ j.id = j'.id :=
      fun a x j' hne hx hj hh => hne (si.distinct a i x _ j' j hx hw hj rfl hh.symm)
    refine ⟨L, hi.file, hi.pos, by simp only [received_sent]; exact hi.reqs, hi.after, hi.fresh, ?_, ?_⟩
    · intro a x j' hx hj
      rcases getElem?_set_cases hx with ⟨rfl, rfl⟩ | ⟨hne, hx⟩
      · cases hj
        obtain ⟨o, o1, o2⟩ := hi.held _ _ j hw rfl
        rw [hdrsFor_sent, if_pos rfl]
        rcases (o1 : (Prog.send m k).Logs o) with ⟨rfl, h20, hk⟩ | ⟨rfl, hk⟩
        · exact ⟨_, hk, by rw [show repliesIn j.id L = hdrsFor j.id tr from o2], h20⟩
        · exact ⟨_, hk, o2.1⟩
      · obtain ⟨o, o1, o2⟩ := hi.held _ _ _ hx hj
        refine ⟨o, o1, ?_⟩
        rw [hdrsFor_sent, if_neg (hothers a x j' hne hx hj), List.append_nil]
        exact o2
    · intro n' hn
      have hne : ¬ j.id = n' := hn i _ j (by simp only; rw [List.getElem?_set_self (List.getElem?_eq_some_iff.mp hw).1]) rfl
      rw [hdrsFor_sent, if_neg hne, List.append_nil]
      refine hi.rest n' ?_
      intro a x j' hx hj
      by_cases hk : a = i
      · subst hk
        rw [hw] at hx
        cases hx
        cases hj
        exact hne
      · exact hn a x j' (by simp only; rw [List.getElem?_set_ne (Ne.symm hk)]; exact hx) hj
  | log i j bs k ha hw hsem =>
    simp only [List.map_nil, List.append_nil]
    have hothers : ∀ (a : Nat) x j', a ≠ i → s.workers[a]? = some x → x.job = some j' → ¬ j.id = j'.id :=
      fun a x j' hne hx hj hh => hne (si.distinct a i x _ j' j hx hw hj rfl hh.symm)
    have hpos := hi.pos ha
    have hjlt := hlt i _ j hw rfl
    refine ⟨L ++ [⟨j.id, true, bs⟩], ?_, ?_, ?_, hi.after.rep _, ?_, ?_, ?_⟩
    · rw [record_end _ hpos, hi.file]; simp
    · intro _
      rw [record_end _ hpos]
      simp [hpos]
    · obtain ⟨tl, r1, r2, r3, r4⟩ := hi.reqs
      refine ⟨tl, by rw [List.filter_append, r1]; simp, r2, ?_, r4⟩
      intro hh
      exact absurd hsem (r3 hh).1
    · intro m hm
      simp only at hm
      rw [repliesIn_rep, if_neg (by omega), List.append_nil]
      exact hi.fresh m hm
    · intro a x j' hx hj
      rcases getElem?_set_cases hx with ⟨rfl, rfl⟩ | ⟨hne, hx⟩
      · cases hj
        obtain ⟨o, o1, o2⟩ := hi.held _ _ j hw rfl
        rw [repliesIn_rep, if_pos rfl]
        rcases (o1 : (Prog.log bs k).Logs o) with ⟨rfl, h20, hk⟩ | ⟨rfl, hk⟩
        · exact ⟨_, hk, by rw [show repliesIn j.id L = hdrsFor j.id tr from o2], h20⟩
        · exact ⟨_, hk, o2.1.symm⟩
      · obtain ⟨o, o1, o2⟩ := hi.held _ _ _ hx hj
        refine ⟨o, o1, ?_⟩
        rw [repliesIn_rep, if_neg (hothers a x j' hne hx hj), List.append_nil]
        exact o2
    · intro n' hn
      have hne : ¬ j.id = n' := hn i _ j (by simp only; rw [List.getElem?_set_self (List.getElem?_eq_some_iff.mp hw).1]) rfl
      rw [repliesIn_rep, if_neg hne, List.append_nil]
      refine hi.rest n' ?_
      intro a x j' hx hj
      by_cases hk : a = i
      · subst hk
        rw [hw] at hx
        cases hx
        cases hj
        exact hne
      · exact hn a x j' (by simp only; rw [List.getElem?_set_ne (Ne.symm hk)]; exact hx) hj

/-- The log of a session alone on its log file, at every moment. -/
theorem Exec.logged {v : Server σ} {view : σ → Flat} {J : Job → Prop} {P Q : Job → List Act → Prop}
    (hv : v.Meets view J P Q) {ss : List Sent} {fin : Option Request} (hlog : v.logging = true)
    (hcode : ∀ en j, J j → (v.code en j.req j.payload).Logs .nothing) (hr : v.Reads (closing fin)) (hok : ∀ x ∈ ss, x.Ok)
    (hfin : ∀ r ∈ fin, r.IsDisc) {pre : List Byte} {st : σ} {errnos : List Nat} {tr : List (Nat × Ext)} {T : System σ}
    (hx : Exec (fun _ => v) ⟨⟨st, none, pre⟩, [Session.fresh (ss.flatMap Sent.encode ++ closing fin) errnos pre.length]⟩ tr T) :
    ∃ s L, T.sessions = [s] ∧
      LogInv (has v.cl.ex.flags F_DATALOG && !has v.cl.ex.flags F_SPLICE) pre ss fin tr T.sh s L := by
  have hfresh : ∀ s ∈ [Session.fresh (σ := σ) (ss.flatMap Sent.encode ++ closing fin) errnos pre.length], s.Fresh := by
    intro s hs; rw [List.mem_singleton] at hs; exact ⟨_, errnos, _, hs⟩
  induction hx with
  | nil =>
    refine ⟨_, [], rfl, by simp, fun _ => rfl, ⟨[], by simp [asked, received], fun _ => rfl, ?_, ?_⟩, ?_, ?_, ?_, ?_⟩
    · intro hh; cases hh
    · intro hh; rcases hh with hh | hh <;> cases hh
    · intro i; rfl
    · intro i _; rfl
    · intro k x j hx hj
      have := List.mem_of_getElem? hx
      simp only [Session.fresh, List.mem_map] at this
      obtain ⟨en, _, rfl⟩ := this
      cases hj
    · intro i _; rfl
  | step tr T sid s s' evs sh' h hs h1 ih =>
    obtain ⟨t, L, ht, hL⟩ := ih
    rw [ht] at hs
    have hsid : sid = 0 := by
      have := (List.getElem?_eq_some_iff.mp hs).1
      simpa using this
    subst hsid
    cases hs
    obtain ⟨hist, e1, _, _, _, e5⟩ := h.inv (fun _ => hv) hfresh
    obtain ⟨t, ht', hfo⟩ := h.follows (sid := 0) (ss := ss) (tail := closing fin) hr hok ⟨errnos, pre.length, rfl⟩
    rw [ht] at ht'
    cases ht'
    obtain ⟨L', hL'⟩ := hL.step hlog hcode hr hok hfin h1 hfo e1 (e5 0 s (by rw [ht]; rfl))
    exact ⟨s', L', by rw [ht]; rfl, hL'⟩

end

end Nbd
