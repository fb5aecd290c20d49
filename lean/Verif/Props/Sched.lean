import Verif.SchedRun
import Verif.SchedTurn
import Verif.Demo
import Verif.TrLogLemmas
/-!
# Requests processed in parallel

* C23: replies are never interleaved: `C23_whole_replies`, `C23_every_request_answered`.
-/

set_option autoImplicit false

namespace Nbd

namespace Spec

/-- The messages of a session in the order of sending: number of the request they answer, and
bytes. -/
def messages (sid : Nat) (tr : List (Nat × Ext)) : List (Nat × List Byte) :=
  (sent sid tr).map fun x => (x.1, x.2.bytes)

/-- The messages for one request, in order. -/
def messagesFor (sid jid : Nat) (tr : List (Nat × Ext)) : List (List Byte) :=
  ((messages sid tr).filter (fun x => x.1 == jid)).map Prod.snd

end Spec

namespace Props
open Spec

theorem messagesFor_eq (sid jid : Nat) (tr : List (Nat × Ext)) :
    messagesFor sid jid tr = (sentFor sid jid tr).map Msg.bytes := by
  unfold messagesFor messages sentFor
  rw [List.filter_map, List.map_map, List.map_map]
  rfl

/-- What was done for a request includes a complete answer. -/
def Answered (j : Job) (l : List Act) : Prop :=
  ∃ rs, Encodes (Act.msgs l) rs ∧ Answer j.req.cookie rs

/-- What was done for a request includes the beginning of an answer, or a complete one. -/
def Begun (j : Job) (l : List Act) : Prop :=
  ∃ rs more, Encodes (Act.msgs l) rs ∧ Answer j.req.cookie (rs ++ more)

theorem Answered.begun {j : Job} {l : List Act} (h : Answered j l) : Begun j l := by
  obtain ⟨rs, h1, h2⟩ := h
  exact ⟨rs, [], h1, by rwa [List.append_nil]⟩

theorem Encodes.split {a b : List Msg} {rs : List Reply} (h : Encodes (a ++ b) rs) :
    ∃ r1 r2, rs = r1 ++ r2 ∧ Encodes a r1 ∧ Encodes b r2 := by
  unfold Encodes at h
  rw [List.map_append] at h
  obtain ⟨r1, r2, h1, h2, h3⟩ := List.map_eq_append_iff.mp h.symm
  exact ⟨r1, r2, h1, h2.symm, h3.symm⟩

theorem sendWhole_good {lg : Bool} {en : Nat}
    (view : Client × World → Flat) (j : Job) (rs : List Reply) (ha : Answer j.req.cookie rs)
    (rest : List Msg) (l : List Act) (h : Encodes (Act.msgs l ++ rest) rs) :
    (wholeP.sendWhole lg rest en).Good view (Answered j) (Begun j) l := by
  have hb : ∀ (rest : List Msg) (l : List Act), Encodes (Act.msgs l ++ rest) rs → Begun j l := by
    intro rest l h
    obtain ⟨r1, r2, h1, h2, h3⟩ := Encodes.split h
    exact ⟨r1, r2, h2, by rw [← h1]; exact ha⟩
  induction rest generalizing l with
  | nil =>
    rw [List.append_nil] at h
    exact ⟨rs, h, ha⟩
  | cons m ms ih =>
    have h' : Encodes (Act.msgs (l ++ [.msg m]) ++ ms) rs := by
      rw [msgs_append]
      simpa [Act.msgs] using h
    have q1 := hb _ _ h
    have q2 := hb _ _ h'
    unfold wholeP.sendWhole sendChunkP sendReplyP
    split
    · refine ⟨q1, ?_⟩
      split
      · exact ⟨q2, ih _ h'⟩
      · exact ih _ h'
    · split
      · exact ⟨q1, q1, ih _ h'⟩
      · exact ⟨q1, ih _ h'⟩

theorem begun_nil (j : Job) : Begun j [] :=
  ⟨[], [doneChunk j.req.cookie], rfl, Answer.single rfl rfl⟩

/-- The code for any kind of export answers every request once. -/
theorem anyServer_meets (e : Endian) (cl : Client) (lg : Bool) :
    (anyServer e cl lg).Meets (fun _ _ => 0) (fun _ => True) Answered Begun := by
  refine ⟨fun _ _ _ _ _ _ _ _ => trivial, ?_, fun _ _ _ _ _ => rfl, fun _ _ h => h.begun⟩
  intro en j _
  refine ⟨begun_nil j, ?_⟩
  intro s s' a hf
  refine ⟨[], (by simp [Quiet]), .nil _, ?_⟩
  rw [List.append_nil]
  dsimp only at hf ⊢
  split at hf
  · cases hf
  · cases hf
  · rename_i cl' w' msgs hq
    cases hf
    obtain ⟨rs, h1, h2⟩ := handleRequest_answer _ _ _ _ _ _ _ _ hq
    exact sendWhole_good _ j rs h2 msgs [] h1

theorem fetch_stops (e : Endian) (cl : Client) (w w' : World) (fin : Option Request)
    (hfin : ∀ r ∈ fin, r.IsDisc) (x : Fetched) (h : fetch e cl w (closing fin) = .val (w', x)) :
    x = .gone ∨ ∃ rest, x = .disc rest := by
  cases fin with
  | none => cases h; exact .inl rfl
  | some r =>
    obtain ⟨hfit, hm, hd⟩ := hfin r rfl
    have h28 : r.encode.length = 28 := by simp [Spec.Request.encode, hfit.cookie]
    have ht : r.encode.take 28 = r.encode := List.take_of_length_le (by omega)
    have hdec := Request.decode_encode r hfit
    have h1 : (loadReq e r.encode).type = 2 := by
      have := ntohl_load32 e ((r.encode.drop 4).take 4) (by simp [h28])
      have h2 : (loadReq e r.encode).type = (Spec.Request.decode r.encode).type := this
      rw [h2, hdec, hd]
    change fetch e cl w r.encode = _ at h
    unfold fetch at h
    rw [if_neg (by omega), ht] at h
    dsimp only at h
    rw [h1] at h
    split at h
    · cases h; exact .inl rfl
    · rw [if_neg (by decide), if_pos (by decide)] at h
      cases h
      exact .inr ⟨_, rfl⟩

theorem anyServer_reads (e : Endian) (cl : Client) (lg : Bool) (fin : Option Request)
    (hfin : ∀ r ∈ fin, r.IsDisc) : (anyServer e cl lg).Reads (closing fin) := by
  constructor
  · intro st s rest hs
    show (match fetch e st.1 st.2 (s.encode ++ rest) with
      | .ub => Out.ub
      | .exit => .exit
      | .val (w, f) => .val ((st.1, w), f)) = .ub ∨ ∃ st' p, p.bytes = s.data ∧
        (match fetch e st.1 st.2 (s.encode ++ rest) with
        | .ub => Out.ub
        | .exit => .exit
        | .val (w, f) => .val ((st.1, w), f)) = .val (st', .push (reqOf e s) p rest)
    rcases fetch_sent e st.1 st.2 s hs rest with ⟨h, _⟩ | ⟨w', p, h, _, _, _, hp, _⟩
    · left; rw [h]
    · right; rw [h]; exact ⟨_, p, hp, rfl⟩
  · intro st st' x h
    change (match fetch e st.1 st.2 (closing fin) with
      | .ub => Out.ub
      | .exit => .exit
      | .val (w, f) => .val ((st.1, w), f)) = .val (st', x) at h
    split at h
    · cases h
    · cases h
    · rename_i w f hq
      cases h
      exact fetch_stops _ _ _ _ _ hfin _ hq

/-- The replies of any server whose code answers each request once. -/
theorem whole_replies {σ : Type} (v : Nat → Server σ) (view : σ → Flat) (J : Nat → Job → Prop)
    (P Q : Nat → Job → List Act → Prop) (hv : ∀ sid, (v sid).Meets view (J sid) (P sid) (Q sid))
    (hP : ∀ sid j l, P sid j l → Answered j l) (hQ : ∀ sid j l, Q sid j l → Begun j l)
    (S T : System σ) (tr : List (Nat × Ext)) (hf : ∀ s ∈ S.sessions, s.Fresh)
    (hx : Exec v S tr T) (sid : Nat) (s : Session σ) (hs : T.sessions[sid]? = some s) :
    (∃ part, s.sock = ((messages sid tr).map Prod.snd).flatten ++ part ∧
      (part = [] ∨ ∃ j ∈ received sid tr, ∃ rs r more rest,
        messagesFor sid j.id tr = rs.map Reply.encode ∧
        Answer j.req.cookie (rs ++ r :: more) ∧ r.encode = part ++ rest) ∧
      (s.main = .over → part = [])) ∧
    (∀ x ∈ messages sid tr, ∃ j ∈ received sid tr, j.id = x.1) ∧
    (received sid tr).map Job.id = List.range (received sid tr).length ∧
    (∀ j ∈ received sid tr, ∃ rs more, messagesFor sid j.id tr = rs.map Reply.encode ∧
      Answer j.req.cookie (rs ++ more) ∧ (s.main = .over → more = [])) := by
  obtain ⟨h, e1, e2, e3, e4, e5⟩ := hx.inv hv hf
  have hi := e5 sid s hs
  have htidy := hx.tidy hf sid s hs
  have r1 : received sid tr = recvs sid h := by rw [← e1, recvs_visible]
  have r2 : ∀ jid, messagesFor sid jid tr = (Act.msgs (mine sid jid h)).map Msg.bytes := by
    intro jid; rw [msgs_mine, e1, messagesFor_eq]
  have r3 : wireOf sid h = ((messages sid tr).map Prod.snd).flatten := by
    unfold wireOf messages
    rw [← e1, sends_visible, List.map_map, List.flatMap_def]
    rfl
  have hn : s.count = (recvs sid h).length := by
    have := congrArg List.length hi.ids
    simpa using this.symm
  obtain ⟨n, b1, b2, b3⟩ := hi.started
  have hperm : ∀ j ∈ recvs sid h, Begun j (mine sid j.id h) := by
    intro j hj
    rcases hi.finished j hj with hq | ⟨i, x, hx', hxj⟩ | hp
    · rw [(hi.queued j hq).2]; exact begun_nil j
    · have := b3 i x hx'
      cases x with
      | idle en => cases hxj
      | busy j0 p => cases hxj; exact hQ _ _ _ (this.2.2.2.permitted ((hv sid).weaken j))
      | sending j0 m rest k => cases hxj; exact hQ _ _ _ this.2.2.2.1
    · exact (hP _ _ _ hp).begun
  refine ⟨?_, ?_, ?_, ?_⟩
  · cases hl : s.lock with
    | none => exact ⟨[], by rw [List.append_nil, ← r3]; exact hi.free hl, .inl rfl, fun _ => rfl⟩
    | some i =>
      have hlt := hi.locked i hl
      have hw := b3 i _ (List.getElem?_eq_getElem hlt)
      cases hx' : s.workers[i] with
      | idle en => rw [hx'] at hw; exact absurd hl hw
      | busy j p => rw [hx'] at hw; exact absurd hl hw.1
      | sending j m rest k =>
        rw [hx'] at hw
        obtain ⟨_, w2, _, w4, w5, part, w6, w7⟩ := hw
        refine ⟨part, by rw [← r3]; exact w7, .inr ⟨j, by rw [r1]; exact w2, ?_⟩, ?_⟩
        · obtain ⟨rs, more, q1, q2⟩ := hQ _ _ _ (w5.permitted ((hv sid).weaken j))
          rw [msgs_append] at q1
          obtain ⟨a, b, rfl, q3, q4⟩ := Encodes.split q1
          unfold Encodes at q3 q4
          cases b with
          | nil => simp [Act.msgs] at q4
          | cons r b =>
            simp only [Act.msgs, List.map_cons, List.map_nil, List.cons.injEq] at q4
            obtain ⟨q5, q6⟩ := q4
            have hb : b = [] := List.map_eq_nil_iff.mp q6.symm
            subst hb
            refine ⟨a, r, more, rest, by rw [r2, q3], ?_, by rw [← q5, w6]⟩
            simpa using q2
        · intro hov
          obtain ⟨en, hen⟩ := (htidy hov).2 _ (List.getElem_mem hlt)
          rw [hx'] at hen
          cases hen
  · intro x hxm
    unfold messages at hxm
    rw [List.mem_map] at hxm
    obtain ⟨⟨jid, m⟩, hm, rfl⟩ := hxm
    rw [← e1, sends_visible] at hm
    have : jid < s.count := by
      by_cases hlt : jid < s.count
      · exact hlt
      · exfalso
        have hnil := hi.unread jid (by omega)
        have hm2 : m ∈ sentFor sid jid (visible h) := by
          unfold sentFor
          rw [sends_visible, List.mem_map]
          exact ⟨(jid, m), List.mem_filter.mpr ⟨hm, by simp⟩, rfl⟩
        rw [← msgs_mine, hnil] at hm2
        cases hm2
    have hmem : jid ∈ (recvs sid h).map Job.id := by rw [hi.ids]; exact List.mem_range.mpr this
    obtain ⟨j, hj, hid⟩ := List.mem_map.mp hmem
    exact ⟨j, by rw [r1]; exact hj, hid⟩
  · rw [r1, hi.ids, hn]
  · intro j hj
    rw [r1] at hj
    by_cases hov : s.main = .over
    · obtain ⟨t1, t2⟩ := htidy hov
      rcases hi.finished j hj with hq | ⟨i, x, hx', hxj⟩ | hp
      · rw [t1] at hq; cases hq
      · obtain ⟨en, rfl⟩ := t2 x (List.mem_of_getElem? hx')
        cases hxj
      · obtain ⟨rs, q1, q2⟩ := hP _ _ _ hp
        exact ⟨rs, [], by rw [r2]; exact q1, by rwa [List.append_nil], fun _ => rfl⟩
    · obtain ⟨rs, more, q1, q2⟩ := hperm j hj
      exact ⟨rs, more, by rw [r2]; exact q1, q2, fun hh => absurd hh hov⟩

/-- **C23.** Whatever the export, whatever a client sends, with any number of worker threads and
in any order of their steps, and however the kernel splits the writes: what has been written to
the connection is a sequence of whole messages, followed by at most an initial part of one more.
Each message belongs to one request that was read before, and the messages for each request, in
their order, are the beginning of an answer to it (`Answer`: its cookie, and only the last message
is final); the one in progress is the next message of such an answer. When the session has ended
in order, nothing is in progress and every request read has its complete answer. -/
theorem C23_whole_replies (e : Endian) (cl settings : Client) (lg : Bool) (w : World)
    (log stream : List Byte) (errnos : List Nat) (pos : Nat) (T : System (Client × World))
    (tr : List (Nat × Ext))
    (hx : Exec (fun _ => anyServer e settings lg)
      ⟨⟨(cl, w), none, log⟩, [Session.fresh stream errnos pos]⟩ tr T)
    (s : Session (Client × World)) (hs : T.sessions[0]? = some s) :
    (∃ part, s.sock = ((messages 0 tr).map Prod.snd).flatten ++ part ∧
      (part = [] ∨ ∃ j ∈ received 0 tr, ∃ rs r more rest,
        messagesFor 0 j.id tr = rs.map Reply.encode ∧
        Answer j.req.cookie (rs ++ r :: more) ∧ r.encode = part ++ rest) ∧
      (s.main = .over → part = [])) ∧
    (∀ x ∈ messages 0 tr, ∃ j ∈ received 0 tr, j.id = x.1) ∧
    (received 0 tr).map Job.id = List.range (received 0 tr).length ∧
    (∀ j ∈ received 0 tr, ∃ rs more, messagesFor 0 j.id tr = rs.map Reply.encode ∧
      Answer j.req.cookie (rs ++ more) ∧ (s.main = .over → more = [])) :=
  whole_replies (fun _ => anyServer e settings lg) (fun _ _ => 0) (fun _ _ => True)
    (fun _ => Answered) (fun _ => Begun) (fun _ => anyServer_meets e settings lg)
    (fun _ _ _ h => h) (fun _ _ _ h => h) _ T tr
    (by intro s hs; rw [List.mem_singleton] at hs; exact ⟨stream, errnos, pos, hs⟩) hx 0 s hs

/-- **C23.** The same in terms of what the client sends: it sends the requests `ss` without waiting
for replies, then closes. When the session has ended in order, the server has sent whole messages
only, and those numbered `i` are a complete answer to the `i`-th request. -/
theorem C23_every_request_answered (e : Endian) (cl settings : Client) (lg : Bool) (w : World)
    (log : List Byte) (ss : List Sent) (hok : ∀ s ∈ ss, s.Ok) (fin : Option Request)
    (hfin : ∀ r ∈ fin, r.IsDisc) (errnos : List Nat) (pos : Nat) (T : System (Client × World))
    (tr : List (Nat × Ext))
    (hx : Exec (fun _ => anyServer e settings lg)
      ⟨⟨(cl, w), none, log⟩,
        [Session.fresh (ss.flatMap Sent.encode ++ closing fin) errnos pos]⟩ tr T)
    (s : Session (Client × World)) (hs : T.sessions[0]? = some s) (hov : s.main = .over) :
    s.sock = ((messages 0 tr).map Prod.snd).flatten ∧
    (∀ x ∈ messages 0 tr, x.1 < ss.length) ∧
    (∀ (i : Nat) (x : Sent), ss[i]? = some x → ∃ rs, Answer x.req.cookie rs ∧
      messagesFor 0 i tr = rs.map Reply.encode) := by
  obtain ⟨⟨part, h1, _, h3⟩, h4, h5, h6⟩ := C23_whole_replies e cl settings lg w log _ errnos pos
    T tr hx s hs
  obtain ⟨t, ht, hfo⟩ := hx.follows (sid := 0) (ss := ss) (tail := closing fin)
    (anyServer_reads e settings lg fin hfin) hok ⟨errnos, pos, rfl⟩
  rw [hs] at ht
  cases ht
  have hlen := hfo.all (.inr hov)
  have hread := hfo.read
  rw [hlen, List.take_length] at hread
  refine ⟨by rw [h1, h3 hov, List.append_nil], ?_, ?_⟩
  · intro x hxm
    obtain ⟨j, hj, hid⟩ := h4 x hxm
    have : j.id ∈ (received 0 tr).map Job.id := List.mem_map_of_mem hj
    rw [h5, hlen, List.mem_range] at this
    omega
  · intro i x hi
    have hlt : i < (received 0 tr).length := by
      rw [hlen]; exact (List.getElem?_eq_some_iff.mp hi).1
    have hid : (received 0 tr)[i].id = i := by
      have : ((received 0 tr).map Job.id)[i]? = some (received 0 tr)[i].id := by
        rw [List.getElem?_map, List.getElem?_eq_getElem hlt]; rfl
      rw [h5, List.getElem?_range hlt] at this
      exact (Option.some.inj this).symm
    have hreq : (received 0 tr)[i].req.cookie = x.req.cookie := by
      have : ((received 0 tr).map Job.what)[i]? = some (received 0 tr)[i].what := by
        rw [List.getElem?_map, List.getElem?_eq_getElem hlt]; rfl
      rw [hread, List.getElem?_map, hi] at this
      simp only [Option.map_some, Option.some.injEq, Job.what, Prod.mk.injEq] at this
      rw [← this.1]
      rfl
    obtain ⟨rs, more, q1, q2, q3⟩ := h6 _ (List.getElem_mem hlt)
    rw [hid] at q1
    rw [q3 hov, List.append_nil, hreq] at q2
    exact ⟨rs, q2, q1⟩

/-- A read of the whole export, a write inside it, a flush and another read, sent at once. -/
def parSent : List Sent :=
  [Demo.request 0 0 11, Demo.write 4 [10, 11, 12, 13], Demo.request 3 0 0, Demo.request 0 2 6]

def parBye : Request := ⟨0x25609513, 2, Demo.cookie, 0, 0⟩

/-- Three threads take turns with the main thread; the kernel accepts a few bytes at a time. -/
def parTurns (n : Nat) : List (Nat × Move) :=
  (List.replicate n [(0, .main), (0, .work 0 6), (0, .work 1 4), (0, .work 2 9)]).flatten

/-- An execution as in `C23_every_request_answered`: three threads, a structured read whose chunks
are sent while the other requests are dealt with. It ends in order, with thirteen messages, and the
messages of one request have those of others between them. -/
example : ∃ tr T, Exec (fun _ => anyServer .little (Demo.client true) false)
      ⟨⟨(Demo.client true, Demo.world), none, []⟩,
        [Session.fresh (parSent.flatMap Sent.encode ++ closing (some parBye)) [0, 0, 0] 0]⟩ tr T ∧
    ((T.sessions.map (fun s => decide (s.main = .over))) == [true] &&
      (messages 0 tr).map Prod.fst == [0, 1, 2, 0, 3, 0, 3, 0, 3, 0, 3, 0, 0]) = true :=
  System.play_check _ _ (parTurns 90) _ (by decide +kernel)

end Props
end Nbd
