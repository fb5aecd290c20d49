import Verif.SchedRun
import Verif.SchedSeq
/-!
# One session with one worker thread

With a single thread requests are worked on one at a time, in the order in which they arrive, whatever the main thread does in the
meantime. `OneInv` says so of every state an execution can be in.
-/

set_option autoImplicit false

namespace Nbd

open Spec

section
variable {σ : Type}

/-- Requests dealt with one after the other, each by running its program with nothing in between: the requests with the messages
sent for each, the state and the thread's `errno` at the end. -/
inductive Serial (v : Server σ) (st0 : σ) (en0 : Nat) : List (Job × List Msg) → σ → Nat → Prop where
  | nil : Serial v st0 en0 [] st0 en0
  | snoc (ds : List (Job × List Msg)) (st st' : σ) (en en' : Nat) (j : Job) (ms : List Msg) (h : Serial v st0 en0 ds st en)
      (hr : (v.code en j.req j.payload).run [] st = .val (st', ms, en')) :
      Serial v st0 en0 (ds ++ [(j, ms)]) st' en'

/-- What a stream is made of: `Parses g stream js rest` if taking requests off `stream` with `g` gives `js` and leaves `rest`. -/
inductive Parses (g : List Byte → Out Fetched) (stream : List Byte) : List (Req × Payload) → List Byte → Prop where
  | nil : Parses g stream [] stream
  | snoc (js : List (Req × Payload)) (s s' : List Byte) (r : Req) (p : Payload) (h : Parses g stream js s)
      (hg : g s = .val (.push r p s')) : Parses g stream (js ++ [(r, p)]) s'

/-- A program only ever adds to what has been sent. -/
theorem Prog.run_prefix (p : Prog σ) : ∀ (acc : List Msg) (st st' : σ) (ms : List Msg) (en : Nat),
    p.run acc st = .val (st', ms, en) → acc <+: ms := by
  induction p with
  | done en => intro acc st st' ms en' h; rw [Prog.run] at h; cases h; exact List.prefix_refl _
  | op f k ih =>
    intro acc st st' ms en h
    rw [Prog.run] at h
    split at h
    · cases h
    · cases h
    · exact ih _ _ _ _ _ _ h
  | send m k ih =>
    intro acc st st' ms en h
    rw [Prog.run] at h
    exact (List.prefix_append _ _).trans (ih _ _ _ _ _ h)
  | log bs k ih => intro acc st st' ms en h; rw [Prog.run] at h; exact ih _ _ _ _ _ h

/-- The messages of requests dealt with, with the numbers of the requests. -/
def sentOf (ds : List (Job × List Msg)) : List (Nat × Msg) := ds.flatMap (fun d => d.2.map (fun m => (d.1.id, m)))

/-- The bytes of messages. -/
def bytesOf (ms : List (Nat × Msg)) : List Byte := ms.flatMap (fun x => x.2.bytes)

theorem bytesOf_append (a b : List (Nat × Msg)) : bytesOf (a ++ b) = bytesOf a ++ bytesOf b := by
  unfold bytesOf
  rw [List.flatMap_append]

theorem sentOf_snoc (ds : List (Job × List Msg)) (d : Job × List Msg) :
    sentOf (ds ++ [d]) = sentOf ds ++ d.2.map (fun m => (d.1.id, m)) := by
  unfold sentOf
  rw [List.flatMap_append]
  simp

/-- What the only thread is doing, given what has been dealt with: `jobs` are the requests read, `out` the messages sent. -/
def Worker.Stands (v : Server σ) (ds : List (Job × List Msg)) (st1 : σ) (en1 : Nat) (jobs queue : List Job)
    (out : List (Nat × Msg)) (sock : List Byte) (st : σ) : Worker σ → Prop
  | .idle en => en = en1 ∧ st = st1 ∧ jobs = ds.map Prod.fst ++ queue ∧ out = sentOf ds ∧ sock = bytesOf out
  | .busy j p => jobs = ds.map Prod.fst ++ j :: queue ∧ sock = bytesOf out ∧
      ∃ acc, out = sentOf ds ++ acc.map (fun m => (j.id, m)) ∧ p.run acc st = (v.code en1 j.req j.payload).run [] st1
  | .sending j m rest k => jobs = ds.map Prod.fst ++ j :: queue ∧ sock ++ rest = bytesOf out ++ m.bytes ∧
      ∃ acc, out = sentOf ds ++ acc.map (fun m => (j.id, m)) ∧ k.run (acc ++ [m]) st = (v.code en1 j.req j.payload).run [] st1

/-- Where the stream stands: `rest` is left of it. -/
def Phase.Stands (g : List Byte → Out Fetched) (stream rest : List Byte) : Phase → Prop
  | .reading | .payload => rest = stream
  | .closing | .over => (g rest = .val .gone) ∨ ∃ r, g rest = .val (.disc r)
  | .dead | .broken => True

/-- The invariant of an execution of one session with one thread. -/
structure OneInv (v : Server σ) (g : List Byte → Out Fetched) (st0 : σ) (en0 : Nat) (stream0 : List Byte)
    (tr : List (Nat × Ext)) (S : System σ) : Prop where
  holds : ∃ s x ds st1 en1 rest, S.sessions = [s] ∧ s.workers = [x] ∧ Serial v st0 en0 ds st1 en1 ∧
    Parses g stream0 ((received 0 tr).map (fun j => (j.req, j.payload))) rest ∧ s.main.Stands g s.stream rest ∧
    x.Stands v ds st1 en1 (received 0 tr) s.queue (sent 0 tr) s.sock S.sh.st ∧ s.Tidy

theorem Shared.record_st (sh : Shared σ) (pos : Nat) (bs : List Byte) : (sh.record pos bs).st = sh.st := rfl

theorem sent_append (sid : Nat) (a b : List (Nat × Ext)) : sent sid (a ++ b) = sent sid a ++ sent sid b := by
  fun_induction sent sid a <;> simp_all [sent]

theorem Parses.of_nil {g : List Byte → Out Fetched} {stream rest : List Byte} {js : List (Req × Payload)}
    (h : Parses g stream js rest) (hn : js = []) : rest = stream := by
  cases h with
  | nil => rfl
  | snoc js s r p h hg => exact absurd (congrArg List.length hn) (by simp)

theorem Parses.head {g : List Byte → Out Fetched} {stream rest : List Byte} {l : List (Req × Payload)}
    (hl : Parses g stream l rest) : ∀ (x : Req × Payload) (tl : List (Req × Payload)), l = x :: tl →
    ∃ mid, g stream = .val (.push x.1 x.2 mid) ∧ Parses g mid tl rest := by
  induction hl with
  | nil => intro x tl h; cases h
  | snoc js s s' r p h hg ih' =>
    intro x tl heq
    cases js with
    | nil =>
      simp only [List.nil_append, List.cons.injEq] at heq
      obtain ⟨rfl, rfl⟩ := heq
      rw [h.of_nil rfl] at hg
      exact ⟨_, hg, .nil⟩
    | cons y ys =>
      simp only [List.cons_append, List.cons.injEq] at heq
      obtain ⟨rfl, rfl⟩ := heq
      obtain ⟨mid', ha, hb⟩ := ih' y ys rfl
      exact ⟨mid', ha, .snoc _ _ _ _ _ hb hg⟩

/-- Adding a request to the queue leaves the thread where it is. -/
theorem Worker.Stands.push {v : Server σ} {ds : List (Job × List Msg)} {st1 : σ} {en1 : Nat} {jobs queue : List Job}
    {out : List (Nat × Msg)} {sock : List Byte} {st : σ} {x : Worker σ} (h : x.Stands v ds st1 en1 jobs queue out sock st) (j : Job) :
    x.Stands v ds st1 en1 (jobs ++ [j]) (queue ++ [j]) out sock st := by
  cases x with
  | idle en =>
    obtain ⟨h1, h2, h3, h4⟩ := h
    exact ⟨h1, h2, by rw [h3, List.append_assoc], h4⟩
  | busy j' p =>
    obtain ⟨h1, h2⟩ := h
    exact ⟨by rw [h1, List.append_assoc]; rfl, h2⟩
  | sending j' m rest k =>
    obtain ⟨h1, h2⟩ := h
    exact ⟨by rw [h1, List.append_assoc]; rfl, h2⟩

theorem OneInv.step {v : Server σ} {g : List Byte → Out Fetched} {st0 : σ} {en0 : Nat} {stream0 : List Byte}
    {tr : List (Nat × Ext)} {T : System σ}
    (hg : ∀ stream, v.take T.sh.st stream = match g stream with | .ub => .ub | .exit => .exit | .val f => .val (T.sh.st, f))
    (hi : OneInv v g st0 en0 stream0 tr T) {sid : Nat} {s s' : Session σ} {evs : List Ext}
    {sh' : Shared σ} (hs : T.sessions[sid]? = some s) (h1 : Step v sid T.sh s evs sh' s') :
    OneInv v g st0 en0 stream0 (tr ++ evs.map (fun x => (sid, x))) ⟨sh', T.sessions.set sid s'⟩ := by
  obtain ⟨s0, x, ds, st1, en1, rest, e1, e2, hser, hpar, hph, hst, htid⟩ := hi.holds
  rw [e1] at hs ⊢
  have hsid : sid = 0 := by
    cases sid with
    | zero => rfl
    | succ n => simp at hs
  subst hsid
  simp only [List.getElem?_cons_zero, Option.some.injEq] at hs
  subst hs
  have htid' := h1.tidy htid
  have htake : ∀ st f, v.take T.sh.st s0.stream = .val (st, f) → st = T.sh.st ∧ g s0.stream = .val f := by
    intro st f h
    rw [hg] at h
    split at h
    · cases h
    · cases h
    · rename_i f' hf'
      cases h
      exact ⟨rfl, hf'⟩
  have widx : ∀ {i : Nat} {y : Worker σ}, s0.workers[i]? = some y → i = 0 ∧ y = x := by
    intro i y h
    rw [e2] at h
    cases i with
    | zero => simp only [List.getElem?_cons_zero, Option.some.injEq] at h; exact ⟨rfl, h.symm⟩
    | succ n => simp at h
  constructor
  cases h1 with
  | accept st r p rest' hm hk hsem h =>
    obtain ⟨rfl, hgs⟩ := htake _ _ h
    rw [hm] at hph
    have hph : rest = s0.stream := hph
    subst hph
    refine ⟨_, x, ds, st1, en1, rest', rfl, e2, hser, ?_, ?_, ?_, htid'⟩
    · rw [received_append, List.map_append]
      exact .snoc _ _ _ r p hpar hgs
    · show Phase.Stands g _ _ s0.main
      rw [hm]; rfl
    · rw [received_append, sent_append]
      have := hst.push (v := v) ⟨s0.count, r, p⟩
      simpa [received, sent, Shared.record_st] using this
  | hold hm hk hsem =>
    rw [hm] at hph
    refine ⟨_, x, ds, st1, en1, rest, rfl, e2, hser, by simpa using hpar, hph, by simpa [Shared.record_st] using hst, htid'⟩
  | acceptData st r bs rest' hm h =>
    obtain ⟨rfl, hgs⟩ := htake _ _ h
    rw [hm] at hph
    have hph : rest = s0.stream := hph
    subst hph
    refine ⟨_, x, ds, st1, en1, rest', rfl, e2, hser, ?_, rfl, ?_, htid'⟩
    · rw [received_append, List.map_append]
      exact .snoc _ _ _ r (.data bs) hpar hgs
    · rw [received_append, sent_append]
      have := hst.push (v := v) ⟨s0.count, r, .data bs⟩
      simpa [received, sent, Shared.record_st] using this
  | magic hm hb =>
    exact ⟨_, x, ds, st1, en1, rest, rfl, e2, hser, by simpa using hpar, trivial, by simpa [Shared.record_st] using hst, htid'⟩
  | gone st hm hb h =>
    obtain ⟨rfl, hgs⟩ := htake _ _ h
    have hr : rest = s0.stream := by
      rcases hm with ⟨hm, _⟩ | hm <;> rw [hm] at hph <;> exact hph
    subst hr
    exact ⟨_, x, ds, st1, en1, s0.stream, rfl, e2, hser, by simpa using hpar, Or.inl hgs, by simpa [Shared.record_st] using hst, htid'⟩
  | disc st rest' hm hk hsem h =>
    obtain ⟨rfl, hgs⟩ := htake _ _ h
    rw [hm] at hph
    have hph : rest = s0.stream := hph
    subst hph
    exact ⟨_, x, ds, st1, en1, s0.stream, rfl, e2, hser, by simpa using hpar, Or.inr ⟨_, hgs⟩, by simpa [Shared.record_st] using hst, htid'⟩
  | takeFails ph hm h =>
    refine ⟨_, x, ds, st1, en1, rest, rfl, e2, hser, by simpa using hpar, ?_, by simpa [Shared.record_st] using hst, htid'⟩
    rcases h with ⟨_, rfl⟩ | ⟨_, rfl⟩ <;> trivial
  | close hm hq hw =>
    rw [hm] at hph
    exact ⟨_, x, ds, st1, en1, rest, rfl, e2, hser, by simpa using hpar, hph, by simpa [Shared.record_st] using hst, htid'⟩
  | start i en j q ha hw hq =>
    obtain ⟨rfl, rfl⟩ := widx hw
    obtain ⟨rfl, h2, h3, h4, h5⟩ := hst
    refine ⟨_, _, ds, st1, en, rest, rfl, by rw [e2]; rfl, hser, by simpa using hpar, hph, ?_, htid'⟩
    simp only [List.map_nil, List.append_nil]
    exact ⟨by rw [h3, hq], h5, [], by rw [h4]; simp, by rw [h2]⟩
  | op i j f k st a ha hw h =>
    obtain ⟨rfl, rfl⟩ := widx hw
    obtain ⟨h2, h3, acc, h4, h5⟩ := hst
    refine ⟨_, _, ds, st1, en1, rest, rfl, by rw [e2]; rfl, hser, by simpa using hpar, hph, ?_, htid'⟩
    simp only [List.map_nil, List.append_nil]
    refine ⟨h2, h3, acc, h4, ?_⟩
    rw [← h5, Prog.run, h]
  | opFails i j f k ph ha hw h =>
    refine ⟨_, x, ds, st1, en1, rest, rfl, e2, hser, by simpa using hpar, ?_, by simpa [Shared.record_st] using hst, htid'⟩
    rcases h with ⟨_, rfl⟩ | ⟨_, rfl⟩ <;> trivial
  | lock i j m k ha hw hl =>
    obtain ⟨rfl, rfl⟩ := widx hw
    obtain ⟨h2, h3, acc, h4, h5⟩ := hst
    refine ⟨_, _, ds, st1, en1, rest, rfl, by rw [e2]; rfl, hser, by simpa using hpar, hph, ?_, htid'⟩
    simp only [List.map_nil, List.append_nil]
    exact ⟨h2, by rw [h3], acc, h4, by rw [← h5, Prog.run]⟩
  | write i j m xs ys k ha hw hx hy =>
    obtain ⟨rfl, rfl⟩ := widx hw
    obtain ⟨h2, h3, acc, h4, h5⟩ := hst
    refine ⟨_, _, ds, st1, en1, rest, rfl, by rw [e2]; rfl, hser, by simpa using hpar, hph, ?_, htid'⟩
    simp only [List.map_nil, List.append_nil]
    exact ⟨h2, by rw [List.append_assoc]; exact h3, acc, h4, h5⟩
  | unlock i j m rest' k ha hw =>
    obtain ⟨rfl, rfl⟩ := widx hw
    obtain ⟨h2, h3, acc, h4, h5⟩ := hst
    refine ⟨_, _, ds, st1, en1, rest, rfl, by rw [e2]; rfl, hser, ?_, hph, ?_, htid'⟩
    · rw [received_append]
      simpa [received] using hpar
    · rw [received_append, sent_append]
      have ha : received 0 ([Ext.sent j.id m].map (fun x => (0, x))) = [] := rfl
      have hb : sent 0 ([Ext.sent j.id m].map (fun x => (0, x))) = [(j.id, m)] := rfl
      rw [ha, hb, List.append_nil]
      refine ⟨h2, ?_, acc ++ [m], ?_, h5⟩
      · rw [bytesOf_append, h3]
        simp [bytesOf]
      · rw [h4, List.map_append, List.append_assoc]
        rfl
  | log i j bs k ha hw hsem =>
    obtain ⟨rfl, rfl⟩ := widx hw
    obtain ⟨h2, h3, acc, h4, h5⟩ := hst
    refine ⟨_, _, ds, st1, en1, rest, rfl, by rw [e2]; rfl, hser, by simpa using hpar, hph, ?_, htid'⟩
    simp only [List.map_nil, List.append_nil]
    exact ⟨h2, h3, acc, h4, by rw [← h5, Prog.run]; rfl⟩
  | finish i j en ha hw =>
    obtain ⟨rfl, rfl⟩ := widx hw
    obtain ⟨h2, h3, acc, h4, h5⟩ := hst
    rw [Prog.run] at h5
    refine ⟨_, _, ds ++ [(j, acc)], T.sh.st, en, rest, rfl, by rw [e2]; rfl, .snoc _ _ _ _ _ _ _ hser h5.symm, by simpa using hpar,
      hph, ?_, htid'⟩
    simp only [List.map_nil, List.append_nil]
    exact ⟨rfl, rfl, by rw [h2, List.map_append, List.append_assoc]; rfl, by rw [h4, sentOf_snoc], h3⟩

/-- Every execution of one session with one thread. -/
theorem Exec.one {v : Nat → Server σ} {g : List Byte → Out Fetched}
    {sh : Shared σ} {stream : List Byte} {en : Nat} {pos : Nat} {tr : List (Nat × Ext)} {T : System σ}
    (hg : ∀ tr T, Exec v ⟨sh, [Session.fresh stream [en] pos]⟩ tr T → ∀ stream, (v 0).take T.sh.st stream =
      match g stream with | .ub => .ub | .exit => .exit | .val f => .val (T.sh.st, f))
    (hx : Exec v ⟨sh, [Session.fresh stream [en] pos]⟩ tr T) : OneInv (v 0) g sh.st en stream tr T := by
  generalize hS : (⟨sh, [Session.fresh stream [en] pos]⟩ : System σ) = S at hx
  induction hx with
  | nil =>
    subst hS
    exact ⟨⟨_, .idle en, [], sh.st, en, stream, rfl, rfl, .nil, .nil, rfl, ⟨rfl, rfl, rfl, rfl, rfl⟩, fun h => by cases h⟩⟩
  | step tr T sid s s' evs sh' h hs h1 ih =>
    have : sid = 0 := by
      obtain ⟨s0, _, _, _, _, _, e1, _⟩ := ih.holds
      rw [e1] at hs
      cases sid with
      | zero => rfl
      | succ n => simp at hs
    subst this
    subst hS
    exact OneInv.step (hg _ _ h) ih hs h1

end

/-! ### What the main loop reads, without splice -/

/-- nbd-server.c 3095-3148: one turn of the loop when the export does not use splice: the files play no part in it. -/
def fetchPlain (e : Endian) (stream : List Byte) : Out Fetched :=
  if stream.length < 28 then .val .gone
  else
    let r := loadReq e (stream.take 28)
    let rest := stream.drop 28
    if !r.magicOk e then .val .gone
    else if r.type % 65536 = CMD_WRITE then
      if rest.length < r.len then .val .gone
      else .val (.push r (.data (rest.take r.len)) (rest.drop r.len))
    else if r.type = CMD_DISC then .val (.disc rest)
    else .val (.push r .nothing rest)

theorem fetch_plain (e : Endian) (cl : Client) (h : has cl.ex.flags F_SPLICE = false) (w : World) (stream : List Byte) :
    fetch e cl w stream = match fetchPlain e stream with | .ub => .ub | .exit => .exit | .val f => .val (w, f) := by
  unfold fetch fetchPlain
  rw [h]
  split
  · rfl
  · simp only [Bool.false_eq_true, if_false, Bool.false_and]
    split
    · rfl
    · split
      · split <;> rfl
      · split <;> rfl

theorem fetchPlain_write (e : Endian) (stream rest : List Byte) (r : Req) (p : Payload)
    (h : fetchPlain e stream = .val (.push r p rest)) (ht : r.type % 65536 = CMD_WRITE) : ∃ bs, p = .data bs := by
  unfold fetchPlain at h
  split at h
  · cases h
  · simp only [] at h
    split at h
    · cases h
    · split at h
      · split at h
        · cases h
        · cases h; exact ⟨_, rfl⟩
      · rename_i hn
        split at h
        · cases h
        · cases h; exact absurd ht hn

/-- A run of a program ends as `handleRequest` does. `absorb` is how a state of the server is read as a client and its files. -/
def SameEnd {σ : Type} (absorb : σ → Client × World) : Out (σ × List Msg × Nat) → Out (Client × World × List Msg) → Prop
  | .ub, .ub => True
  | .exit, .exit => True
  | .val (st, ms, en), .val (cl, w, ms') => absorb st = (cl, w) ∧ ms = ms' ∧ en = w.errno
  | _, _ => False

/-- The requests of a stream, one after the other, are what `mainloop` deals with first. -/
theorem mainloop_serial {σ : Type} (e : Endian) (v : Server σ) (absorb : σ → Client × World) (st0 : σ) (stream rest : List Byte)
    (ds : List (Job × List Msg)) (more : List (Req × Payload)) (st1 : σ) (en1 : Nat)
    (hsp : ∀ ds st en, Serial v st0 (absorb st0).2.errno ds st en → has (absorb st).1.ex.flags F_SPLICE = false)
    (hcode : ∀ ds st (j : Job), Serial v st0 (absorb st0).2.errno ds st (absorb st).2.errno →
      (j.req.type % 65536 = CMD_WRITE → ∃ bs, j.payload = .data bs) →
      SameEnd absorb ((v.code (absorb st).2.errno j.req j.payload).run [] st)
        (handleRequest e (absorb st).1 (absorb st).2 j.req j.payload))
    (hp : Parses (fetchPlain e) stream (ds.map (fun d => (d.1.req, d.1.payload)) ++ more) rest)
    (hs : Serial v st0 (absorb st0).2.errno ds st1 en1) :
    en1 = (absorb st1).2.errno ∧ ∃ mid, Parses (fetchPlain e) mid more rest ∧
      (mainloop e (absorb st0).1 (absorb st0).2 stream).handled =
        ds.map (fun d => ⟨d.1.req, d.1.payload, d.2⟩) ++ (mainloop e (absorb st1).1 (absorb st1).2 mid).handled ∧
      (mainloop e (absorb st0).1 (absorb st0).2 stream).cl = (mainloop e (absorb st1).1 (absorb st1).2 mid).cl ∧
      (mainloop e (absorb st0).1 (absorb st0).2 stream).w = (mainloop e (absorb st1).1 (absorb st1).2 mid).w ∧
      (mainloop e (absorb st0).1 (absorb st0).2 stream).ending = (mainloop e (absorb st1).1 (absorb st1).2 mid).ending := by
  induction hs generalizing more with
  | nil => exact ⟨rfl, stream, hp, rfl, rfl, rfl, rfl⟩
  | snoc ds st st' en en' j ms h hr ih =>
    rw [List.map_append, List.append_assoc] at hp
    obtain ⟨hen, mid, hm, h1, h2, h3, h4⟩ := ih _ hp
    obtain ⟨mid', ha, hb⟩ := hm.head (j.req, j.payload) more rfl
    have hw := fetchPlain_write e mid mid' j.req j.payload ha
    subst hen
    have hsame := hcode ds st j h hw
    rw [hr] at hsame
    have hh : handleRequest e (absorb st).1 (absorb st).2 j.req j.payload = .val ((absorb st').1, (absorb st').2, ms) ∧
        en' = (absorb st').2.errno := by
      generalize handleRequest e (absorb st).1 (absorb st).2 j.req j.payload = o at hsame
      match o, hsame with
      | .val (cl, w, ms'), ⟨h1, h2, h3⟩ => rw [h1, h2]; exact ⟨rfl, h3⟩
    obtain ⟨hh, hen'⟩ := hh
    have hf : fetch e (absorb st).1 (absorb st).2 mid = .val ((absorb st).2, .push j.req j.payload mid') := by
      rw [fetch_plain e _ (hsp _ _ _ h), ha]
    have hloop : mainloop e (absorb st).1 (absorb st).2 mid =
        (mainloop e (absorb st').1 (absorb st').2 mid').cons ⟨j.req, j.payload, ms⟩ := by
      rw [mainloop]
      split
      · rename_i hx; rw [hf] at hx; cases hx
      · rename_i hx; rw [hf] at hx; cases hx
      · rename_i hx; rw [hf] at hx; cases hx
      · rename_i hx; rw [hf] at hx; cases hx
      · rename_i hx
        rw [hf] at hx
        cases hx
        rw [hh]
    refine ⟨hen', mid', hb, ?_, ?_, ?_, ?_⟩
    · rw [h1, hloop, List.map_append, List.append_assoc]; rfl
    · rw [h2, hloop]; rfl
    · rw [h3, hloop]; rfl
    · rw [h4, hloop]; rfl


theorem sent_cons (run : Run) (ds : List (Job × List Msg)) (more : List Done)
    (h : run.handled = ds.map (fun d => ⟨d.1.req, d.1.payload, d.2⟩) ++ more) : bytesOf (sentOf ds) <+: run.sent := by
  unfold Run.sent
  rw [h, List.flatMap_append, List.flatMap_append]
  refine List.IsPrefix.trans ?_ (List.prefix_append _ _)
  have : ((ds.map (fun d => (⟨d.1.req, d.1.payload, d.2⟩ : Done))).flatMap Done.msgs).flatMap Msg.bytes = bytesOf (sentOf ds) := by
    clear h
    induction ds with
    | nil => rfl
    | cons d ds ih =>
      have : sentOf (d :: ds) = d.2.map (fun m => (d.1.id, m)) ++ sentOf ds := by unfold sentOf; rw [List.flatMap_cons]
      rw [this, bytesOf_append, ← ih, List.map_cons, List.flatMap_cons, List.flatMap_append]
      congr 1
      unfold bytesOf
      simp [List.flatMap_map]
  rw [this]
  exact List.prefix_refl _

theorem sent_exact (run : Run) (ds : List (Job × List Msg))
    (h : run.handled = ds.map (fun d => ⟨d.1.req, d.1.payload, d.2⟩)) : run.sent = bytesOf (sentOf ds) := by
  unfold Run.sent
  rw [h]
  clear h
  induction ds with
  | nil => rfl
  | cons d ds ih =>
    have : sentOf (d :: ds) = d.2.map (fun m => (d.1.id, m)) ++ sentOf ds := by unfold sentOf; rw [List.flatMap_cons]
    rw [this, bytesOf_append, ← ih, List.map_cons, List.flatMap_cons, List.flatMap_append]
    congr 1
    unfold bytesOf
    simp [List.flatMap_map]

/-- One session, one thread: at every moment the bytes sent are a beginning of what `mainloop` sends, and once the session is over
they are all of it and the state is the one `mainloop` ends in. -/
theorem Exec.one_mainloop {σ : Type} (e : Endian) (v : Nat → Server σ) (absorb : σ → Client × World) (sh : Shared σ) (stream : List Byte)
    (pos : Nat) (tr : List (Nat × Ext)) (T : System σ)
    (htake : ∀ tr T, Exec v ⟨sh, [Session.fresh stream [(absorb sh.st).2.errno] pos]⟩ tr T → ∀ stream, (v 0).take T.sh.st stream =
      match fetchPlain e stream with | .ub => .ub | .exit => .exit | .val f => .val (T.sh.st, f))
    (hsp : ∀ ds st en, Serial (v 0) sh.st (absorb sh.st).2.errno ds st en → has (absorb st).1.ex.flags F_SPLICE = false)
    (hcode : ∀ ds st (j : Job), Serial (v 0) sh.st (absorb sh.st).2.errno ds st (absorb st).2.errno →
      (j.req.type % 65536 = CMD_WRITE → ∃ bs, j.payload = .data bs) →
      SameEnd absorb (((v 0).code (absorb st).2.errno j.req j.payload).run [] st)
        (handleRequest e (absorb st).1 (absorb st).2 j.req j.payload))
    (hx : Exec v ⟨sh, [Session.fresh stream [(absorb sh.st).2.errno] pos]⟩ tr T) :
    ∃ s, T.sessions = [s] ∧
      (((mainloop e (absorb sh.st).1 (absorb sh.st).2 stream).ending = .gone ∨
        (mainloop e (absorb sh.st).1 (absorb sh.st).2 stream).ending = .disconnected) →
        s.sock <+: (mainloop e (absorb sh.st).1 (absorb sh.st).2 stream).sent) ∧
      (s.main = .over →
        s.sock = (mainloop e (absorb sh.st).1 (absorb sh.st).2 stream).sent ∧
        absorb T.sh.st = ((mainloop e (absorb sh.st).1 (absorb sh.st).2 stream).cl,
          (mainloop e (absorb sh.st).1 (absorb sh.st).2 stream).w) ∧
        (received 0 tr).map (fun j => (j.req, j.payload)) =
          (mainloop e (absorb sh.st).1 (absorb sh.st).2 stream).handled.map (fun d => (d.req, d.payload))) := by
  obtain ⟨s, x, ds, st1, en1, rest, e1, e2, hser, hpar, hph, hst, htid⟩ := (hx.one htake).holds
  refine ⟨s, e1, ?_, ?_⟩
  · intro hend
    -- a thread in the middle of request `j` that has sent `acc`
    have hmid : ∀ (j : Job) (acc : List Msg) (q : List Job), received 0 tr = ds.map Prod.fst ++ j :: q →
        (∃ p : Prog σ, p.run acc T.sh.st = ((v 0).code en1 j.req j.payload).run [] st1) →
        bytesOf (sentOf ds ++ acc.map (fun m => (j.id, m))) <+: (mainloop e (absorb sh.st).1 (absorb sh.st).2 stream).sent := by
      intro j acc q hj ⟨p, hp⟩
      have hpar' : Parses (fetchPlain e) stream (ds.map (fun d => (d.1.req, d.1.payload)) ++ ((j.req, j.payload) ::
          q.map (fun j => (j.req, j.payload)))) rest := by
        rw [hj, List.map_append, List.map_map, List.map_cons] at hpar
        exact hpar
      obtain ⟨hen, mid, hm, h1, h2, h3, h4⟩ := mainloop_serial e (v 0) absorb sh.st stream rest ds _ st1 en1 hsp hcode hpar' hser
      subst hen
      obtain ⟨mid', ha, hb⟩ := hm.head _ _ rfl
      have hsame := hcode ds st1 j hser (fetchPlain_write e mid mid' _ _ ha)
      cases hr : ((v 0).code (absorb st1).2.errno j.req j.payload).run [] st1 with
      | val y =>
        obtain ⟨st2, ms, en2⟩ := y
        rw [hr] at hp
        have hpre := p.run_prefix _ _ _ _ _ hp
        have hser' := Serial.snoc ds st1 st2 _ en2 j ms hser hr
        have hpar2 : Parses (fetchPlain e) stream ((ds ++ [(j, ms)]).map (fun d => (d.1.req, d.1.payload)) ++
            q.map (fun j => (j.req, j.payload))) rest := by
          rw [List.map_append, List.append_assoc]
          exact hpar'
        obtain ⟨_, mid2, _, k1, _⟩ := mainloop_serial e (v 0) absorb sh.st stream rest _ _ st2 en2 hsp hcode hpar2 hser'
        refine List.IsPrefix.trans ?_ (sent_cons _ _ _ k1)
        rw [sentOf_snoc, bytesOf_append, bytesOf_append]
        obtain ⟨t, rfl⟩ := hpre
        simp only [List.map_append]
        rw [bytesOf_append, ← List.append_assoc]
        exact List.prefix_append _ _
      | ub =>
        exfalso
        rw [hr] at hsame
        have hh : handleRequest e (absorb st1).1 (absorb st1).2 j.req j.payload = .ub := by
          generalize handleRequest e (absorb st1).1 (absorb st1).2 j.req j.payload = o at hsame
          match o, hsame with
          | .ub, _ => rfl
        have hf : fetch e (absorb st1).1 (absorb st1).2 mid = .val ((absorb st1).2, .push j.req j.payload mid') := by
          rw [fetch_plain e _ (hsp _ _ _ hser), ha]
        have hl : (mainloop e (absorb st1).1 (absorb st1).2 mid).ending = .ub := by
          rw [mainloop]
          split
          · rfl
          · rename_i hx; rw [hf] at hx; cases hx
          · rename_i hx; rw [hf] at hx; cases hx
          · rename_i hx; rw [hf] at hx; cases hx
          · rename_i hx
            rw [hf] at hx
            cases hx
            rw [hh]
        rw [h4, hl] at hend
        rcases hend with h | h <;> cases h
      | exit =>
        exfalso
        rw [hr] at hsame
        have hh : handleRequest e (absorb st1).1 (absorb st1).2 j.req j.payload = .exit := by
          generalize handleRequest e (absorb st1).1 (absorb st1).2 j.req j.payload = o at hsame
          match o, hsame with
          | .exit, _ => rfl
        have hf : fetch e (absorb st1).1 (absorb st1).2 mid = .val ((absorb st1).2, .push j.req j.payload mid') := by
          rw [fetch_plain e _ (hsp _ _ _ hser), ha]
        have hl : (mainloop e (absorb st1).1 (absorb st1).2 mid).ending = .exit := by
          rw [mainloop]
          split
          · rename_i hx; rw [hf] at hx; cases hx
          · rfl
          · rename_i hx; rw [hf] at hx; cases hx
          · rename_i hx; rw [hf] at hx; cases hx
          · rename_i hx
            rw [hf] at hx
            cases hx
            rw [hh]
        rw [h4, hl] at hend
        rcases hend with h | h <;> cases h
    cases x with
    | idle en =>
      obtain ⟨_, _, h3, h4, h5⟩ := hst
      rw [h5, h4]
      have hpar' : Parses (fetchPlain e) stream (ds.map (fun d => (d.1.req, d.1.payload)) ++ s.queue.map (fun j => (j.req, j.payload))) rest := by
        rw [h3, List.map_append, List.map_map] at hpar
        exact hpar
      obtain ⟨_, mid, _, h1, _⟩ := mainloop_serial e (v 0) absorb sh.st stream rest ds _ st1 en1 hsp hcode hpar' hser
      exact sent_cons _ _ _ h1
    | busy j p =>
      obtain ⟨h3, h4, acc, h5, h6⟩ := hst
      rw [h4, h5]
      exact hmid j acc _ h3 ⟨p, h6⟩
    | sending j m r k =>
      obtain ⟨h3, h4, acc, h5, h6⟩ := hst
      have h7 := hmid j (acc ++ [m]) _ h3 ⟨k, h6⟩
      rw [List.map_append, ← List.append_assoc, ← h5, bytesOf_append] at h7
      have h8 : bytesOf (sent 0 tr) ++ bytesOf ([m].map (fun m => (j.id, m))) = s.sock ++ r := by
        rw [h4]; simp [bytesOf]
      rw [h8] at h7
      exact (List.prefix_append _ _).trans h7
  · intro hover
    obtain ⟨hq, hidle⟩ := htid hover
    obtain ⟨en, hen⟩ := hidle x (by rw [e2]; simp)
    subst hen
    obtain ⟨_, h2, h3, h4, h5⟩ := hst
    rw [hq, List.append_nil] at h3
    have hpar' : Parses (fetchPlain e) stream (ds.map (fun d => (d.1.req, d.1.payload)) ++ []) rest := by
      rw [h3, List.map_map] at hpar
      rw [List.append_nil]
      exact hpar
    obtain ⟨_, mid, hm, k1, k2, k3, k4⟩ := mainloop_serial e (v 0) absorb sh.st stream rest ds _ st1 en1 hsp hcode hpar' hser
    have hmid := hm.of_nil rfl
    subst hmid
    rw [hover] at hph
    have hstop : (mainloop e (absorb st1).1 (absorb st1).2 rest).handled = [] ∧
        (mainloop e (absorb st1).1 (absorb st1).2 rest).cl = (absorb st1).1 ∧
        (mainloop e (absorb st1).1 (absorb st1).2 rest).w = (absorb st1).2 := by
      rcases hph with h | ⟨r, h⟩
      · have hf : fetch e (absorb st1).1 (absorb st1).2 rest = .val ((absorb st1).2, .gone) := by
          rw [fetch_plain e _ (hsp _ _ _ hser), h]
        rw [mainloop]
        split
        · exact ⟨rfl, rfl, rfl⟩
        · exact ⟨rfl, rfl, rfl⟩
        · rename_i hx; rw [hf] at hx; cases hx; exact ⟨rfl, rfl, rfl⟩
        · rename_i hx; rw [hf] at hx; cases hx
        · rename_i hx; rw [hf] at hx; cases hx
      · have hf : fetch e (absorb st1).1 (absorb st1).2 rest = .val ((absorb st1).2, .disc r) := by
          rw [fetch_plain e _ (hsp _ _ _ hser), h]
        rw [mainloop]
        split
        · exact ⟨rfl, rfl, rfl⟩
        · exact ⟨rfl, rfl, rfl⟩
        · rename_i hx; rw [hf] at hx; cases hx
        · rename_i hx; rw [hf] at hx; cases hx; exact ⟨rfl, rfl, rfl⟩
        · rename_i hx; rw [hf] at hx; cases hx
    rw [hstop.1, List.append_nil] at k1
    refine ⟨?_, ?_, ?_⟩
    · rw [h5, h4]
      exact (sent_exact _ _ k1).symm
    · rw [k2, k3, hstop.2.1, hstop.2.2, h2]
    · rw [k1, h3, List.map_map, List.map_map]
      rfl

end Nbd
