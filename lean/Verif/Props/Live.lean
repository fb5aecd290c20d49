import Verif.SchedSafe
import Verif.Props.Sched
import Verif.Props.Linear
import Verif.Props.TrLog
/-!
# Every request is answered

* C71: no session waits for ever: `C71_ends`, `C71_on_its_own_partial`,
  `C71_every_request_answered_partial`; false with a data log: `C71_false_hangs`,
  `C71_false_blocks_others`, `C71_false_bad_magic`, and without threads: `C71_false_no_threads`.

A client is what it sends, after which it closes its side of the connection; it keeps reading, so
that writing to the socket always goes on.
-/

set_option autoImplicit false

namespace Nbd

namespace Spec

/-- No thread of any session can do anything. -/
def Stuck {σ : Type} (v : Nat → Server σ) (T : System σ) : Prop :=
  ∀ (sid : Nat) (s : Session σ), T.sessions[sid]? = some s →
    ∀ evs sh' s', ¬ Step (v sid) sid T.sh s evs sh' s'

/-- `T` is one step of one thread after `S`. -/
def After {σ : Type} (v : Nat → Server σ) (S T : System σ) : Prop :=
  ∃ (sid : Nat) (s : Session σ) (evs : List Ext) (sh' : Shared σ) (s' : Session σ),
    S.sessions[sid]? = some s ∧ Step (v sid) sid S.sh s evs sh' s' ∧
    T = ⟨sh', S.sessions.set sid s'⟩

/-- Writes are logged without their data (or not at all). -/
def NoDataLog (cl : Client) (lg : Bool) : Prop :=
  lg = false ∨ has cl.ex.flags F_DATALOG = false ∨ has cl.ex.flags F_SPLICE = true

end Spec

namespace Props
open Spec

theorem noDataLog_keeps {σ : Type} {v : Server σ} (h : NoDataLog v.cl v.logging)
    (stream : List Byte) : v.keeps stream = false := by
  unfold Server.keeps
  rcases h with h | h | h <;> simp [h]

theorem after_next {σ : Type} {v : Nat → Server σ} {S T : System σ} (h : After v S T) :
    System.Next v T S := by
  obtain ⟨sid, s, evs, sh', s', h1, h2, h3⟩ := h
  exact ⟨sid, s, s', evs, sh', h1, h2, h3⟩

theorem no_endless {σ : Type} {v : Nat → Server σ} (hv : ∀ sid, (v sid).Shrinks)
    (run : Nat → System σ) : ∃ n, ¬ After v (run n) (run (n + 1)) := by
  have h := next_acc hv (run 0)
  generalize hS : run 0 = S at h
  induction h generalizing run with
  | intro S _ ih =>
    subst hS
    by_cases h0 : After v (run 0) (run 1)
    · obtain ⟨n, hn⟩ := ih (run 1) (after_next h0) (fun n => run (n + 1)) rfl
      exact ⟨n + 1, hn⟩
    · exact ⟨0, h0⟩

/-- **C71.** The work for what a client sends comes to an end: there is no endless sequence of steps,
whatever the sessions are sent, whatever the exports, the number of threads, their order, and the
behaviour of the kernel. -/
theorem C71_ends (e : Endian) (cls : Nat → Client) (lgs : Nat → Bool) :
    (∀ run : Nat → System World, ∃ n,
      ¬ After (fun sid => plainServer e (cls sid) (lgs sid)) (run n) (run (n + 1))) ∧
    (∀ run : Nat → System (Client × World), ∃ n,
      ¬ After (fun sid => anyServer e (cls sid) (lgs sid)) (run n) (run (n + 1))) :=
  ⟨no_endless (fun sid => plainServer_shrinks e (cls sid) (lgs sid)),
   no_endless (fun sid => anyServer_shrinks e (cls sid) (lgs sid))⟩

theorem exec_trans {σ : Type} {v : Nat → Server σ} {S T U : System σ} {a b : List (Nat × Ext)}
    (h1 : Exec v S a T) (h2 : Exec v T b U) : Exec v S (a ++ b) U := by
  induction h2 with
  | nil => rw [List.append_nil]; exact h1
  | step tr T' sid s s' evs sh' h hs hst ih =>
    rw [← List.append_assoc]
    exact .step _ _ sid s s' evs sh' ih hs hst

theorem can_step {σ : Type} {v : Nat → Server σ} {S T : System σ} {tr : List (Nat × Ext)}
    (hd : ∀ sid, NoDataLog (v sid).cl (v sid).logging) (hsem : S.sh.sem = none)
    (hf : ∀ s ∈ S.sessions, s.Fresh ∧ s.workers ≠ []) (hx : Exec v S tr T) (sid : Nat)
    (s : Session σ) (hs : T.sessions[sid]? = some s) (ha : s.main.alive = true) :
    ∃ evs sh' s', Step (v sid) sid T.sh s evs sh' s' := by
  have hk : ∀ sid stream, (v sid).keeps stream = false := fun sid => noDataLog_keeps (hd sid)
  obtain ⟨f1, f2⟩ := hx.free hk hsem (fun s hs => (hf s hs).1)
  exact Step.progress (v sid) sid T.sh s (hk _ _) ha f1 (f2 s (List.mem_of_getElem? hs))
    (hx.locked (fun s hs => (hf s hs).1) sid s hs) (hx.threads (fun s hs => (hf s hs).2) sid s hs)

theorem finishes_alone {σ : Type} {v : Nat → Server σ} (hv : ∀ sid, (v sid).Shrinks)
    (hd : ∀ sid, NoDataLog (v sid).cl (v sid).logging) {S : System σ} (hsem : S.sh.sem = none)
    (hf : ∀ s ∈ S.sessions, s.Fresh ∧ s.workers ≠ []) (sid : Nat) (T : System σ) :
    ∀ tr, Exec v S tr T → ∀ s, T.sessions[sid]? = some s →
    ∃ tr' T' s', Exec v T tr' T' ∧ T'.sessions[sid]? = some s' ∧ s'.main.alive = false ∧
      (∀ x ∈ tr', x.1 = sid) ∧
      ∀ sid', sid' ≠ sid → T'.sessions[sid']? = T.sessions[sid']? := by
  induction next_acc hv T with
  | intro T _ ih =>
    intro tr hx s hs
    cases ha : s.main.alive with
    | false => exact ⟨[], T, s, .nil, hs, ha, by simp, fun _ _ => rfl⟩
    | true =>
      obtain ⟨evs, sh', s', h1⟩ := can_step hd hsem hf hx sid s hs ha
      have hlt := (List.getElem?_eq_some_iff.mp hs).1
      have e1 : Exec v T ([] ++ evs.map (fun x => (sid, x))) ⟨sh', T.sessions.set sid s'⟩ :=
        .step [] T sid s s' evs sh' .nil hs h1
      obtain ⟨tr2, T2, s2, g1, g2, g3, g4, g5⟩ := ih ⟨sh', T.sessions.set sid s'⟩
        ⟨sid, s, s', evs, sh', hs, h1, rfl⟩ _ (exec_trans hx e1) s'
        (List.getElem?_set_self hlt)
      refine ⟨_, T2, s2, exec_trans e1 g1, g2, g3, ?_, ?_⟩
      · intro x hx
        rw [List.nil_append] at hx
        rcases List.mem_append.mp hx with hx | hx
        · obtain ⟨y, _, rfl⟩ := List.mem_map.mp hx; rfl
        · exact g4 x hx
      · intro sid' hne
        rw [g5 sid' hne]
        exact List.getElem?_set_ne (Ne.symm hne)

/-- **C71, in part** (missing: logging of written data). Several sessions on one export of plain
files, whatever their clients send: at every moment, each session can be brought to its end by its
own threads alone, without any other session moving. So no session can block another one, whatever
its client does or fails to do. -/
theorem C71_on_its_own_partial (e : Endian) (cls : Nat → Client) (lgs : Nat → Bool)
    (hd : ∀ sid, NoDataLog (cls sid) (lgs sid)) (S T : System World) (hsem : S.sh.sem = none)
    (hf : ∀ s ∈ S.sessions, s.Fresh ∧ s.workers ≠ []) (tr : List (Nat × Ext))
    (hx : Exec (fun sid => plainServer e (cls sid) (lgs sid)) S tr T) (sid : Nat)
    (s : Session World) (hs : T.sessions[sid]? = some s) :
    ∃ tr' T' s', Exec (fun sid => plainServer e (cls sid) (lgs sid)) T tr' T' ∧
      T'.sessions[sid]? = some s' ∧ s'.main.alive = false ∧ (∀ x ∈ tr', x.1 = sid) ∧
      ∀ sid', sid' ≠ sid → T'.sessions[sid']? = T.sessions[sid']? :=
  finishes_alone (fun sid => plainServer_shrinks e (cls sid) (lgs sid)) hd hsem hf sid T tr hx s hs

/-- **C71, in part.** On an export of any kind, whatever a client sends: if no thread of the session
can go on, then it has ended. -/
theorem C71_any_export_partial (e : Endian) (cl settings : Client) (lg : Bool)
    (hd : NoDataLog settings lg) (w : World) (log stream : List Byte) (errnos : List Nat)
    (hn : errnos ≠ []) (pos : Nat) (T : System (Client × World)) (tr : List (Nat × Ext))
    (hx : Exec (fun _ => anyServer e settings lg)
      ⟨⟨(cl, w), none, log⟩, [Session.fresh stream errnos pos]⟩ tr T)
    (hstuck : Stuck (fun _ => anyServer e settings lg) T) (s : Session (Client × World))
    (hs : T.sessions[0]? = some s) : s.main.alive = false := by
  cases ha : s.main.alive with
  | false => rfl
  | true =>
    obtain ⟨evs, sh', s', h1⟩ := can_step (v := fun _ => anyServer e settings lg) (fun _ => hd) rfl
      (fun s hs => by
        rw [List.mem_singleton] at hs
        subst hs
        exact ⟨⟨_, _, _, rfl⟩, by simpa [Session.fresh] using hn⟩) hx 0 s hs ha
    exact absurd h1 (hstuck 0 s hs _ _ _)

/-! ### Every request is answered -/

theorem readAnswer_answer {cookie : List Byte} {start : Nat} {data : List Byte} {m : Bool}
    {rs : List Reply} (h : ReadAnswer cookie start data m rs) : Answer cookie rs := by
  cases h with
  | simple => exact Answer.single rfl rfl
  | structured cs h =>
    refine ⟨?_, _, _, rfl, rfl, ?_⟩
    · intro r hr
      rcases List.mem_append.mp hr with hr | hr
      · obtain ⟨x, _, rfl⟩ := List.mem_map.mp hr; rfl
      · rw [List.mem_singleton] at hr; subst hr; rfl
    · intro r hr
      obtain ⟨x, _, rfl⟩ := List.mem_map.mp hr
      rfl

theorem readFailure_answer {cookie : List Byte} {start : Nat} {data : List Byte} {m : Bool}
    {rs : List Reply} (h : ReadFailure cookie start data m rs) : Answer cookie rs := by
  cases h with
  | simple err he => exact Answer.single rfl rfl
  | structured n err cs h he msg hmsg =>
    refine ⟨?_, _, _, rfl, rfl, ?_⟩
    · intro r hr
      rcases List.mem_append.mp hr with hr | hr
      · obtain ⟨x, _, rfl⟩ := List.mem_map.mp hr; rfl
      · rw [List.mem_singleton] at hr; subst hr; rfl
    · intro r hr
      obtain ⟨x, _, rfl⟩ := List.mem_map.mp hr
      rfl

theorem does_answer {size : Nat} {ro : Bool} {fr : List Bool} {c : Cmd} {l : List Act}
    {rs : List Reply} (h : Does size ro fr c l rs) : Answer c.cookie rs := by
  cases h with
  | read data rs hc hr hl m hm h => exact readAnswer_answer h
  | readFails data rs hc hr hl m hm h => exact readFailure_answer h
  | _ => exact Answer.single rfl rfl

theorem complete_answered {size : Nat} {ro : Bool} {fr : List Bool} {j : Job} {l : List Act}
    (h : Complete size ro fr (cmdOf j.req j.payload) l) : Answered j l := by
  obtain ⟨rs, h1, h2, _⟩ := h
  exact ⟨rs, h1, does_answer h2⟩

theorem partial_begun {size : Nat} {ro : Bool} {fr : List Bool} {j : Job} {l : List Act}
    (h : Partial size ro fr (cmdOf j.req j.payload) l) : Begun j l := by
  obtain ⟨more, rs, h1, h2, _⟩ := h
  rw [msgs_append] at h1
  obtain ⟨a, b, rfl, q1, q2⟩ := Encodes.split h1
  exact ⟨a, b, q1, does_answer h2⟩

theorem plainServer_reads (e : Endian) (cl : Client) (lg : Bool) (fin : Option Request)
    (hfin : ∀ r ∈ fin, r.IsDisc) : (plainServer e cl lg).Reads (closing fin) := by
  constructor
  · intro st s rest hs
    show fetch e cl st (s.encode ++ rest) = .ub ∨ ∃ st' p, p.bytes = s.data ∧
      fetch e cl st (s.encode ++ rest) = .val (st', .push (reqOf e s) p rest)
    rcases fetch_sent e cl st s hs rest with ⟨h, _⟩ | ⟨w', p, h, _, _, _, hp, _⟩
    · exact .inl h
    · exact .inr ⟨_, p, hp, h⟩
  · intro st st' x h
    exact fetch_stops _ _ _ _ _ hfin _ h

theorem magic_ok {σ : Type} (v : Server σ) (r : Request) (hfit : r.Fits) (hm : r.magic = 0x25609513)
    (rest : List Byte) : v.badMagic (r.encode ++ rest) = false := by
  have h28 : r.encode.length = 28 := by simp [Spec.Request.encode, hfit.cookie]
  have ht : (r.encode ++ rest).take 28 = r.encode := by rw [← h28]; exact List.take_left' rfl
  have h2 : (loadReq v.e r.encode).magicOk v.e = true := by
    rw [magicOk_iff]
    apply UInt32.toNat_inj.mp
    have := ntohl_load32 v.e (r.encode.take 4) (by simp [h28])
    have h3 : (ntohl v.e (loadReq v.e r.encode).magic).toNat = (Spec.Request.decode r.encode).magic :=
      this
    rw [h3, Request.decode_encode r hfit, hm]; rfl
  unfold Server.badMagic
  rw [ht, h2]
  simp

/-- The end of a stream holds no request with a wrong magic. -/
theorem closing_ok {σ : Type} (v : Server σ) (fin : Option Request)
    (hfin : ∀ r ∈ fin, r.IsDisc) : v.badMagic (closing fin) = false := by
  cases fin with
  | none => rfl
  | some r =>
    obtain ⟨hfit, hm, _⟩ := hfin r rfl
    have := magic_ok v r hfit hm []
    rwa [List.append_nil] at this

theorem never_dead (e : Endian) (cls : Nat → Client) (hcl : ∀ sid, Flatfile (cls sid))
    (lgs : Nat → Bool) (S T : System World) (hf : ∀ s ∈ S.sessions, s.Fresh)
    (tr : List (Nat × Ext))
    (hx : Exec (fun sid => plainServer e (cls sid) (lgs sid)) S tr T) (sid : Nat)
    (ss : List Sent) (hok : ∀ x ∈ ss, x.Ok) (fin : Option Request) (hfin : ∀ r ∈ fin, r.IsDisc)
    (hs0 : ∃ errnos pos, S.sessions[sid]? =
      some (Session.fresh (ss.flatMap Sent.encode ++ closing fin) errnos pos))
    (s : Session World) (hs : T.sessions[sid]? = some s) : s.main ≠ .dead ∧ s.main ≠ .broken := by
  have hsound : ∀ {T : System World} {tr : List (Nat × Ext)},
      Exec (fun sid => plainServer e (cls sid) (lgs sid)) S tr T →
      ∀ (sid : Nat) s, T.sessions[sid]? = some s → s.Sound Job.Wf := fun hx =>
    hx.always (I := fun _ s => s.Sound Job.Wf)
      (fun sid _ _ _ _ _ h hi => h.sound (plainServer_safe e (cls sid) (hcl sid) (lgs sid)) hi)
      (fun _ s hs => by
        obtain ⟨_, _, _, rfl⟩ := hf s (List.mem_of_getElem? hs)
        refine ⟨by simp [Session.fresh], by simp [Session.fresh], ?_⟩
        intro x hx
        obtain ⟨en, _, rfl⟩ := List.mem_map.mp hx
        trivial)
  refine ⟨?_, (hsound hx sid s hs).main⟩
  induction hx generalizing s with
  | nil =>
    obtain ⟨errnos, pos, h⟩ := hs0
    rw [h] at hs
    cases hs
    simp [Session.fresh]
  | step tr T sid' t t' evs sh' hx ht h1 ih =>
    by_cases he : sid' = sid
    · subst he
      rw [List.getElem?_set_self (List.getElem?_eq_some_iff.mp ht).1] at hs
      cases hs
      intro hd
      rcases h1.dead (plainServer_safe e (cls sid') (hcl sid') (lgs sid')) (hsound hx sid' t ht) hd
        with h | ⟨hm, hb⟩
      · exact ih t ht h
      · obtain ⟨t2, ht2, hfo⟩ := hx.follows (sid := sid') (ss := ss) (tail := closing fin)
          (plainServer_reads e (cls sid') (lgs sid') fin hfin) hok hs0
        rw [ht] at ht2
        cases ht2
        rw [hfo.left hm] at hb
        cases hl : ss.drop (received sid' tr).length with
        | nil =>
          rw [hl] at hb
          simp only [List.flatMap_nil, List.nil_append] at hb
          rw [closing_ok _ fin hfin] at hb
          cases hb
        | cons x xs =>
          rw [hl] at hb
          have hxok : x.Ok := hok x (List.mem_of_mem_drop (by rw [hl]; exact List.mem_cons_self))
          simp only [List.flatMap_cons, Sent.encode, List.append_assoc] at hb
          rw [magic_ok _ _ hxok.fits hxok.magic] at hb
          cases hb
    · rw [List.getElem?_set_ne he] at hs
      exact ih s hs

/-- **C71, in part** (missing: logging of written data). Several sessions on one export of plain
files; the clients whose requests are well-formed get a complete answer to every one of them, once no
thread can go on - which `C71_ends` says comes about -, whatever the other clients send, in any
order of the threads, and whatever the kernel answers to reads, writes and syncs. -/
theorem C71_every_request_answered_partial (e : Endian) (ex : Export) (cls : Nat → Client)
    (hcl : OneExport ex cls) (lgs : Nat → Bool) (hd : ∀ sid, NoDataLog (cls sid) (lgs sid))
    (S T : System World) (hsem : S.sh.sem = none)
    (hf : ∀ s ∈ S.sessions, s.Fresh ∧ s.workers ≠ []) (tr : List (Nat × Ext))
    (hx : Exec (fun sid => plainServer e (cls sid) (lgs sid)) S tr T)
    (hstuck : Stuck (fun sid => plainServer e (cls sid) (lgs sid)) T)
    (sid : Nat) (ss : List Sent) (hok : ∀ x ∈ ss, x.Ok) (fin : Option Request)
    (hfin : ∀ r ∈ fin, r.IsDisc) (errnos : List Nat) (pos : Nat)
    (hs0 : S.sessions[sid]? =
      some (Session.fresh (ss.flatMap Sent.encode ++ closing fin) errnos pos)) :
    ∃ s, T.sessions[sid]? = some s ∧ s.main = .over ∧
      s.sock = ((messages sid tr).map Prod.snd).flatten ∧
      (∀ x ∈ messages sid tr, x.1 < ss.length) ∧
      ∀ (i : Nat) (x : Sent), ss[i]? = some x → ∃ rs, Answer x.req.cookie rs ∧
        messagesFor sid i tr = rs.map Reply.encode := by
  obtain ⟨s, hs, hfo⟩ := hx.follows (sid := sid) (ss := ss) (tail := closing fin)
    (plainServer_reads e (cls sid) (lgs sid) fin hfin) hok ⟨errnos, pos, hs0⟩
  have hov : s.main = .over := by
    obtain ⟨h1, h2⟩ := never_dead e cls hcl.flat lgs S T (fun s hs => (hf s hs).1) tr hx sid ss hok
      fin hfin ⟨errnos, pos, hs0⟩ s hs
    have h3 : s.main.alive = false := by
      cases ha : s.main.alive with
      | false => rfl
      | true =>
        obtain ⟨evs, sh', s', h1⟩ := can_step
          (v := fun sid => plainServer e (cls sid) (lgs sid)) hd hsem hf hx sid s hs ha
        exact absurd h1 (hstuck sid s hs _ _ _)
    cases hm : s.main with
    | over => rfl
    | dead => exact absurd hm h1
    | broken => exact absurd hm h2
    | reading => rw [hm] at h3; cases h3
    | payload => rw [hm] at h3; cases h3
    | closing => rw [hm] at h3; cases h3
  refine ⟨s, hs, hov, ?_⟩
  obtain ⟨⟨part, h1, _, h3⟩, h4, h5, h6⟩ := whole_replies
    (fun sid => plainServer e (cls sid) (lgs sid)) (view ex) (fun _ => Job.Wf)
    (fun sid j => Complete ex.exportsize (badWrite (cls sid)) [(cls sid).structured] (cmdOf j.req j.payload))
    (fun sid j => Partial ex.exportsize (badWrite (cls sid)) [(cls sid).structured] (cmdOf j.req j.payload))
    (fun sid => by
      have := plainServer_meets e (cls sid) (hcl.flat sid) (lgs sid)
      rw [hcl.same sid] at this
      exact this)
    (fun _ _ _ h => complete_answered h) (fun _ _ _ h => partial_begun h) S T tr
    (fun s hs => (hf s hs).1) hx sid s hs
  have hlen := hfo.all (.inr hov)
  have hread := hfo.read
  rw [hlen, List.take_length] at hread
  refine ⟨by rw [h1, h3 hov, List.append_nil], ?_, ?_⟩
  · intro x hxm
    obtain ⟨j, hj, hid⟩ := h4 x hxm
    have : j.id ∈ (received sid tr).map Job.id := List.mem_map_of_mem hj
    rw [h5, hlen, List.mem_range] at this
    omega
  · intro i x hi
    have hlt : i < (received sid tr).length := by
      rw [hlen]; exact (List.getElem?_eq_some_iff.mp hi).1
    have hid : (received sid tr)[i].id = i := by
      have : ((received sid tr).map Job.id)[i]? = some (received sid tr)[i].id := by
        rw [List.getElem?_map, List.getElem?_eq_getElem hlt]; rfl
      rw [h5, List.getElem?_range hlt] at this
      exact (Option.some.inj this).symm
    have hreq : (received sid tr)[i].req.cookie = x.req.cookie := by
      have : ((received sid tr).map Job.what)[i]? = some (received sid tr)[i].what := by
        rw [List.getElem?_map, List.getElem?_eq_getElem hlt]; rfl
      rw [hread, List.getElem?_map, hi] at this
      simp only [Option.map_some, Option.some.injEq, Job.what, Prod.mk.injEq] at this
      rw [← this.1]
      rfl
    obtain ⟨rs, more, q1, q2, q3⟩ := h6 _ (List.getElem_mem hlt)
    rw [hid] at q1
    rw [q3 hov, List.append_nil, hreq] at q2
    exact ⟨rs, q2, q1⟩

/-! ### What goes wrong -/

theorem log_flat (s : Bool) : Flatfile (logClient s) where
  plain := log_plain s
  tree := show has (F_MULTIFILE ||| F_DATALOG) F_TREEFILES = false by decide
  splice := show has (F_MULTIFILE ||| F_DATALOG) F_SPLICE = false by decide
  wait := show has (F_MULTIFILE ||| F_DATALOG) F_WAIT = false by decide

/-- The header and the first two bytes of a write of four. -/
def cutWrite : List Byte := (Demo.write 4 [10, 11, 12, 13]).encode.take 30

/-- The header of a write, but for its first byte. -/
def oddWrite : List Byte := 0 :: ((Demo.write 4 []).encode.drop 1)

/-- One session: a read, then a write that breaks off. -/
def hangSys : System World :=
  ⟨⟨Demo.world, none, []⟩, [Session.fresh ((Demo.request 0 0 4).encode ++ cutWrite) [0, 0] 0]⟩

/-- The main thread reads to the end, then a worker works on the read. -/
def hangTurns : List (Nat × Move) :=
  [(0, .main), (0, .main), (0, .main)] ++ List.replicate 9 (0, .work 0 99)

/-- Two sessions; the second sends one read. -/
def blockSys (first : List Byte) : System World :=
  ⟨⟨Demo.world, none, []⟩,
    [Session.fresh first [0, 0] 0, Session.fresh (Demo.request 0 0 4).encode [0, 0] 0]⟩

/-- **C71 is false** with a data log: a client asks for a read and goes away in the middle of a
write. The main thread still holds the log's semaphore when it waits for the workers, and the worker
needs the semaphore to log the reply. Neither can ever go on; the request is not answered and the
process stays for ever. -/
theorem C71_false_hangs : ∃ tr T, Exec (fun _ => plainServer .little (logClient false) true)
      hangSys tr T ∧ Stuck (fun _ => plainServer .little (logClient false) true) T ∧
    T.sessions.map (fun s => (s.main, s.sock)) = [(.closing, [])] ∧
    (received 0 tr).map (fun j => (j.req.type, j.req.start, j.req.len)) = [(0, 0, 4)] ∧
    messages 0 tr = [] := by
  obtain ⟨tr, T, h1, h2⟩ := System.play_check (fun _ => plainServer .little (logClient false) true)
    hangSys hangTurns (fun tr T => T.stuck (fun _ => plainServer .little (logClient false) true) &&
      T.sessions.map (fun s => (s.main, s.sock)) == [(.closing, [])] &&
      (received 0 tr).map (fun j => (j.req.type, j.req.start, j.req.len)) == [(0, 0, 4)] &&
      messages 0 tr == []) (by decide +kernel)
  simp only [Bool.and_eq_true, beq_iff_eq] at h2
  exact ⟨tr, T, h1, System.stuck_sound h2.1.1.1, h2.1.1.2, h2.1.2, h2.2⟩

/-- **C71 is false** with a data log: the client of the first session goes away in the middle of a
write. Its session ends, but the semaphore stays taken, and the second session, which has been sent
a whole request, waits for it for ever. -/
theorem C71_false_blocks_others : ∃ tr T,
    Exec (fun _ => plainServer .little (logClient false) true) (blockSys cutWrite) tr T ∧
    Stuck (fun _ => plainServer .little (logClient false) true) T ∧
    T.sessions.map (fun s => (s.main, s.sock)) = [(.over, []), (.reading, [])] := by
  obtain ⟨tr, T, h1, h2⟩ := System.play_check (fun _ => plainServer .little (logClient false) true)
    (blockSys cutWrite) [(0, .main), (0, .main), (0, .main)]
    (fun tr T => T.stuck (fun _ => plainServer .little (logClient false) true) &&
      T.sessions.map (fun s => (s.main, s.sock)) == [(.over, []), (.reading, [])]) (by decide +kernel)
  simp only [Bool.and_eq_true, beq_iff_eq] at h2
  exact ⟨tr, T, h1, System.stuck_sound h2.1, h2.2⟩

/-- **C71 is false** with a data log: the same when a client sends 28 bytes that look like a write but
have the wrong magic. -/
theorem C71_false_bad_magic : ∃ tr T,
    Exec (fun _ => plainServer .little (logClient false) true) (blockSys oddWrite) tr T ∧
    Stuck (fun _ => plainServer .little (logClient false) true) T ∧
    T.sessions.map (fun s => (s.main, s.sock)) = [(.dead, []), (.reading, [])] := by
  obtain ⟨tr, T, h1, h2⟩ := System.play_check (fun _ => plainServer .little (logClient false) true)
    (blockSys oddWrite) [(0, .main), (0, .main), (0, .main)]
    (fun tr T => T.stuck (fun _ => plainServer .little (logClient false) true) &&
      T.sessions.map (fun s => (s.main, s.sock)) == [(.dead, []), (.reading, [])]) (by decide +kernel)
  simp only [Bool.and_eq_true, beq_iff_eq] at h2
  exact ⟨tr, T, h1, System.stuck_sound h2.1, h2.2⟩

/-- **C71 is false** when the configuration asks for no threads (`max_threads = 0` is accepted):
whatever the client sends, nothing is ever sent back. -/
theorem C71_false_no_threads (e : Endian) (cl settings : Client) (lg : Bool) (w : World)
    (log stream : List Byte) (pos : Nat) (T : System (Client × World)) (tr : List (Nat × Ext))
    (hx : Exec (fun _ => anyServer e settings lg)
      ⟨⟨(cl, w), none, log⟩, [Session.fresh stream [] pos]⟩ tr T)
    (s : Session (Client × World)) (hs : T.sessions[0]? = some s) : s.sock = [] := by
  have := hx.always (I := fun _ s => s.workers = [] ∧ s.sock = [])
    (fun sid sh sh' s s' evs h hi => by
      obtain ⟨h1, h2⟩ := hi
      cases h with
      | start i en j q ha hw hq => rw [h1] at hw; simp at hw
      | op i j f k st a ha hw h => rw [h1] at hw; simp at hw
      | opFails i j f k ph ha hw h => rw [h1] at hw; simp at hw
      | lock i j m k ha hw hl => rw [h1] at hw; simp at hw
      | write i j m xs ys k ha hw hx hy => rw [h1] at hw; simp at hw
      | unlock i j m rest k ha hw => rw [h1] at hw; simp at hw
      | log i j bs k ha hw hsem => rw [h1] at hw; simp at hw
      | finish i j en ha hw => rw [h1] at hw; simp at hw
      | _ => exact ⟨h1, h2⟩)
    (fun sid s hs => by
      have := List.mem_of_getElem? hs
      rw [List.mem_singleton] at this
      subst this
      exact ⟨rfl, rfl⟩)
  exact (this 0 s hs).2

/-! ### An example -/

/-- Three sessions without a log: one of the clients goes away in the middle of a write, one
sends a wrong magic. -/
def liveSys : System World :=
  ⟨⟨Demo.world, none, []⟩,
    [Session.fresh cutWrite [0] 0, Session.fresh oddWrite [0, 0] 0,
     Session.fresh (parSent.flatMap Sent.encode ++ closing (some parBye)) [0, 0] 0]⟩

def liveTurns : List (Nat × Move) :=
  (List.replicate 70 [(0, .main), (1, .main), (2, .main), (2, .work 0 30), (2, .work 1 9)]).flatten

/-- The hypotheses of `C71_every_request_answered_partial` are met: an execution after which no
thread can go on. -/
example : (∀ s ∈ liveSys.sessions, s.Fresh ∧ s.workers ≠ []) ∧
    (∀ sid, NoDataLog (linCls sid) false) ∧ OneExport Demo.ex linCls ∧ (∀ x ∈ parSent, x.Ok) ∧
    parBye.IsDisc ∧
    ∃ tr T, Exec (fun sid => plainServer .little (linCls sid) false) liveSys tr T ∧
      Stuck (fun sid => plainServer .little (linCls sid) false) T ∧
      T.sessions.map (fun s => s.main) = [.over, .dead, .over] := by
  refine ⟨?_, fun _ => .inl rfl, linCls_one, ?_, ?_, ?_⟩
  · intro s hs
    simp only [liveSys, List.mem_cons, List.not_mem_nil, or_false] at hs
    rcases hs with rfl | rfl | rfl <;> exact ⟨⟨_, _, _, rfl⟩, by simp [Session.fresh]⟩
  · intro s hs
    simp only [parSent, List.mem_cons, List.not_mem_nil, or_false] at hs
    rcases hs with rfl | rfl | rfl | rfl <;>
      exact ⟨⟨by decide, by decide, by decide, by decide, by decide⟩, rfl, by decide, by decide⟩
  · exact ⟨⟨by decide, by decide, by decide, by decide, by decide⟩, rfl, rfl⟩
  · obtain ⟨tr, T, h1, h2⟩ := System.play_check (fun sid => plainServer .little (linCls sid) false)
      liveSys liveTurns
      (fun _ T => T.stuck (fun sid => plainServer .little (linCls sid) false) &&
        T.sessions.map (fun s => s.main) == [.over, .dead, .over]) (by decide +kernel)
    simp only [Bool.and_eq_true, beq_iff_eq] at h2
    exact ⟨tr, T, h1, System.stuck_sound h2.1, h2.2⟩

end Props
end Nbd
