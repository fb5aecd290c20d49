import Verif.SchedSplice
import Verif.SchedTree
import Verif.SchedCow
import Verif.SchedKept
import Verif.SchedOne
import Verif.SetupLemmas
/-! # Sessions with several threads on read-only exports -/

set_option autoImplicit false

namespace Nbd
open Spec

section
variable {σ : Type} {R : σ → σ → Prop} {P : Msg → Prop}

/-- Every access to the shared state is an `R` step and every message satisfies `P`. -/
def Prog.Still (R : σ → σ → Prop) (P : Msg → Prop) : Prog σ → Prop
  | .done _ => True
  | .op f k => ∀ s s' a, f s = .val (s', a) → R s s' ∧ (k a).Still R P
  | .send m k => P m ∧ k.Still R P
  | .log _ k => k.Still R P

/-- As `Prog.Still`, for what is left of the work of a thread. -/
def Worker.Still (R : σ → σ → Prop) (P : Job → Msg → Prop) : Worker σ → Prop
  | .idle _ => True
  | .busy j p => p.Still R (P j)
  | .sending j m _ k => P j m ∧ k.Still R (P j)

/-- What is known of a session: `got` it has received, `out` it has sent. -/
structure SessionStill (R : σ → σ → Prop) (P : Job → Msg → Prop) (got : List Job) (out : List (Nat × Msg)) (s : Session σ) : Prop where
  ids : got.map Job.id = List.range s.count
  queued : ∀ j ∈ s.queue, j ∈ got
  working : ∀ (i : Nat) x, s.workers[i]? = some x → x.Still R P ∧ ∀ j, x.job = some j → j ∈ got
  sent : ∀ x ∈ out, ∃ j ∈ got, j.id = x.1 ∧ P j x.2

theorem SessionStill.work {P : Job → Msg → Prop} {got : List Job} {out : List (Nat × Msg)} {s : Session σ}
    (h : SessionStill R P got out s) {i : Nat} {x : Worker σ} (hx : x.Still R P) (hj : ∀ j, x.job = some j → j ∈ got)
    {q : List Job} (hq : ∀ j ∈ q, j ∈ s.queue) {s' : Session σ} (h1 : s'.count = s.count) (h2 : s'.queue = q)
    (h3 : s'.workers = s.workers.set i x) : SessionStill R P got out s' := by
  refine ⟨by rw [h1]; exact h.ids, by rw [h2]; exact fun j hj => h.queued j (hq j hj), ?_, h.sent⟩
  intro i' y hy
  rw [h3] at hy
  rcases getElem?_set_cases hy with ⟨rfl, rfl⟩ | ⟨_, hy⟩
  · exact ⟨hx, hj⟩
  · exact h.working i' y hy

theorem SessionStill.grow {P : Job → Msg → Prop} {got : List Job} {out : List (Nat × Msg)} {s s' : Session σ} {j : Job}
    (h : SessionStill R P got out s) (hj : j.id = s.count) (h1 : s'.count = s.count + 1) (h2 : s'.queue = s.queue ++ [j])
    (h3 : s'.workers = s.workers) : SessionStill R P (got ++ [j]) out s' := by
  refine ⟨by rw [h1, List.range_succ, List.map_append, h.ids, ← hj]; rfl, ?_, ?_, ?_⟩
  · intro j' hj'
    rw [h2] at hj'
    rcases List.mem_append.mp hj' with hj' | hj'
    · exact List.mem_append_left _ (h.queued _ hj')
    · exact List.mem_append_right _ hj'
  · intro i x hx
    rw [h3] at hx
    exact ⟨(h.working i x hx).1, fun j' hj' => List.mem_append_left _ ((h.working i x hx).2 j' hj')⟩
  · intro x hx
    obtain ⟨j', h4, h5⟩ := h.sent x hx
    exact ⟨j', List.mem_append_left _ h4, h5⟩

theorem SessionStill.same {P : Job → Msg → Prop} {got : List Job} {out : List (Nat × Msg)} {s s' : Session σ}
    (h : SessionStill R P got out s) (h1 : s'.count = s.count) (h2 : s'.queue = s.queue) (h3 : s'.workers = s.workers) :
    SessionStill R P got out s' :=
  ⟨by rw [h1]; exact h.ids, by rw [h2]; exact h.queued, by rw [h3]; exact h.working, h.sent⟩

/-- Where every program of the requests of a server is still, its steps are. -/
theorem Step.still {v : Server σ} {P : Job → Msg → Prop} (hr : ∀ s, R s s)
    (hcode : ∀ j en, (v.code en j.req j.payload).Still R (P j))
    (htake : ∀ st st' stream x, v.take st stream = .val (st', x) → R st st')
    {sid : Nat} {sh sh' : Shared σ} {s s' : Session σ} {evs : List Ext} {got : List Job} {out : List (Nat × Msg)}
    (h : Step v sid sh s evs sh' s') (hi : SessionStill R P got out s) :
    R sh.st sh'.st ∧ SessionStill R P (got ++ received sid (evs.map fun x => (sid, x))) (out ++ Spec.sent sid (evs.map fun x => (sid, x))) s' := by
  cases h with
  | accept st r p rest hm hk hsem h =>
    simp only [List.map_cons, List.map_nil, received, Spec.sent, if_true, List.append_nil]
    exact ⟨htake _ _ _ _ h, hi.grow rfl rfl rfl rfl⟩
  | hold hm hk hsem =>
    simp only [List.map_nil, received, Spec.sent, List.append_nil]; exact ⟨hr _, hi.same rfl rfl rfl⟩
  | acceptData st r bs rest hm h =>
    simp only [List.map_cons, List.map_nil, received, Spec.sent, if_true, List.append_nil]
    exact ⟨htake _ _ _ _ h, hi.grow rfl rfl rfl rfl⟩
  | magic hm hb => simp only [List.map_nil, received, Spec.sent, List.append_nil]; exact ⟨hr _, hi.same rfl rfl rfl⟩
  | gone st hm hb h =>
    simp only [List.map_nil, received, Spec.sent, List.append_nil]; exact ⟨htake _ _ _ _ h, hi.same rfl rfl rfl⟩
  | disc st rest hm hk hsem h =>
    simp only [List.map_nil, received, Spec.sent, List.append_nil]; exact ⟨htake _ _ _ _ h, hi.same rfl rfl rfl⟩
  | takeFails ph hm h => simp only [List.map_nil, received, Spec.sent, List.append_nil]; exact ⟨hr _, hi.same rfl rfl rfl⟩
  | close hm hq hw => simp only [List.map_nil, received, Spec.sent, List.append_nil]; exact ⟨hr _, hi.same rfl rfl rfl⟩
  | start i en j q ha hw hq =>
    simp only [List.map_nil, received, Spec.sent, List.append_nil]
    refine ⟨hr _, hi.work (i := i) (x := .busy j (v.code en j.req j.payload)) (hcode j en) ?_ ?_ rfl rfl rfl⟩
    · intro j' hj'
      cases hj'
      exact hi.queued _ (by rw [hq]; exact List.mem_cons_self)
    · intro j' hj'
      rw [hq]; exact List.mem_cons_of_mem _ hj'
  | op i j f k st a ha hw h =>
    simp only [List.map_nil, received, Spec.sent, List.append_nil]
    obtain ⟨h1, h2⟩ := hi.working i _ hw
    obtain ⟨h3, h4⟩ := h1 _ _ _ h
    exact ⟨h3, hi.work (i := i) (x := .busy j (k a)) h4 h2 (fun _ h => h) rfl rfl rfl⟩
  | opFails i j f k ph ha hw h => simp only [List.map_nil, received, Spec.sent, List.append_nil]; exact ⟨hr _, hi.same rfl rfl rfl⟩
  | lock i j m k ha hw hl =>
    simp only [List.map_nil, received, Spec.sent, List.append_nil]
    obtain ⟨h1, h2⟩ := hi.working i _ hw
    exact ⟨hr _, hi.work (i := i) (x := .sending j m m.bytes k) h1 h2 (fun _ h => h) rfl rfl rfl⟩
  | write i j m xs ys k ha hw hx hy =>
    simp only [List.map_nil, received, Spec.sent, List.append_nil]
    obtain ⟨h1, h2⟩ := hi.working i _ hw
    exact ⟨hr _, hi.work (i := i) (x := .sending j m ys k) h1 h2 (fun _ h => h) rfl rfl rfl⟩
  | unlock i j m rest k ha hw =>
    simp only [List.map_cons, List.map_nil, received, Spec.sent, if_true, List.append_nil]
    obtain ⟨h1, h2⟩ := hi.working i _ hw
    refine ⟨hr _, ?_⟩
    have := hi.work (i := i) (x := .busy j k) h1.2 h2 (fun _ h => h) (s' := { s with lock := none, workers := s.workers.set i (.busy j k) }) rfl rfl rfl
    refine ⟨this.ids, this.queued, this.working, ?_⟩
    intro x hx
    rcases List.mem_append.mp hx with hx | hx
    · exact hi.sent x hx
    · rw [List.mem_singleton] at hx
      subst hx
      exact ⟨j, h2 j rfl, rfl, h1.1⟩
  | log i j bs k ha hw hsem =>
    simp only [List.map_nil, received, Spec.sent, List.append_nil]
    obtain ⟨h1, h2⟩ := hi.working i _ hw
    exact ⟨hr _, hi.work (i := i) (x := .busy j k) h1 h2 (fun _ h => h) rfl rfl rfl⟩
  | finish i j en ha hw =>
    simp only [List.map_nil, received, Spec.sent, List.append_nil]
    exact ⟨hr _, hi.work (i := i) (x := .idle en) trivial (fun j hj => by cases hj) (fun _ h => h) rfl rfl rfl⟩

theorem sent_other {sid sid' : Nat} (h : sid' ≠ sid) (evs : List Ext) : Spec.sent sid (evs.map (fun x => (sid', x))) = [] := by
  induction evs with
  | nil => rfl
  | cons x evs ih => cases x <;> simp_all [Spec.sent]

/-- Where every program of the requests of every server is still, executions are. -/
theorem Exec.still {v : Nat → Server σ} {P : Nat → Job → Msg → Prop} (hr : ∀ s, R s s) (ht : ∀ a b c, R a b → R b c → R a c)
    (hcode : ∀ sid j en, ((v sid).code en j.req j.payload).Still R (P sid j))
    (htake : ∀ sid st st' stream x, (v sid).take st stream = .val (st', x) → R st st')
    {S T : System σ} {tr : List (Nat × Ext)}
    (hf : ∀ s ∈ S.sessions, ∃ stream errnos pos, s = Session.fresh stream errnos pos) (hx : Exec v S tr T) :
    R S.sh.st T.sh.st ∧ ∀ (sid : Nat) (s : Session σ), T.sessions[sid]? = some s →
      SessionStill R (P sid) (received sid tr) (Spec.sent sid tr) s := by
  induction hx with
  | nil =>
    refine ⟨hr _, ?_⟩
    intro sid s hs
    obtain ⟨stream, errnos, pos, rfl⟩ := hf s (List.mem_of_getElem? hs)
    refine ⟨rfl, fun j hj => (by cases hj), ?_, fun x hx => (by cases hx)⟩
    intro i x hx
    obtain ⟨en, _, rfl⟩ := List.mem_map.mp (List.mem_of_getElem? hx)
    exact ⟨trivial, fun j hj => by cases hj⟩
  | step tr T sid' s s' evs sh' h hs h1 ih =>
    obtain ⟨h2, h3⟩ := ih
    obtain ⟨h4, h5⟩ := h1.still hr (hcode sid') (htake sid') (h3 _ _ hs)
    refine ⟨ht _ _ _ h2 h4, ?_⟩
    intro sid t ht'
    rw [received_append, sent_append]
    rcases getElem?_set_cases ht' with ⟨rfl, rfl⟩ | ⟨hne, ht'⟩
    · exact h5
    · rw [received_other (Ne.symm hne), sent_other (Ne.symm hne), List.append_nil, List.append_nil]
      exact h3 _ _ ht'

end

/-! ### The programs -/

section
variable {P : Msg → Prop}

theorem sendReplyP_still {σ : Type} {R : σ → σ → Prop} (lg : Bool) (m : Msg) (k : Prog σ) (hm : P m) (hk : k.Still R P) :
    (sendReplyP lg m k).Still R P := by
  unfold sendReplyP
  split <;> exact ⟨hm, hk⟩

theorem sendChunkP_still {σ : Type} {R : σ → σ → Prop} (lg : Bool) (m : Msg) (k : Prog σ) (hm : P m) (hk : k.Still R P) :
    (sendChunkP lg m k).Still R P := by
  unfold sendChunkP
  refine ⟨hm, ?_⟩
  split <;> exact hk

theorem crash_still {σ : Type} {R : σ → σ → Prop} : (crash (σ := σ)).Still R P := fun _ _ _ h => by cases h

theorem sendChunksP_still {σ : Type} {R : σ → σ → Prop} (hP : ∀ m, P m) (lg : Bool) (ms : List Msg) (k : Prog σ) (hk : k.Still R P) :
    (sendChunksP lg ms k).Still R P := by
  induction ms with
  | nil => exact hk
  | cons m ms ih => exact sendChunkP_still _ _ _ (hP _) ih

theorem completeReadP_still {σ : Type} {R : σ → σ → Prop} (hP : ∀ m, P m) (e : Endian) (lg : Bool) (c : ReadCtx) (cookie : List Byte)
    (error : Option UInt32) (en : Nat) : (completeReadP (σ := σ) e lg c cookie error en).Still R P := by
  unfold completeReadP
  split
  · exact crash_still
  · exact crash_still
  · split
    · exact sendChunksP_still hP _ _ _ trivial
    · split
      · exact sendReplyP_still _ _ _ (hP _) trivial
      · exact crash_still

theorem call_still {α : Type} (f : World → Out (World × α)) (en : Nat) (k : α → Nat → Prog World)
    (hf : ∀ w w' a, f w = .val (w', a) → SameStore w w') (hk : ∀ a en, (k a en).Still SameStore P) : (call f en k).Still SameStore P := by
  intro s s' a h
  dsimp only at h
  split at h
  · cases h
  · cases h
  · rename_i w' b hb
    cases h
    exact ⟨hf { s with errno := en } _ _ hb, hk _ _⟩

theorem readOnce_ro (ex : Export) (hro : has ex.flags F_READONLY = true) (c : ReadCtx) (w w' : World)
    (r : Option (ReadCtx × List Byte × Nat)) (h : readOnce ex c w = .val (w', r)) : SameStore w w' := by
  unfold readOnce at h
  split at h
  · cases h
  · cases h
  · rename_i hq; cases h; exact .of_files (rawexpread_ro ex hro _ _ _ _ _ hq)
  · rename_i hq; cases h; exact .of_files (rawexpread_ro ex hro _ _ _ _ _ hq)
  · rename_i hq
    split at h
    · cases h
    · cases h
    · cases h; exact .of_files (rawexpread_ro ex hro _ _ _ _ _ hq)

theorem spliceOnce_ro (ex : Export) (hro : has ex.flags F_READONLY = true) (a len : Nat) (w w' : World)
    (r : Option Nat) (h : spliceOnce ex a len w = .val (w', r)) : SameStore w w' := by
  unfold spliceOnce at h
  split at h
  · cases h
  · cases h
  · rename_i hq; cases h; exact .of_files (rawexpread_ro ex hro _ _ _ _ _ hq)
  · rename_i hq; cases h; exact .of_files (rawexpread_ro ex hro _ _ _ _ _ hq)

theorem readFullyP_still (hP : ∀ m, P m) (e : Endian) (ex : Export) (hro : has ex.flags F_READONLY = true) (cookie : List Byte) (lg : Bool)
    (k : ReadCtx → Bool → Nat → Prog World) (hk : ∀ c b en, (k c b en).Still SameStore P) (n : Nat) :
    ∀ (c : ReadCtx) (en : Nat), c.curLen = n → (readFullyP e ex cookie lg k c en).Still SameStore P := by
  induction n using Nat.strongRecOn with
  | _ n ih =>
    intro c en hc
    unfold readFullyP
    split
    · exact hk _ _ _
    · refine call_still _ _ _ (readOnce_ro ex hro c) ?_
      intro r en
      split
      · exact hk _ _ _
      · have := fun (c' : ReadCtx) (bs : List Byte) n' en => ih (c.curLen - (n' + 1)) (by omega) { c' with curOff := c.curOff + (n' + 1), curLen := c.curLen - (n' + 1) } en rfl
        simp only []
        split
        · exact sendChunkP_still _ _ _ (hP _) (this _ [] _ _)
        · exact this _ [] _ _

theorem readP_still (hP : ∀ m, P m) (e : Endian) (cl : Client) (hro : has cl.ex.flags F_READONLY = true) (lg : Bool) (r : Req) (en : Nat) :
    (readP e cl lg r en).Still SameStore P := by
  unfold readP
  simp only []
  split
  · exact sendChunkP_still _ _ _ (hP _) trivial
  · exact readFullyP_still hP e cl.ex hro _ _ _ (fun c b en => completeReadP_still hP _ _ _ _ _ _) _ _ _ rfl

theorem spliceInP_still (ex : Export) (hro : has ex.flags F_READONLY = true) (k : Bool → List Nat → Nat → Prog World)
    (hk : ∀ b p en, (k b p en).Still SameStore P) (n : Nat) :
    ∀ (a len : Nat) (pipe : List Nat) (en : Nat), len = n → (spliceInP ex k a len pipe en).Still SameStore P := by
  induction n using Nat.strongRecOn with
  | _ n ih =>
    intro a len pipe en hl
    unfold spliceInP
    split
    · exact hk _ _ _
    · refine call_still _ _ _ (spliceOnce_ro ex hro a len) ?_
      intro r en
      split
      · exact hk _ _ _
      · exact hk _ _ _
      · exact ih _ (by omega) _ _ _ _ rfl

theorem peekP_still (ex : Export) (k : List Byte → Prog World) (hk : ∀ bs, (k bs).Still SameStore P) (pipe : List Nat) :
    ∀ acc, (peekP ex k pipe acc).Still SameStore P := by
  induction pipe with
  | nil => intro acc; exact hk _
  | cons a pipe ih =>
    intro acc s s' b h
    cases h
    exact ⟨.refl _, ih _⟩

theorem spliceReadP_still (hP : ∀ m, P m) (e : Endian) (cl : Client) (hro : has cl.ex.flags F_READONLY = true) (lg : Bool) (r : Req) (en : Nat) :
    (spliceReadP e cl lg r en).Still SameStore P := by
  unfold spliceReadP
  split
  · exact readP_still hP e cl hro _ _ _
  · refine call_still _ _ _ ?_ ?_
    · intro w w' a h
      have := mkpipe_files w r.len
      simp only [Out.val.injEq] at h
      rw [h] at this
      exact .of_files this
    · intro piped en
      split
      · refine spliceInP_still _ hro _ ?_ _ _ _ _ _ rfl
        intro ok pipe en
        split
        · refine peekP_still _ _ (fun bs => ?_) _ _
          exact sendReplyP_still _ _ _ (hP _) trivial
        · exact readP_still hP e cl hro _ _ _
      · exact readP_still hP e cl hro _ _ _

theorem flushFilesP_still (k : Bool → Nat → Prog World) (hk : ∀ b en, (k b en).Still SameStore P) (fs : List FileInfo) :
    ∀ en, (flushFilesP k fs en).Still SameStore P := by
  induction fs with
  | nil => intro en; exact hk _ _
  | cons f fs ih =>
    intro en
    refine call_still _ _ _ ?_ ?_
    · intro w w' a h
      have := sysFsync_store w (.fd f.fhandle)
      simp only [Out.val.injEq] at h
      rw [h] at this
      exact this
    · intro ok en
      split
      · exact ih _
      · exact hk _ _

/-- The reply of a read-only export to a request that would change it. -/
def Eperm (r : Req) (m : Msg) : Prop :=
  r.type < 262144 → r.type % 65536 ∈ [1, 4, 6] → m.bytes = (Reply.simple 1 r.cookie []).encode

theorem eperm_refused (e : Endian) (r : Req) : Eperm r (simpleMsg e r (some (nbdErrno e EPERM))) := by
  intro _ _
  rw [nbdErrno_eq]
  have := (simpleMsg_encodes e r (some 1)).wire
  simpa [wire, show errnoWire EPERM = 1 from rfl] using this

theorem eperm_of_not {r : Req} (h : r.type % 65536 ∉ [1, 4, 6]) (m : Msg) : Eperm r m := fun _ h' => absurd h' h

theorem eperm_of_flags {r : Req} (h : ¬ r.type < 262144) (m : Msg) : Eperm r m := fun h' _ => absurd h' h

theorem answerP_still (hP : ∀ m, P m) (e : Endian) (lg : Bool) (r : Req) (ok : Bool) (en : Nat) : (answerP e lg r ok en).Still SameStore P :=
  sendReplyP_still _ _ _ (hP _) trivial

theorem requestP_still (e : Endian) (cl : Client) (hro : has cl.ex.flags F_READONLY = true) (lg : Bool) (en : Nat) (r : Req) (p : Payload) :
    (requestP e cl lg en r p).Still SameStore (Eperm r) := by
  have hbw : badWrite cl = true := by simp [badWrite, hro]
  unfold requestP
  simp only [hbw, if_true]
  by_cases hfl : (r.type - r.type % 65536) / 65536 / 4 ≠ 0
  · rw [if_pos hfl]
    exact sendReplyP_still _ _ _ (eperm_of_flags (by omega) _) trivial
  rw [if_neg hfl]
  by_cases h0 : r.type % 65536 = CMD_READ
  · rw [if_pos h0]
    have hP : ∀ m, Eperm r m := eperm_of_not (by rw [h0]; decide)
    split
    · exact sendReplyP_still _ _ _ (hP _) trivial
    · exact readP_still hP e cl hro _ _ _
  rw [if_neg h0]
  by_cases h1 : r.type % 65536 = CMD_WRITE
  · rw [if_pos h1]; exact sendReplyP_still _ _ _ (eperm_refused e r) trivial
  rw [if_neg h1]
  by_cases h2 : r.type % 65536 = CMD_FLUSH
  · rw [if_pos h2]
    have hP : ∀ m, Eperm r m := eperm_of_not (by rw [h2]; decide)
    split
    · refine call_still _ _ _ ?_ (fun b en => answerP_still hP _ _ _ _ _)
      intro w w' a h
      have := sysFsync_store w (.fd cl.difffile)
      simp only [Out.val.injEq] at h
      rw [h] at this
      exact this
    · exact flushFilesP_still _ (fun b en => answerP_still hP _ _ _ _ _) _ _
  rw [if_neg h2]
  by_cases h3 : r.type % 65536 = CMD_TRIM
  · rw [if_pos h3]; exact sendReplyP_still _ _ _ (eperm_refused e r) trivial
  rw [if_neg h3]
  by_cases h4 : r.type % 65536 = CMD_WRITE_ZEROES
  · rw [if_pos h4]; exact sendReplyP_still _ _ _ (eperm_refused e r) trivial
  rw [if_neg h4]
  refine sendReplyP_still _ _ _ (eperm_of_not ?_ _) trivial
  simp only [List.mem_cons, List.not_mem_nil, or_false, CMD_WRITE, CMD_TRIM, CMD_WRITE_ZEROES] at *
  omega

theorem requestS_still (e : Endian) (cl : Client) (hro : has cl.ex.flags F_READONLY = true) (lg : Bool) (en : Nat) (r : Req) (p : Payload) :
    (requestS e cl lg en r p).Still SameStore (Eperm r) := by
  have hbw : badWrite cl = true := by simp [badWrite, hro]
  have hreq := requestP_still e cl hro lg en r p
  unfold requestS
  simp only [hbw, if_true]
  split
  · exact hreq
  split
  · rename_i h0
    have hP : ∀ m, Eperm r m := eperm_of_not (by rw [h0]; decide)
    split
    · exact hreq
    split
    · exact spliceReadP_still hP e cl hro _ _ _
    · exact readP_still hP e cl hro _ _ _
  · split
    · exact hreq
    · exact hreq

/-! ### Trees -/

theorem openOld_files (p : List Char) (w w' : World) (r : Option Handle) (h : openOld p w = .val (w', r)) : SameStore w w' := by
  unfold openOld at h
  split at h
  · split at h <;> cases h <;> exact .of_files rfl
  · split at h <;> cases h <;> exact .of_files rfl

theorem openDummy_files (w w' : World) (r : Unit) (h : openDummy w = .val (w', r)) : SameStore w w' := by
  unfold openDummy at h
  split at h
  · cases h
  · cases h; exact .of_files rfl

theorem openTreeP_still (ex : Export) (hro : has ex.flags F_READONLY = true) (a : Nat) (k : Handle → Nat → Prog World)
    (hk : ∀ h en, (k h en).Still SameStore P) (en : Nat) : (openTreeP ex a k en).Still SameStore P := by
  unfold openTreeP
  split
  · intro s s' a h; cases h
  · refine call_still _ _ _ (openOld_files _) ?_
    intro h en
    split
    · exact hk _ _
    · rw [if_neg (by simp [hro])]
      exact call_still _ _ _ openDummy_files fun _ en => hk _ _

theorem preadOnce_store (c : ReadCtx) (h : Handle) (w w' : World) (r : Option (ReadCtx × List Byte × Nat))
    (hq : preadOnce c h w = .val (w', r)) : SameStore w w' := by
  unfold preadOnce at hq
  simp only [] at hq
  have := handlePread_files w h ((c.start + c.curOff) % TREEPAGESIZE)
    (clip ((1 + (c.start + c.curOff) / TREEPAGESIZE) * TREEPAGESIZE - (c.start + c.curOff)) c.curLen)
  split at hq
  · rename_i h1; rw [h1] at this; cases hq; exact .of_files this
  · rename_i h1; rw [h1] at this; cases hq; exact .of_files this
  · rename_i h1
    rw [h1] at this
    split at hq
    · cases hq
    · cases hq
    · cases hq; exact .of_files this

theorem readFullyT_still (hP : ∀ m, P m) (e : Endian) (ex : Export) (hro : has ex.flags F_READONLY = true) (cookie : List Byte) (lg : Bool)
    (k : ReadCtx → Bool → Nat → Prog World) (hk : ∀ c b en, (k c b en).Still SameStore P) (n : Nat) :
    ∀ (c : ReadCtx) (en : Nat), c.curLen = n → (readFullyT e ex cookie lg k c en).Still SameStore P := by
  induction n using Nat.strongRecOn with
  | _ n ih =>
    intro c en hc
    unfold readFullyT
    split
    · exact hk _ _ _
    split
    · exact hk _ _ _
    · refine openTreeP_still ex hro _ _ ?_ _
      intro h en
      refine call_still _ _ _ (preadOnce_store c h) ?_
      intro r en
      split
      · exact hk _ _ _
      · have := fun (c' : ReadCtx) n' en => ih (c.curLen - (n' + 1)) (by omega) { c' with curOff := c.curOff + (n' + 1), curLen := c.curLen - (n' + 1) } en rfl
        simp only []
        split
        · exact sendChunkP_still _ _ _ (hP _) (this _ _ _)
        · exact this _ _ _

theorem readT_still (hP : ∀ m, P m) (e : Endian) (cl : Client) (hro : has cl.ex.flags F_READONLY = true) (lg : Bool) (r : Req) (en : Nat) :
    (readT e cl lg r en).Still SameStore P := by
  unfold readT
  simp only []
  split
  · exact sendChunkP_still _ _ _ (hP _) trivial
  · exact readFullyT_still hP e cl.ex hro _ _ _ (fun c b en => completeReadP_still hP _ _ _ _ _ _) _ _ _ rfl

theorem requestT_still (e : Endian) (cl : Client) (hro : has cl.ex.flags F_READONLY = true) (lg : Bool) (en : Nat) (r : Req) (p : Payload) :
    (requestT e cl lg en r p).Still SameStore (Eperm r) := by
  have hbw : badWrite cl = true := by simp [badWrite, hro]
  unfold requestT
  simp only [hbw, if_true]
  by_cases hfl : (r.type - r.type % 65536) / 65536 / 4 ≠ 0
  · rw [if_pos hfl]
    exact sendReplyP_still _ _ _ (eperm_of_flags (by omega) _) trivial
  rw [if_neg hfl]
  by_cases h0 : r.type % 65536 = CMD_READ
  · rw [if_pos h0]
    have hP : ∀ m, Eperm r m := eperm_of_not (by rw [h0]; decide)
    split
    · exact sendReplyP_still _ _ _ (hP _) trivial
    · exact readT_still hP e cl hro _ _ _
  rw [if_neg h0]
  by_cases h1 : r.type % 65536 = CMD_WRITE
  · rw [if_pos h1]; exact sendReplyP_still _ _ _ (eperm_refused e r) trivial
  rw [if_neg h1]
  by_cases h2 : r.type % 65536 = CMD_FLUSH
  · rw [if_pos h2]
    have hP : ∀ m, Eperm r m := eperm_of_not (by rw [h2]; decide)
    refine call_still _ _ _ ?_ (fun b en => answerP_still hP _ _ _ _ _)
    intro w w' a h
    have := expflush_store cl w
    simp only [Out.val.injEq] at h
    rw [h] at this
    exact this
  rw [if_neg h2]
  by_cases h3 : r.type % 65536 = CMD_TRIM
  · rw [if_pos h3]; exact sendReplyP_still _ _ _ (eperm_refused e r) trivial
  rw [if_neg h3]
  by_cases h4 : r.type % 65536 = CMD_WRITE_ZEROES
  · rw [if_pos h4]; exact sendReplyP_still _ _ _ (eperm_refused e r) trivial
  rw [if_neg h4]
  refine sendReplyP_still _ _ _ (eperm_of_not ?_ _) trivial
  simp only [List.mem_cons, List.not_mem_nil, or_false, CMD_WRITE, CMD_TRIM, CMD_WRITE_ZEROES] at *
  omega

/-! ### Copy-on-write exports -/

/-- The files are the same; nothing is said of the memory. -/
def SameStoreM (s s' : Mem) : Prop := SameStore s.2 s'.2

theorem callM_still {α : Type} (f : World → Out (World × α)) (en : Nat) (k : α → Nat → Prog Mem)
    (hf : ∀ w w' a, f w = .val (w', a) → SameStore w w') (hk : ∀ a en, (k a en).Still SameStoreM P) : (callM f en k).Still SameStoreM P := by
  intro s s' a h
  dsimp only at h
  split at h
  · cases h
  · cases h
  · rename_i w' b hb
    cases h
    exact ⟨hf { s.2 with errno := en } _ _ hb, hk _ _⟩

theorem loadMap_still (sid m : Nat) (k : Nat → Prog Mem) (hk : ∀ n, (k n).Still SameStoreM P) : (loadMap sid m k).Still SameStoreM P := by
  intro s s' a h
  dsimp only at h
  split at h
  · cases h
  · cases h; exact ⟨.refl _, hk _⟩

theorem readFullyM_still (hP : ∀ m, P m) (e : Endian) (ex : Export) (hro : has ex.flags F_READONLY = true) (cookie : List Byte) (lg : Bool)
    (k : ReadCtx → Bool → Nat → Prog Mem) (hk : ∀ c b en, (k c b en).Still SameStoreM P) (n : Nat) :
    ∀ (c : ReadCtx) (en : Nat), c.curLen = n → (readFullyM e ex cookie lg k c en).Still SameStoreM P := by
  induction n using Nat.strongRecOn with
  | _ n ih =>
    intro c en hc
    unfold readFullyM
    split
    · exact hk _ _ _
    · refine callM_still _ _ _ (readOnce_ro ex hro c) ?_
      intro r en
      split
      · exact hk _ _ _
      · have := fun (c' : ReadCtx) n' en => ih (c.curLen - (n' + 1)) (by omega) { c' with curOff := c.curOff + (n' + 1), curLen := c.curLen - (n' + 1) } en rfl
        simp only []
        split
        · exact sendChunkP_still _ _ _ (hP _) (this _ _ _)
        · exact this _ _ _

theorem readDiff_files (cl : Client) (c : ReadCtx) (off len : Nat) (w w' : World) (r : Option (ReadCtx × List Byte))
    (h : readDiff cl c off len w = .val (w', r)) : SameStore w w' := by
  unfold readDiff at h
  have := sysPread_files w (.fd cl.difffile) off len
  split at h
  · rename_i h1; rw [h1] at this; cases h; exact .of_files this
  · rename_i h1
    rw [h1] at this
    split at h
    · cases h
    · cases h
    · split at h <;> cases h <;> exact .of_files this

theorem readPagesM_still (hP : ∀ m, P m) (e : Endian) (cl : Client) (hro : has cl.ex.flags F_READONLY = true) (sid : Nat) (cookie : List Byte)
    (lg : Bool) (k : ReadCtx → Bool → Nat → Prog Mem) (hk : ∀ c b en, (k c b en).Still SameStoreM P) (n : Nat) :
    ∀ (c : ReadCtx) (mapcnt a len en : Nat), (readPagesM e cl sid cookie lg k n c mapcnt a len en).Still SameStoreM P := by
  induction n with
  | zero => intro c m a len en; exact hk _ _ _
  | succ n ih =>
    intro c m a len en
    unfold readPagesM
    refine loadMap_still _ _ _ ?_
    intro s
    split
    · refine loadMap_still _ _ _ ?_
      intro s
      refine callM_still _ _ _ (readDiff_files cl c _ _) ?_
      intro r en
      split
      · exact hk _ _ _
      · split
        · exact sendChunkP_still _ _ _ (hP _) (ih _ _ _ _ _)
        · exact ih _ _ _ _ _
    · refine readFullyM_still hP e cl.ex hro _ _ _ ?_ _ _ _ rfl
      intro c ok en
      split
      · exact ih _ _ _ _ _
      · exact hk _ _ _

theorem readM_still (hP : ∀ m, P m) (e : Endian) (cl : Client) (hro : has cl.ex.flags F_READONLY = true) (sid : Nat) (lg : Bool) (r : Req) (en : Nat) :
    (readM e cl sid lg r en).Still SameStoreM P := by
  unfold readM
  simp only []
  split
  · exact sendChunkP_still _ _ _ (hP _) trivial
  · exact readPagesM_still hP e cl hro _ _ _ _ (fun c b en => completeReadP_still hP _ _ _ _ _ _) _ _ _ _ _ _

theorem cowP_still (e : Endian) (cl : Client) (hro : has cl.ex.flags F_READONLY = true) (sid : Nat) (lg : Bool) (en : Nat) (r : Req) (p : Payload) :
    (cowP e cl sid lg en r p).Still SameStoreM (Eperm r) := by
  have hbw : badWrite cl = true := by simp [badWrite, hro]
  unfold cowP
  simp only [hbw, if_true]
  by_cases hfl : (r.type - r.type % 65536) / 65536 / 4 ≠ 0
  · rw [if_pos hfl]
    exact sendReplyP_still _ _ _ (eperm_of_flags (by omega) _) trivial
  rw [if_neg hfl]
  by_cases h0 : r.type % 65536 = CMD_READ
  · rw [if_pos h0]
    have hP : ∀ m, Eperm r m := eperm_of_not (by rw [h0]; decide)
    split
    · exact sendReplyP_still _ _ _ (hP _) trivial
    · exact readM_still hP e cl hro _ _ _ _
  rw [if_neg h0]
  by_cases h1 : r.type % 65536 = CMD_WRITE
  · rw [if_pos h1]; exact sendReplyP_still _ _ _ (eperm_refused e r) trivial
  rw [if_neg h1]
  by_cases h2 : r.type % 65536 = CMD_FLUSH
  · rw [if_pos h2]
    have hP : ∀ m, Eperm r m := eperm_of_not (by rw [h2]; decide)
    refine callM_still _ _ _ ?_ (fun b en => sendReplyP_still _ _ _ (hP _) trivial)
    intro w w' a h
    have := sysFsync_store w (.fd cl.difffile)
    simp only [Out.val.injEq] at h
    rw [h] at this
    exact this
  rw [if_neg h2]
  by_cases h3 : r.type % 65536 = CMD_TRIM
  · rw [if_pos h3]; exact sendReplyP_still _ _ _ (eperm_refused e r) trivial
  rw [if_neg h3]
  by_cases h4 : r.type % 65536 = CMD_WRITE_ZEROES
  · rw [if_pos h4]; exact sendReplyP_still _ _ _ (eperm_refused e r) trivial
  rw [if_neg h4]
  refine sendReplyP_still _ _ _ (eperm_of_not ?_ _) trivial
  simp only [List.mem_cons, List.not_mem_nil, or_false, CMD_WRITE, CMD_TRIM, CMD_WRITE_ZEROES] at *
  omega

end
end Nbd
