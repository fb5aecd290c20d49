import Verif.LinearLemmas
import Verif.SchedSeq
import Verif.Props.Sched
/-!
# C72: requests of one or several connections, processed at the same time

`S` and `T` are systems of sessions (server processes, one per connection) on one export, each with
its main thread and its worker threads; `Exec v S tr T` is any interleaving of their steps, where a
step of a worker is a single system call. `tr` is what can be seen from outside: which session read
which request, and which message was sent (completely) for which request, in real time order.

Restricted to exports of plain files (`Flatfile`: one file or several, no copy-on-write, no tree,
no splice, no wait file), hence `_partial`.
-/

set_option autoImplicit false

namespace Nbd
namespace Props
open Spec

/-- All sessions serve the export `ex`, an export of plain files, each with its own settings
(framing of replies, read-only or not, logging or not). -/
structure OneExport (ex : Export) (cls : Nat → Client) : Prop where
  same : ∀ sid, (cls sid).ex = ex
  flat : ∀ sid, Flatfile (cls sid)

/-- What a session with number `sid` was asked by a request. -/
def asked (j : Job) : Cmd := cmdOf j.req j.payload

theorem asked_data {j : Job} (hj : j.Wf) (hc : (asked j).code = 1) :
    (asked j).data.length = (asked j).len := by
  have ht : j.req.type % 65536 = CMD_WRITE := by
    simp only [asked, cmdOf] at hc
    split at hc
    · exact hc
    · omega
  obtain ⟨bs, h1, h2⟩ := hj.data ht
  simp only [asked, cmdOf]
  rw [h1]
  exact h2

/-- Sessions whose programs do for each request what `C` says have a history; `J` says what requests
are handed over. -/
theorem history_of_jobs {σ : Type} {v : Nat → Server σ} {view : σ → Flat} {C : Nat → Cmd → List Act → Prop}
    {J : Job → Prop}
    (hJ : ∀ j, J j → (asked j).code = 1 → (asked j).data.length = (asked j).len)
    (hv : ∀ sid, (v sid).Meets view J (fun j => C sid (asked j))
      (fun j l => ∃ more, C sid (asked j) (l ++ more)))
    (S T : System σ) (tr : List (Nat × Ext)) (hf : ∀ s ∈ S.sessions, s.Fresh) (hx : Exec v S tr T) :
    ∃ h, visible h = tr ∧ Hist C asked (view S.sh.st) (view T.sh.st) h ∧
      ∀ (sid : Nat) s, T.sessions[sid]? = some s → s.main = .over → ∀ j ∈ recvs sid h,
        C sid (asked j) (mine sid j.id h) := by
  obtain ⟨h, e1, e2, e3, e4, e5⟩ := hx.inv hv hf
  have hnone : ∀ sid, T.sessions[sid]? = none → recvs sid h = [] := by
    intro sid hn
    rw [← recvs_visible, e1]
    clear e1 e2 e3 e4 e5
    induction hx with
    | nil => rfl
    | step tr T sid' s s' evs sh' hx hs h1 ih =>
      have hlen : T.sessions.length ≤ sid := by
        simpa using hn
      have hne : sid' ≠ sid := by
        intro hh
        subst hh
        have := (List.getElem?_eq_some_iff.mp hs).1
        omega
      rw [received_append, ih (by simpa using hlen)]
      clear h1
      induction evs with
      | nil => rfl
      | cons ev evs ihe =>
        cases ev with
        | recv j => simpa [received, hne] using ihe
        | sent j m => simpa [received] using ihe
  refine ⟨h, e1, ⟨e2, e3, ?_, ?_, ?_⟩, ?_⟩
  · intro sid
    cases hs : T.sessions[sid]? with
    | none => rw [hnone sid hs]; simp
    | some s => rw [(e5 sid s hs).ids]; exact List.nodup_range
  · intro sid j hj
    cases hs : T.sessions[sid]? with
    | none => rw [hnone sid hs] at hj; cases hj
    | some s => exact (e5 sid s hs).permitted (hv sid) j hj
  · intro sid j hj hc
    cases hs : T.sessions[sid]? with
    | none => rw [hnone sid hs] at hj; cases hj
    | some s => exact hJ j ((e5 sid s hs).wf j hj) hc
  · intro sid s hs hov j hj
    obtain ⟨t1, t2⟩ := hx.tidy hf sid s hs hov
    rcases (e5 sid s hs).finished j hj with hq | ⟨i, x, hx', hxj⟩ | hp
    · rw [t1] at hq; cases hq
    · obtain ⟨en, rfl⟩ := t2 x (List.mem_of_getElem? hx')
      cases hxj
    · exact hp

/-- Sessions whose programs do for each request what `C` says have a history. -/
theorem history_of {σ : Type} {v : Nat → Server σ} {view : σ → Flat} {C : Nat → Cmd → List Act → Prop}
    (hv : ∀ sid, (v sid).Meets view Job.Wf (fun j => C sid (asked j))
      (fun j l => ∃ more, C sid (asked j) (l ++ more)))
    (S T : System σ) (tr : List (Nat × Ext)) (hf : ∀ s ∈ S.sessions, s.Fresh) (hx : Exec v S tr T) :
    ∃ h, visible h = tr ∧ Hist C asked (view S.sh.st) (view T.sh.st) h ∧
      ∀ (sid : Nat) s, T.sessions[sid]? = some s → s.main = .over → ∀ j ∈ recvs sid h,
        C sid (asked j) (mine sid j.id h) :=
  history_of_jobs (fun _ => asked_data) hv S T tr hf hx

theorem linear_history (e : Endian) (ex : Export) (cls : Nat → Client) (lgs : Nat → Bool)
    (hcl : OneExport ex cls) (S T : System World) (tr : List (Nat × Ext))
    (hf : ∀ s ∈ S.sessions, s.Fresh)
    (hx : Exec (fun sid => plainServer e (cls sid) (lgs sid)) S tr T) :
    ∃ h, visible h = tr ∧
      Hist (fun sid => Complete ex.exportsize (badWrite (cls sid)) [(cls sid).structured]) asked
        (view ex S.sh.st) (view ex T.sh.st) h ∧
      ∀ (sid : Nat) s, T.sessions[sid]? = some s → s.main = .over → ∀ j ∈ recvs sid h,
        Complete ex.exportsize (badWrite (cls sid)) [(cls sid).structured] (asked j)
          (mine sid j.id h) := by
  refine history_of (view := view ex) (fun sid => ?_) S T tr hf hx
  have := plainServer_meets e (cls sid) (hcl.flat sid) (lgs sid)
  rw [hcl.same sid] at this
  exact this

/-- **C72.** Any number of connections to one export, any number of worker threads each, any
interleaving: there is a history of single byte accesses and messages that looks from outside like
what happened; on an array that first holds the contents of the export, every access of the history
sees what was last stored, and the array ends up as the contents of the export. Nothing is done for
a request before it is received; what is done for it is what its command does (`Complete`: all its
accesses before its last message), as far as it has got, and completely once the session is
over. -/
theorem C72_interleaving_partial (e : Endian) (ex : Export) (cls : Nat → Client)
    (lgs : Nat → Bool) (hcl : OneExport ex cls) (S T : System World) (tr : List (Nat × Ext))
    (hf : ∀ s ∈ S.sessions, s.Fresh)
    (hx : Exec (fun sid => plainServer e (cls sid) (lgs sid)) S tr T) :
    ∃ h, visible h = tr ∧ Causal h ∧
      Legal (view ex S.sh.st) (acts h) (view ex T.sh.st) ∧
      ∀ (sid : Nat) s, T.sessions[sid]? = some s → ∀ j ∈ received sid tr,
        ∃ more, Complete ex.exportsize (badWrite (cls sid)) [(cls sid).structured] (asked j)
          (mine sid j.id h ++ more) ∧ (s.main = .over → more = []) := by
  obtain ⟨h, h1, h2, h3⟩ := linear_history e ex cls lgs hcl S T tr hf hx
  refine ⟨h, h1, h2.causal, h2.legal, ?_⟩
  intro sid s hs j hj
  rw [← h1, recvs_visible] at hj
  by_cases hov : s.main = .over
  · exact ⟨[], by rw [List.append_nil]; exact h3 sid s hs hov j hj, fun _ => rfl⟩
  · obtain ⟨more, hm⟩ := h2.does sid j hj
    exact ⟨more, hm, fun hh => absurd hh hov⟩

/-- **C72.** A read that is received after the success of a write was sent, on the same connection
or another, returns the byte written, provided no other request that may change this byte is in
flight: every other one received before the read was answered had been answered before the write
was received. -/
theorem C72_latest_write_partial (e : Endian) (ex : Export) (cls : Nat → Client)
    (lgs : Nat → Bool) (hcl : OneExport ex cls) (S T : System World)
    (hf : ∀ s ∈ S.sessions, s.Fresh) (a b b' c d : List (Nat × Ext)) (s1 s2 : Nat) (W R : Job)
    (ok last : Msg)
    (hx : Exec (fun sid => plainServer e (cls sid) (lgs sid)) S
      (a ++ (s1, .recv W) :: (b ++ (s1, .sent W.id ok) :: (b' ++ (s2, .recv R) ::
        (c ++ (s2, .sent R.id last) :: d)))) T)
    (i : Nat) (x y : Byte) (hW : Stores (asked W) i x)
    (hok : ok.bytes = (Reply.simple 0 (asked W).cookie []).encode)
    (hR : (asked R).code = 0) (hlast : Finishes last.bytes)
    (hothers : ∀ sid j, (sid, .recv j) ∈ a ++ b ++ b' ++ c → Touches (asked j) i →
      ∃ m, (sid, .sent j.id m) ∈ a)
    (m : Msg) (hm : (s2, .sent R.id m) ∈ c ++ [(s2, .sent R.id last)])
    (hy : Delivers (asked R) m.bytes i y) : y = x := by
  obtain ⟨h, h1, h2, h3⟩ := linear_history e ex cls lgs hcl S T _ hf hx
  obtain ⟨ha, ev, h4, rfl, ea, e1, v1⟩ := visible_split h1
  obtain rfl := visible_recv e1
  obtain ⟨hb, ev, h5, rfl, eb, e2, v2⟩ := visible_split v1
  obtain rfl := visible_sent e2
  obtain ⟨hb', ev, h6, rfl, eb', e3, v3⟩ := visible_split v2
  obtain rfl := visible_recv e3
  obtain ⟨hc, ev, h7, rfl, ec, e4, v4⟩ := visible_split v3
  obtain rfl := visible_sent e4
  have hsize : ex.exportsize ≤ 2 ^ 63 := by
    have := (hcl.flat 0).plain.good.size
    rwa [hcl.same 0] at this
  refine h2.latest (fun _ => Complete.law hsize _ _) trivial rfl hW hok hR hlast ?_ (m := m) ?_ hy
  · intro sid j hj ht
    obtain ⟨m, hm⟩ := hothers sid j (by
      rw [← ea, ← eb, ← eb', ← ec, ← visible_append, ← visible_append, ← visible_append]
      exact mem_visible_recv.mpr hj) ht
    exact ⟨m, mem_visible_sent.mp (by rw [ea]; exact hm)⟩
  · rcases List.mem_append.mp hm with hm | hm
    · rw [← ec] at hm
      have := mem_visible_sent.mp hm
      simp [this]
    · simp only [List.mem_singleton, Prod.mk.injEq, Ext.sent.injEq, true_and] at hm
      simp [hm]

/-- **C72.** What a byte of the export holds at the end: what the last acknowledged write stored
there, provided no other request that may change it was in flight then or came later. -/
theorem C72_final_contents_partial (e : Endian) (ex : Export) (cls : Nat → Client)
    (lgs : Nat → Bool) (hcl : OneExport ex cls) (S T : System World)
    (hf : ∀ s ∈ S.sessions, s.Fresh) (a b c : List (Nat × Ext)) (s1 : Nat) (W : Job) (ok : Msg)
    (hx : Exec (fun sid => plainServer e (cls sid) (lgs sid)) S
      (a ++ (s1, .recv W) :: (b ++ (s1, .sent W.id ok) :: c)) T)
    (i : Nat) (x : Byte) (hW : Stores (asked W) i x)
    (hok : ok.bytes = (Reply.simple 0 (asked W).cookie []).encode)
    (hothers : ∀ sid j, (sid, .recv j) ∈ a ++ b ++ c → Touches (asked j) i →
      ∃ m, (sid, .sent j.id m) ∈ a) : view ex T.sh.st i = x := by
  obtain ⟨h, h1, h2, h3⟩ := linear_history e ex cls lgs hcl S T _ hf hx
  obtain ⟨ha, ev, h4, rfl, ea, e1, v1⟩ := visible_split h1
  obtain rfl := visible_recv e1
  obtain ⟨hb, ev, h5, rfl, eb, e2, v2⟩ := visible_split v1
  obtain rfl := visible_sent e2
  have hsize : ex.exportsize ≤ 2 ^ 63 := by
    have := (hcl.flat 0).plain.good.size
    rwa [hcl.same 0] at this
  refine h2.holds (fun _ => Complete.law hsize _ _) trivial (hd := []) (by rw [List.append_nil]) hW hok ?_ h2.legal
  intro sid j hj ht
  obtain ⟨m, hm⟩ := hothers sid j (by
    rw [← ea, ← eb, ← v2, ← visible_append, ← visible_append]
    exact mem_visible_recv.mpr hj) ht
  exact ⟨m, mem_visible_sent.mp (by rw [ea]; exact hm)⟩

/-- **C72.** Every byte a finished read returns was in the export at first, or is one that a
request received before the read was finished was to store there: reads never invent data, however
they overlap with writes. -/
theorem C72_read_origin_partial (e : Endian) (ex : Export) (cls : Nat → Client)
    (lgs : Nat → Bool) (hcl : OneExport ex cls) (S T : System World)
    (hf : ∀ s ∈ S.sessions, s.Fresh) (a c d : List (Nat × Ext)) (sid : Nat) (R : Job) (last : Msg)
    (hx : Exec (fun sid => plainServer e (cls sid) (lgs sid)) S
      (a ++ (sid, .recv R) :: (c ++ (sid, .sent R.id last) :: d)) T)
    (i : Nat) (y : Byte) (hR : (asked R).code = 0) (hlast : Finishes last.bytes)
    (m : Msg) (hm : (sid, .sent R.id m) ∈ c ++ [(sid, .sent R.id last)])
    (hy : Delivers (asked R) m.bytes i y) :
    y = view ex S.sh.st i ∨
    ∃ s j, (s, .recv j) ∈ a ++ c ∧ MayStore (asked j) i y := by
  obtain ⟨h, h1, h2, h3⟩ := linear_history e ex cls lgs hcl S T _ hf hx
  obtain ⟨ha, ev, h4, rfl, ea, e1, v1⟩ := visible_split h1
  obtain rfl := visible_recv e1
  obtain ⟨hc, ev, h5, rfl, ec, e2, v2⟩ := visible_split v1
  obtain rfl := visible_sent e2
  have hsize : ex.exportsize ≤ 2 ^ 63 := by
    have := (hcl.flat 0).plain.good.size
    rwa [hcl.same 0] at this
  have hmem : .act sid R.id (.msg m) ∈ ha ++ .recv sid R :: (hc ++ .act sid R.id (.msg last) :: h5) := by
    rcases List.mem_append.mp hm with hm | hm
    · rw [← ec] at hm
      have := mem_visible_sent.mp hm
      simp [this]
    · simp only [List.mem_singleton, Prod.mk.injEq, Ext.sent.injEq, true_and] at hm
      simp [hm]
  rcases h2.origin (fun _ => Complete.law hsize _ _) rfl hR hlast hmem hy with h0 | ⟨s, j, h0, hmay⟩ | ⟨h0, _⟩
  · exact .inl h0
  · refine .inr ⟨s, j, ?_, hmay⟩
    rw [← ea, ← ec, ← visible_append]
    exact mem_visible_recv.mpr h0
  · exact absurd trivial h0

/-- **C72.** The program of a request, run with nothing in between, is `handleRequest`: what the
other theorems say about requests processed one at a time is about the same code. -/
theorem C72_alone (e : Endian) (cl : Client) (hcl : Flatfile cl) (lg : Bool) (w : World) (r : Req)
    (p : Payload) (hp : r.type % 65536 = 1 → ∃ bs, p = .data bs) :
    (requestP e cl lg w.errno r p).run [] w =
      match handleRequest e cl w r p with
      | .ub => .ub
      | .exit => .exit
      | .val (_, w', msgs) => .val (w', msgs, w'.errno) :=
  requestP_run e cl hcl lg w r p hp

/-! ### An example -/

/-- Two sessions on the export of the other examples; the second uses structured replies. -/
def linCls (sid : Nat) : Client := Demo.client (sid == 1)

theorem linCls_one : OneExport Demo.ex linCls where
  same _ := rfl
  flat _ := ⟨Demo.client_plain _, show has Demo.ex.flags F_TREEFILES = false by decide,
    show has Demo.ex.flags F_SPLICE = false by decide, show has Demo.ex.flags F_WAIT = false by decide⟩

/-- The first sends a read of everything and a write at once, the second a read later on. -/
def linSys : System World :=
  ⟨⟨Demo.world, none, []⟩,
   [Session.fresh ((Demo.request 0 0 11).encode ++ (Demo.write 0 [20, 21, 22, 23]).encode) [0, 0] 0,
    Session.fresh (Demo.request 0 0 6).encode [0, 0] 0]⟩

/-- The first thread begins its read; the second does the whole write; the first goes on. -/
def linTurns : List (Nat × Move) :=
  [(0, .main), (0, .main), (0, .work 0 99), (0, .work 1 99), (0, .work 0 99)] ++
  List.replicate 12 (0, .work 1 99) ++ List.replicate 12 (0, .work 0 99) ++
  [(1, .main)] ++ List.replicate 20 (1, .work 0 99)

/-- Session, number of the request, bytes of a message. -/
def shown : Nat × Ext → Nat × Nat × List Byte
  | (s, .recv j) => (s, j.id, [])
  | (s, .sent j m) => (s, j, m.bytes)

/-- An execution as in the theorems above: the read that overlaps with the write gets an old byte
and three new ones in place of those written (`1, 21, 22, 23`; byte 0 held 1 and now holds 20);
the write is then acknowledged, and the later read on the other connection gets all four. -/
example : ∃ tr T, Exec (fun sid => plainServer .little (linCls sid) false) linSys tr T ∧
    (tr.map shown == [(0, 0, []), (0, 1, []),
      (0, 1, (Reply.simple 0 Demo.cookie []).encode),
      (0, 0, (Reply.simple 0 Demo.cookie [1, 21, 22, 23, 5, 1, 2, 3, 4, 5, 6]).encode),
      (1, 0, []),
      (1, 0, (dataChunk Demo.cookie 0 [20]).encode),
      (1, 0, (dataChunk Demo.cookie 1 [21, 22]).encode),
      (1, 0, (dataChunk Demo.cookie 3 [23, 5]).encode),
      (1, 0, (dataChunk Demo.cookie 5 [1]).encode),
      (1, 0, (doneChunk Demo.cookie).encode)]) = true :=
  System.play_check _ _ linTurns _ (by decide +kernel)

end Props
end Nbd
