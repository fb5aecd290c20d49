import Verif.SchedSplice
import Verif.Props.Live
/-!
# C72 on exports that use `splice(2)`

As `Verif.Props.Linear`, for exports of plain files with or without `splice = true` (`Spliced`: not
copy-on-write, no tree, no wait file). Data of a write may be in a pipe; a read that goes through a
pipe returns each byte as the file holds it when it leaves the pipe, which is later than the
`splice` that put it there.
-/

set_option autoImplicit false

namespace Nbd
namespace Props
open Spec

/-- All sessions serve the export `ex`, an export of plain files that may use `splice`, each with
its own settings (framing of replies, TLS or not, read-only or not, logging or not). -/
structure OneSplice (ex : Export) (cls : Nat → Client) : Prop where
  same : ∀ sid, (cls sid).ex = ex
  flat : ∀ sid, Spliced (cls sid)

theorem fits_data {j : Job} (hj : j.Fits) (hc : (asked j).code = 1) :
    (asked j).data.length = (asked j).len := by
  have ht : j.req.type % 65536 = 1 := by
    simp only [asked, cmdOf] at hc
    split at hc
    · exact hc
    · omega
  obtain ⟨id, r, p⟩ := j
  have hp : p.fits r := hj.2
  cases p with
  | nothing => exact absurd ht hp
  | data bs => exact hp
  | pipe bs => exact hp

theorem splice_history (e : Endian) (ex : Export) (cls : Nat → Client) (lgs : Nat → Bool)
    (hcl : OneSplice ex cls) (S T : System World) (tr : List (Nat × Ext))
    (hf : ∀ s ∈ S.sessions, s.Fresh)
    (hx : Exec (fun sid => spliceServer e (cls sid) (lgs sid)) S tr T) :
    ∃ h, visible h = tr ∧
      Hist (fun sid => Complete ex.exportsize (badWrite (cls sid)) [(cls sid).structured, false]) asked
        (view ex S.sh.st) (view ex T.sh.st) h ∧
      ∀ (sid : Nat) s, T.sessions[sid]? = some s → s.main = .over → ∀ j ∈ recvs sid h,
        Complete ex.exportsize (badWrite (cls sid)) [(cls sid).structured, false] (asked j)
          (mine sid j.id h) := by
  refine history_of_jobs (view := view ex) (fun _ => fits_data) (fun sid => ?_) S T tr hf hx
  have := spliceServer_meets e (cls sid) (hcl.flat sid) (lgs sid)
  rw [hcl.same sid] at this
  exact this

/-- **C72.** Any number of connections to one export, any number of worker threads each, any
interleaving: there is a history of single byte accesses and messages that looks from outside like
what happened; on an array that first holds the contents of the export, every access of the history
sees what was last stored, and the array ends up as the contents of the export. Nothing is done for
a request before it is received; what is done for it is what its command does (`Complete`: all its
accesses before its last message; a read may be answered by a simple reply even if structured
replies were negotiated), as far as it has got, and completely once the session is
over. -/
theorem C72_splice_interleaving_partial (e : Endian) (ex : Export) (cls : Nat → Client)
    (lgs : Nat → Bool) (hcl : OneSplice ex cls) (S T : System World) (tr : List (Nat × Ext))
    (hf : ∀ s ∈ S.sessions, s.Fresh)
    (hx : Exec (fun sid => spliceServer e (cls sid) (lgs sid)) S tr T) :
    ∃ h, visible h = tr ∧ Causal h ∧
      Legal (view ex S.sh.st) (acts h) (view ex T.sh.st) ∧
      ∀ (sid : Nat) s, T.sessions[sid]? = some s → ∀ j ∈ received sid tr,
        ∃ more, Complete ex.exportsize (badWrite (cls sid)) [(cls sid).structured, false] (asked j)
          (mine sid j.id h ++ more) ∧ (s.main = .over → more = []) := by
  obtain ⟨h, h1, h2, h3⟩ := splice_history e ex cls lgs hcl S T tr hf hx
  refine ⟨h, h1, h2.causal, h2.legal, ?_⟩
  intro sid s hs j hj
  rw [← h1, recvs_visible] at hj
  by_cases hov : s.main = .over
  · exact ⟨[], by rw [List.append_nil]; exact h3 sid s hs hov j hj, fun _ => rfl⟩
  · obtain ⟨more, hm⟩ := h2.does sid j hj
    exact ⟨more, hm, fun hh => absurd hh hov⟩

/-- **C72.** A read that is received after the success of a write was sent, on the same connection
or another, returns the byte written, provided no other request that may change this byte is in
flight: every other one received before the read was answered had been answered before the write
was received. -/
theorem C72_splice_latest_write_partial (e : Endian) (ex : Export) (cls : Nat → Client)
    (lgs : Nat → Bool) (hcl : OneSplice ex cls) (S T : System World)
    (hf : ∀ s ∈ S.sessions, s.Fresh) (a b b' c d : List (Nat × Ext)) (s1 s2 : Nat) (W R : Job)
    (ok last : Msg)
    (hx : Exec (fun sid => spliceServer e (cls sid) (lgs sid)) S
      (a ++ (s1, .recv W) :: (b ++ (s1, .sent W.id ok) :: (b' ++ (s2, .recv R) ::
        (c ++ (s2, .sent R.id last) :: d)))) T)
    (i : Nat) (x y : Byte) (hW : Stores (asked W) i x)
    (hok : ok.bytes = (Reply.simple 0 (asked W).cookie []).encode)
    (hR : (asked R).code = 0) (hlast : Finishes last.bytes)
    (hothers : ∀ sid j, (sid, .recv j) ∈ a ++ b ++ b' ++ c → Touches (asked j) i →
      ∃ m, (sid, .sent j.id m) ∈ a)
    (m : Msg) (hm : (s2, .sent R.id m) ∈ c ++ [(s2, .sent R.id last)])
    (hy : Delivers (asked R) m.bytes i y) : y = x := by
  obtain ⟨h, h1, h2, h3⟩ := splice_history e ex cls lgs hcl S T _ hf hx
  obtain ⟨ha, ev, h4, rfl, ea, e1, v1⟩ := visible_split h1
  obtain rfl := visible_recv e1
  obtain ⟨hb, ev, h5, rfl, eb, e2, v2⟩ := visible_split v1
  obtain rfl := visible_sent e2
  obtain ⟨hb', ev, h6, rfl, eb', e3, v3⟩ := visible_split v2
  obtain rfl := visible_recv e3
  obtain ⟨hc, ev, h7, rfl, ec, e4, v4⟩ := visible_split v3
  obtain rfl := visible_sent e4
  have hsize : ex.exportsize ≤ 2 ^ 63 := by
    have := (hcl.flat 0).plain.good.size
    rwa [hcl.same 0] at this
  refine h2.latest (fun _ => Complete.law hsize _ _) trivial rfl hW hok hR hlast ?_ (m := m) ?_ hy
  · intro sid j hj ht
    obtain ⟨m, hm⟩ := hothers sid j (by
      rw [← ea, ← eb, ← eb', ← ec, ← visible_append, ← visible_append, ← visible_append]
      exact mem_visible_recv.mpr hj) ht
    exact ⟨m, mem_visible_sent.mp (by rw [ea]; exact hm)⟩
  · rcases List.mem_append.mp hm with hm | hm
    · rw [← ec] at hm
      have := mem_visible_sent.mp hm
      simp [this]
    · simp only [List.mem_singleton, Prod.mk.injEq, Ext.sent.injEq, true_and] at hm
      simp [hm]

/-- **C72.** What a byte of the export holds at the end: what the last acknowledged write stored
there, provided no other request that may change it was in flight then or came later. -/
theorem C72_splice_final_contents_partial (e : Endian) (ex : Export) (cls : Nat → Client)
    (lgs : Nat → Bool) (hcl : OneSplice ex cls) (S T : System World)
    (hf : ∀ s ∈ S.sessions, s.Fresh) (a b c : List (Nat × Ext)) (s1 : Nat) (W : Job) (ok : Msg)
    (hx : Exec (fun sid => spliceServer e (cls sid) (lgs sid)) S
      (a ++ (s1, .recv W) :: (b ++ (s1, .sent W.id ok) :: c)) T)
    (i : Nat) (x : Byte) (hW : Stores (asked W) i x)
    (hok : ok.bytes = (Reply.simple 0 (asked W).cookie []).encode)
    (hothers : ∀ sid j, (sid, .recv j) ∈ a ++ b ++ c → Touches (asked j) i →
      ∃ m, (sid, .sent j.id m) ∈ a) : view ex T.sh.st i = x := by
  obtain ⟨h, h1, h2, h3⟩ := splice_history e ex cls lgs hcl S T _ hf hx
  obtain ⟨ha, ev, h4, rfl, ea, e1, v1⟩ := visible_split h1
  obtain rfl := visible_recv e1
  obtain ⟨hb, ev, h5, rfl, eb, e2, v2⟩ := visible_split v1
  obtain rfl := visible_sent e2
  have hsize : ex.exportsize ≤ 2 ^ 63 := by
    have := (hcl.flat 0).plain.good.size
    rwa [hcl.same 0] at this
  refine h2.holds (fun _ => Complete.law hsize _ _) trivial (hd := []) (by rw [List.append_nil]) hW hok ?_ h2.legal
  intro sid j hj ht
  obtain ⟨m, hm⟩ := hothers sid j (by
    rw [← ea, ← eb, ← v2, ← visible_append, ← visible_append]
    exact mem_visible_recv.mpr hj) ht
  exact ⟨m, mem_visible_sent.mp (by rw [ea]; exact hm)⟩

/-- **C72.** Every byte a finished read returns was in the export at first, or is one that a
request received before the read was finished was to store there: reads never invent data, however
they overlap with writes. -/
theorem C72_splice_read_origin_partial (e : Endian) (ex : Export) (cls : Nat → Client)
    (lgs : Nat → Bool) (hcl : OneSplice ex cls) (S T : System World)
    (hf : ∀ s ∈ S.sessions, s.Fresh) (a c d : List (Nat × Ext)) (sid : Nat) (R : Job) (last : Msg)
    (hx : Exec (fun sid => spliceServer e (cls sid) (lgs sid)) S
      (a ++ (sid, .recv R) :: (c ++ (sid, .sent R.id last) :: d)) T)
    (i : Nat) (y : Byte) (hR : (asked R).code = 0) (hlast : Finishes last.bytes)
    (m : Msg) (hm : (sid, .sent R.id m) ∈ c ++ [(sid, .sent R.id last)])
    (hy : Delivers (asked R) m.bytes i y) :
    y = view ex S.sh.st i ∨
    ∃ s j, (s, .recv j) ∈ a ++ c ∧ MayStore (asked j) i y := by
  obtain ⟨h, h1, h2, h3⟩ := splice_history e ex cls lgs hcl S T _ hf hx
  obtain ⟨ha, ev, h4, rfl, ea, e1, v1⟩ := visible_split h1
  obtain rfl := visible_recv e1
  obtain ⟨hc, ev, h5, rfl, ec, e2, v2⟩ := visible_split v1
  obtain rfl := visible_sent e2
  have hsize : ex.exportsize ≤ 2 ^ 63 := by
    have := (hcl.flat 0).plain.good.size
    rwa [hcl.same 0] at this
  have hmem : .act sid R.id (.msg m) ∈ ha ++ .recv sid R :: (hc ++ .act sid R.id (.msg last) :: h5) := by
    rcases List.mem_append.mp hm with hm | hm
    · rw [← ec] at hm
      have := mem_visible_sent.mp hm
      simp [this]
    · simp only [List.mem_singleton, Prod.mk.injEq, Ext.sent.injEq, true_and] at hm
      simp [hm]
  rcases h2.origin (fun _ => Complete.law hsize _ _) rfl hR hlast hmem hy with h0 | ⟨s, j, h0, hmay⟩ | ⟨h0, _⟩
  · exact .inl h0
  · refine .inr ⟨s, j, ?_, hmay⟩
    rw [← ea, ← ec, ← visible_append]
    exact mem_visible_recv.mpr h0
  · exact absurd trivial h0

/-- **C72.** The program of a request, run with nothing in between, is `handleRequest`. -/
theorem C72_splice_alone (e : Endian) (cl : Client) (hcl : Spliced cl) (lg : Bool) (w : World)
    (r : Req) (p : Payload) (hlen : r.len < 2 ^ 32) (hp : p.fits r) :
    (requestS e cl lg w.errno r p).run [] w =
      match handleRequest e cl w r p with
      | .ub => .ub
      | .exit => .exit
      | .val (_, w', msgs) => .val (w', msgs, w'.errno) :=
  requestS_run e cl hcl lg w r p hlen hp

/-- **C23, C04** on exports that may use `splice`, with every system call a step: what a client has
received is the messages of its requests, one after the other and none cut in two but the last; each
of them is the beginning of an answer, and a whole answer once the session has ended well. -/
theorem C23_splice (e : Endian) (ex : Export) (cls : Nat → Client) (hcl : OneSplice ex cls)
    (lgs : Nat → Bool) (S T : System World) (hf : ∀ s ∈ S.sessions, s.Fresh) (tr : List (Nat × Ext))
    (hx : Exec (fun sid => spliceServer e (cls sid) (lgs sid)) S tr T) (sid : Nat)
    (s : Session World) (hs : T.sessions[sid]? = some s) :
    (∃ part, s.sock = ((messages sid tr).map Prod.snd).flatten ++ part ∧
      (s.main = .over → part = [])) ∧
    ∀ j ∈ received sid tr, ∃ rs more, messagesFor sid j.id tr = rs.map Reply.encode ∧
      Answer j.req.cookie (rs ++ more) ∧ (s.main = .over → more = []) := by
  obtain ⟨⟨part, h1, _, h3⟩, h4, h5, h6⟩ := whole_replies
    (fun sid => spliceServer e (cls sid) (lgs sid)) (view ex) (fun _ => Job.Fits)
    (fun sid j => Complete ex.exportsize (badWrite (cls sid)) [(cls sid).structured, false]
      (cmdOf j.req j.payload))
    (fun sid j => Partial ex.exportsize (badWrite (cls sid)) [(cls sid).structured, false]
      (cmdOf j.req j.payload))
    (fun sid => by
      have := spliceServer_meets e (cls sid) (hcl.flat sid) (lgs sid)
      rw [hcl.same sid] at this
      exact this)
    (fun _ _ _ h => complete_answered h) (fun _ _ _ h => partial_begun h) S T tr hf hx sid s hs
  exact ⟨⟨part, h1, h3⟩, h6⟩

/-! ### An example -/

/-- The export of the other examples, with `splice = true`. -/
def spliceEx : Export := ⟨F_MULTIFILE ||| F_SPLICE, 11, [⟨3, 0⟩, ⟨4, 5⟩], []⟩

theorem spliceEx_good : GoodExport spliceEx where
  size := by decide
  files _ := ⟨by decide, by decide, by decide⟩

/-- Two sessions on it; the second uses structured replies. -/
def spliceCls (sid : Nat) : Client := ⟨spliceEx, false, [], 0, 0, 0, sid == 1, false⟩

theorem spliceCls_one : OneSplice spliceEx spliceCls where
  same _ := rfl
  flat _ := ⟨⟨spliceEx_good, show (has spliceEx.flags F_COPYONWRITE || false) = false by decide⟩,
    show has spliceEx.flags F_TREEFILES = false by decide,
    show has spliceEx.flags F_WAIT = false by decide⟩

/-- The first session is asked to read six bytes and to write four, the second to read six. -/
def spliceSys : System World :=
  ⟨⟨Demo.world, none, []⟩,
   [Session.fresh ((Demo.request 0 0 6).encode ++ (Demo.write 0 [20, 21, 22, 23]).encode) [0, 0] 0,
    Session.fresh (Demo.request 0 0 6).encode [0, 0] 0]⟩

/-- The first thread fills its pipe and begins to empty it; the second does the whole write, out of
another pipe; the first goes on. -/
def spliceTurns : List (Nat × Move) :=
  [(0, .main), (0, .main)] ++ List.replicate 8 (0, .work 0 99) ++
  List.replicate 12 (0, .work 1 99) ++ List.replicate 12 (0, .work 0 99) ++
  [(1, .main)] ++ List.replicate 20 (1, .work 0 99)

/-- The payload of the write comes in a pipe. -/
def inPipe : Nat × Ext → Bool
  | (_, .recv ⟨_, _, .pipe _⟩) => true
  | _ => false

/-- An execution as in the theorems above: when the write is done, the read that was received before
it has two of its bytes out of its pipe and the others still in it, and returns two old bytes and two
new ones (`1, 2, 22, 23`). The reply on the connection with structured replies is a simple one. -/
example : ∃ tr T, Exec (fun sid => spliceServer .little (spliceCls sid) false) spliceSys tr T ∧
    (tr.map shown == [(0, 0, []), (0, 1, []),
      (0, 1, (Reply.simple 0 Demo.cookie []).encode),
      (0, 0, (Reply.simple 0 Demo.cookie [1, 2, 22, 23, 5, 1]).encode),
      (1, 0, []),
      (1, 0, (Reply.simple 0 Demo.cookie [20, 21, 22, 23, 5, 1]).encode)] &&
     tr.map inPipe == [false, true, false, false, false, false]) = true :=
  System.play_check _ _ spliceTurns _ (by decide +kernel)

end Props
end Nbd
