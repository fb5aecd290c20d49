import Verif.Props.Whole
import Verif.Props.Live
/-!
# C87 for many clients and threads

Any number of clients connect to the same export; each negotiates (C27), and then all of their requests are worked on at the same time (C72), by any number of
threads, in any order of their system calls.
-/

set_option autoImplicit false

namespace Nbd.Spec

/-- A client of a server, and the process that serves it: byte order, environment of the server's process, what the two say to each other when they negotiate
(`A`/`At` what the client sends before and in TLS, `B`/`Bt` the server), the requests of the client's kernel and how it ends. -/
structure Visitor where
  ec : Endian
  env : NEnv
  n : Nat
  nz : Bool
  c : CliConf
  errm : List Byte
  errh : List Byte
  A : List Byte
  At : List Byte
  B : List Byte
  Bt : List Byte
  ss : List Sent
  fin : Option Request

/-- What the client's kernel sends. -/
def Visitor.stream (v : Visitor) : List Byte := v.ss.flatMap Sent.encode ++ closing v.fin

/-- What reaches the server in the clear and in TLS. -/
def Visitor.sends (v : Visitor) : List Byte × Option (List Byte) :=
  if v.c.tls then (v.A, some (v.At ++ v.stream)) else (v.A ++ v.stream, some v.At)

/-- What reaches the client in the clear and in TLS, if the server sends `out` after it has negotiated. -/
def Visitor.gets (v : Visitor) (out : List Byte) : List Byte × List Byte :=
  if v.c.tls then (v.B, v.Bt ++ out) else (v.B ++ out, v.Bt)

/-- The client and the server say what they say (`Talk`); the client asks for the export `sv` and the server lets it in to it, finding the files `probes`;
the requests are well-formed. -/
structure Visitor.Comes (v : Visitor) (es : Endian) (cf : NConf) (svs : List SrvExport) (sv : SrvExport) (probes : List ProbeFile) (ex : Export) : Prop where
  talk : Talk v.ec es v.env cf v.n svs v.nz v.c v.errm v.errh v.A v.At v.B v.Bt
  list : v.c.list = false
  short : v.c.name.length ≤ 4096
  noNul : (0 : Byte) ∉ v.c.name
  malloc : v.env.malloc (v.c.name.length + 1) = true
  tls : v.c.tls = true ∨ cf.forcedTls = false
  key : v.c.tls = true → cf.keyfile = true
  named : Named v.c.tls svs v.c.name sv
  letsIn : LetsIn v.env cf sv 0 ex
  files : (v.env.attempt 0 sv).probes = probes
  ok : ∀ s ∈ v.ss, s.Ok
  disc : ∀ r ∈ v.fin, r.IsDisc

end Nbd.Spec

namespace Nbd.Props

open Nbd Nbd.Spec

/-- What a client and the server have agreed on. -/
theorem visitor_met {es : Endian} {cf : NConf} {svs : List SrvExport} {sv : SrvExport} {probes : List ProbeFile} {ex : Export} {v : Visitor}
    (hv : v.Comes es cf svs sv probes ex) (hfl : OfFiles sv.flags) (hok : FilesOk sv.flags probes) (d : Nat) :
    ∃ (s : NState) (cl : Client) (fl : Nat),
      session es v.env cf v.n svs v.nz v.sends.1 v.sends.2 = (.serving, s) ∧
      s.client d = some cl ∧ s.inp = v.stream ∧ cl.ex = ex ∧ Flatfile cl ∧ cl.structured = false ∧ badWrite cl = fl.testBit 1 ∧
      fl.testBit 1 = has ex.flags F_READONLY ∧
      ∀ out, ∃ s', cliRun v.ec v.c v.errm v.errh (v.gets out).1 (v.gets out).2 = (.ready ex.exportsize fl, s') ∧ s'.inp = out := by
  obtain ⟨hT, hc, hn, h0, hm, hf, hk, hnm, hin, rfl, -, -⟩ := hv
  obtain ⟨hg, hsz, -⟩ := setup_good hin.setup hfl.tree hfl.wait hok
  have hex := setup_flags_kept hin.setup hfl
  obtain ⟨fl, ha⟩ := C27_agree v.ec es v.env cf v.n svs v.nz v.c v.errm v.errh v.A v.At v.B v.Bt hT hc hn h0 hm hf hk sv ex
    (by have := hg.size; omega) hnm hin
  obtain ⟨s, h1, h2, h3, h4, h5, h6, h7⟩ := ha.server v.stream
  obtain ⟨cl, hcl, hcle, hclw, hcls, hclt⟩ : ∃ cl, s.client d = some cl ∧ cl.ex = ex ∧ cl.waiting = false ∧ cl.structured = false ∧ cl.tls = v.c.tls := by
    unfold NState.client
    rw [h7]
    exact ⟨_, rfl, rfl, hex.wait, h4, h3⟩
  have hp : Plain cl := by
    refine ⟨by rw [hcle]; exact hg, ?_⟩
    unfold Client.paged
    rw [hcle, hclw, hex.cow]
    rfl
  have hs1 : session es v.env cf v.n svs v.nz v.sends.1 v.sends.2 = (.serving, s) := by
    unfold Visitor.sends
    rw [← h1]
    cases v.c.tls <;> rfl
  refine ⟨s, cl, fl, hs1, hcl, h2, hcle, ⟨hp, by rw [hcle]; exact hex.tree, by rw [hcle]; exact hex.splice, by rw [hcle]; exact hex.wait⟩, hcls, ?_,
    ha.mirrors.read_only, ?_⟩
  · rw [ha.mirrors.read_only]
    unfold badWrite
    rw [hcle]
    have := hex.auto
    cases hx : has ex.flags F_AUTOREADONLY with
    | true => rw [this hx]; rfl
    | false => simp
  · intro out
    obtain ⟨s', q1, q2⟩ := ha.client out
    refine ⟨s', ?_, q2⟩
    rw [← q1]
    unfold Visitor.gets
    cases v.c.tls <;> rfl

theorem cmd_of_what {e : Endian} {j : Job} {x : Sent} (h : j.what = (reqOf e x, x.data)) : asked j = x.cmd := by
  obtain ⟨id, r, p⟩ := j
  have h1 : r = reqOf e x := congrArg Prod.fst h
  have h2 : p.bytes = x.data := congrArg Prod.snd h
  subst h1
  unfold asked cmdOf
  rw [h2]
  rfl

/-- **C87** for any number of clients and threads (partial: exports of plain files; whole requests, not single bytes, are not promised to be indivisible, see C72).
Clients number 0 to `N - 1` connect to one export of plain files, each by its own method of negotiation. Each then uses a device of `size` bytes, read-only or not
as the server says. Whatever requests their kernels send, and in whatever order the threads of all their server processes take their steps: there is a history `h` of
accesses to single bytes and of messages which shows what has happened outside (`Spec.visible h = tr`); its accesses lead from an array `f` with the contents of the files
to an array `f'` with the contents of the files now; the requests received are those the client sent, in their order; what is done for each request is what its command
says (`Complete`), as far as it has got, and completely when the session is over; the client's kernel gets whole messages only (and perhaps a part of the next), which
are those of the history. When nothing can go on any more (which comes about: C71), and written data is not logged, every session is over. -/
theorem C87_many_partial (es : Endian) (cf : NConf) (svs : List SrvExport) (sv : SrvExport) (probes : List ProbeFile) (ex : Export)
    (vs : Nat → Visitor) (hv : ∀ i, (vs i).Comes es cf svs sv probes ex) (hfl : OfFiles sv.flags) (hok : FilesOk sv.flags probes)
    (d : Nat → Nat) (lgs : Nat → Bool) (N : Nat) (w : World) (log : List Byte) (errnos : Nat → List Nat) (pos : Nat → Nat) :
    ∃ (st : Nat → NState) (cls : Nat → Client) (fl : Nat → Nat) (size : Nat) (f : Flat),
      (∀ i, session es (vs i).env cf (vs i).n svs (vs i).nz (vs i).sends.1 (vs i).sends.2 = (.serving, st i) ∧ (st i).client (d i) = some (cls i) ∧
        (st i).inp = (vs i).stream ∧ (fl i).testBit 1 = has ex.flags F_READONLY) ∧
      size = (if sv.expected ≠ 0 then sv.expected else total (parts sv.flags probes)) ∧ Joined w (parts sv.flags probes) size f ∧
      ∀ tr T, Exec (fun i => plainServer es (cls i) (lgs i))
          ⟨⟨w, none, log⟩, (List.range N).map fun i => Session.fresh (st i).inp (errnos i) (pos i)⟩ tr T →
        ∃ h f', Spec.visible h = tr ∧ Causal h ∧ Legal f (acts h) f' ∧ Joined T.sh.st (parts sv.flags probes) size f' ∧
          ∀ i, i < N → ∃ s, T.sessions[i]? = some s ∧ s.main ≠ .dead ∧ s.main ≠ .broken ∧
            (∃ s', cliRun (vs i).ec (vs i).c (vs i).errm (vs i).errh ((vs i).gets s.sock).1 ((vs i).gets s.sock).2 = (.ready size (fl i), s') ∧
              s'.inp = s.sock) ∧
            (∃ part, s.sock = ((messages i tr).map Prod.snd).flatten ++ part ∧ (s.main = .over → part = [])) ∧
            (received i tr).map asked = ((vs i).ss.take (received i tr).length).map Sent.cmd ∧
            (s.main = .over → (received i tr).length = (vs i).ss.length) ∧
            ((∀ i, NoDataLog (cls i) (lgs i)) → (∀ i, errnos i ≠ []) → Stuck (fun i => plainServer es (cls i) (lgs i)) T → s.main = .over) ∧
            ∀ j ∈ received i tr, ∃ more, Complete size ((fl i).testBit 1) [false] (asked j) (mine i j.id h ++ more) ∧ (s.main = .over → more = []) := by
  have hmet := fun i => visitor_met (hv i) hfl hok (d i)
  obtain ⟨st, hmet⟩ := Classical.axiomOfChoice hmet
  obtain ⟨cls, hmet⟩ := Classical.axiomOfChoice hmet
  obtain ⟨fl, hmet⟩ := Classical.axiomOfChoice hmet
  obtain ⟨hg, hsz, -⟩ := setup_good (hv 0).letsIn.setup hfl.tree hfl.wait (by rw [(hv 0).files]; exact hok)
  have hset := (hv 0).letsIn.setup
  rw [(hv 0).files] at hsz hset
  have hone : OneExport ex cls := ⟨fun i => (hmet i).2.2.2.1, fun i => (hmet i).2.2.2.2.1⟩
  refine ⟨st, cls, fl, ex.exportsize, view ex w, fun i => ⟨(hmet i).1, (hmet i).2.1, (hmet i).2.2.1, (hmet i).2.2.2.2.2.2.2.1⟩, hsz, view_joined hset hfl.tree hfl.wait hok w, ?_⟩
  intro tr T hx
  have hfresh : ∀ s ∈ (⟨⟨w, none, log⟩, (List.range N).map fun i => Session.fresh (st i).inp (errnos i) (pos i)⟩ : System World).sessions, s.Fresh := by
    intro s hs
    obtain ⟨i, -, rfl⟩ := List.mem_map.mp hs
    exact ⟨_, _, _, rfl⟩
  obtain ⟨h, h1, h2, h3, h4⟩ := C72_interleaving_partial es ex cls lgs hone _ T tr hfresh hx
  refine ⟨h, view ex T.sh.st, h1, h2, h3, view_joined hset hfl.tree hfl.wait hok _, ?_⟩
  intro i hi
  have hs0 : ((List.range N).map fun i => Session.fresh (σ := World) (st i).inp (errnos i) (pos i))[i]? =
      some (Session.fresh ((vs i).ss.flatMap Sent.encode ++ closing (vs i).fin) (errnos i) (pos i)) := by
    rw [List.getElem?_map, List.getElem?_range hi]
    simp only [Option.map_some]
    rw [(hmet i).2.2.1]
    rfl
  obtain ⟨s, hs, hfo⟩ := hx.follows (sid := i) (ss := (vs i).ss) (tail := closing (vs i).fin)
    (plainServer_reads es (cls i) (lgs i) _ (hv i).disc) (hv i).ok ⟨_, _, hs0⟩
  obtain ⟨hd1, hd2⟩ := never_dead es cls hone.flat lgs _ T hfresh tr hx i (vs i).ss (hv i).ok (vs i).fin (hv i).disc ⟨_, _, hs0⟩ s hs
  obtain ⟨⟨part, g1, -, g3⟩, -, -, -⟩ := whole_replies
    (fun sid => plainServer es (cls sid) (lgs sid)) (view ex) (fun _ => Job.Wf)
    (fun sid j => Complete ex.exportsize (badWrite (cls sid)) [(cls sid).structured] (cmdOf j.req j.payload))
    (fun sid j => Partial ex.exportsize (badWrite (cls sid)) [(cls sid).structured] (cmdOf j.req j.payload))
    (fun sid => by
      have := plainServer_meets es (cls sid) (hone.flat sid) (lgs sid)
      rw [hone.same sid] at this
      exact this)
    (fun _ _ _ h => complete_answered h) (fun _ _ _ h => partial_begun h) _ T tr hfresh hx i s hs
  refine ⟨s, hs, hd1, hd2, (hmet i).2.2.2.2.2.2.2.2 s.sock, ⟨part, g1, g3⟩, ?_, fun ho => hfo.all (.inr ho), ?_, ?_⟩
  · have hr := hfo.read
    apply List.ext_getElem?
    intro k
    have hk := congrArg (fun l => l[k]?) hr
    simp only [List.getElem?_map] at hk ⊢
    cases h5 : (received i tr)[k]? with
    | none =>
      rw [h5] at hk
      cases h6 : ((vs i).ss.take (received i tr).length)[k]? with
      | none => rfl
      | some x => rw [h6] at hk; cases hk
    | some j =>
      rw [h5] at hk
      cases h6 : ((vs i).ss.take (received i tr).length)[k]? with
      | none => rw [h6] at hk; cases hk
      | some x =>
        rw [h6] at hk
        simp only [Option.map_some, Option.some.injEq] at hk ⊢
        exact cmd_of_what hk
  · intro hlg hen hst
    obtain ⟨s2, hs2, hov, -⟩ := C71_every_request_answered_partial es ex cls hone lgs hlg _ T rfl
      (fun s hs => ⟨hfresh s hs, by
        obtain ⟨k, -, rfl⟩ := List.mem_map.mp hs
        show (errnos k).map Worker.idle ≠ []
        intro h0
        exact hen k (List.map_eq_nil_iff.mp h0)⟩) tr hx hst i (vs i).ss (hv i).ok (vs i).fin (hv i).disc _ _ hs0
    rw [hs] at hs2
    cases hs2
    exact hov
  · intro j hj
    obtain ⟨more, m1, m2⟩ := h4 i s hs j hj
    rw [(hmet i).2.2.2.2.2.1, (hmet i).2.2.2.2.2.2.1] at m1
    exact ⟨more, m1, m2⟩

namespace ManyDemo

/-- The client of C27 with the requests of `WDemo`, as often as one likes. -/
def visitor : Visitor := ⟨.little, NDemo.env, 9, false, CDemo.a, [], [], CDemo.A, [], CDemo.B, [], WDemo.talk, none⟩

end ManyDemo

/-- The hypotheses of `C87_many_partial` are met. -/
example : (∀ i : Nat, ((fun _ => ManyDemo.visitor) i).Comes .big NDemo.cf [NDemo.a, NDemo.s] NDemo.a NDemo.yes.probes ⟨NDemo.a.flags, 4096, [⟨3, 0⟩], []⟩) ∧
    OfFiles NDemo.a.flags ∧ FilesOk NDemo.a.flags NDemo.yes.probes := by
  have hc : ManyDemo.visitor.Comes .big NDemo.cf [NDemo.a, NDemo.s] NDemo.a NDemo.yes.probes ⟨NDemo.a.flags, 4096, [⟨3, 0⟩], []⟩ := by
    refine ⟨⟨by decide +kernel, by decide +kernel, by decide +kernel, by decide +kernel, by decide +kernel⟩, rfl, by decide, by decide, rfl, .inr rfl,
      (by intro h; cases h), ⟨by decide, rfl, .inr (by decide), by decide⟩,
      ⟨.inr ⟨rfl, 89, rfl, by decide, by decide⟩, rfl, rfl, rfl, rfl, rfl, by decide +kernel⟩, rfl, ?_, (by intro r h; cases h)⟩
    intro s hs
    change s ∈ WDemo.talk at hs
    simp only [WDemo.talk, List.mem_cons, List.not_mem_nil, or_false] at hs
    rcases hs with rfl | rfl | rfl | rfl <;> exact ⟨⟨by decide, by decide, by decide, by decide, by decide⟩, by decide, by decide, by decide⟩
  exact ⟨fun _ => hc, ⟨by decide, by decide, by decide, by decide, by decide⟩, ⟨by decide, by decide, by decide, by decide⟩⟩

end Nbd.Props
