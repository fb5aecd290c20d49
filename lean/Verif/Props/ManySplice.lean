import Verif.Props.Many
import Verif.Props.SpliceLinear
import Verif.SchedSpliceSafe
/-!
# C87 for many clients and threads, on exports with `splice = true`
-/

set_option autoImplicit false

namespace Nbd.Spec

/-- As `OfFiles`, with or without `splice = true`. -/
structure OfSpliced (flags : Nat) : Prop where
  tree : has flags F_TREEFILES = false
  cow : has flags F_COPYONWRITE = false
  wait : has flags F_WAIT = false
  auto : has flags F_AUTOREADONLY = true → has flags F_READONLY = true

end Nbd.Spec

namespace Nbd.Props

open Nbd Nbd.Spec

theorem setup_spliced_kept {flags expected : Nat} {name : List Char} {probes : List ProbeFile} {ex : Export}
    (h : setupExport flags expected name probes = some ex) (hf : OfSpliced flags) :
    OfSpliced ex.flags ∧ has ex.flags F_SPLICE = has flags F_SPLICE := by
  rcases setupExport_flags flags expected name probes ex h with h | h
  · rw [h]; exact ⟨hf, rfl⟩
  · rw [h]
    refine ⟨⟨?_, ?_, ?_, fun _ => ?_⟩, ?_⟩
    · rw [has_ro_or _ _ (by simp)]; exact hf.tree
    · rw [has_ro_or _ _ (by simp)]; exact hf.cow
    · rw [has_ro_or _ _ (by simp)]; exact hf.wait
    · unfold has
      rw [Nat.and_or_distrib_right]
      simp [F_READONLY, F_AUTOREADONLY]
    · rw [has_ro_or _ _ (by simp)]

/-- What a client and the server have agreed on. -/
theorem visitor_met_splice {es : Endian} {cf : NConf} {svs : List SrvExport} {sv : SrvExport} {probes : List ProbeFile} {ex : Export} {v : Visitor}
    (hv : v.Comes es cf svs sv probes ex) (hfl : OfSpliced sv.flags) (hok : FilesOk sv.flags probes)
    (htls : v.c.tls = false ∨ has sv.flags F_SPLICE = false) (d : Nat) :
    ∃ (s : NState) (cl : Client) (fl : Nat),
      session es v.env cf v.n svs v.nz v.sends.1 v.sends.2 = (.serving, s) ∧
      s.client d = some cl ∧ s.inp = v.stream ∧ cl.ex = ex ∧ Spliced cl ∧ (cl.tls = false ∨ has cl.ex.flags F_SPLICE = false) ∧
      cl.structured = false ∧ badWrite cl = fl.testBit 1 ∧
      fl.testBit 1 = has ex.flags F_READONLY ∧
      ∀ out, ∃ s', cliRun v.ec v.c v.errm v.errh (v.gets out).1 (v.gets out).2 = (.ready ex.exportsize fl, s') ∧ s'.inp = out := by
  obtain ⟨hT, hc, hn, h0, hm, hf, hk, hnm, hin, rfl, -, -⟩ := hv
  obtain ⟨hg, hsz, -⟩ := setup_good hin.setup hfl.tree hfl.wait hok
  obtain ⟨hex, hsp⟩ := setup_spliced_kept hin.setup hfl
  obtain ⟨fl, ha⟩ := C27_agree v.ec es v.env cf v.n svs v.nz v.c v.errm v.errh v.A v.At v.B v.Bt hT hc hn h0 hm hf hk sv ex
    (by have := hg.size; omega) hnm hin
  obtain ⟨s, h1, h2, h3, h4, h5, h6, h7⟩ := ha.server v.stream
  obtain ⟨cl, hcl, hcle, hclw, hcls, hclt⟩ : ∃ cl, s.client d = some cl ∧ cl.ex = ex ∧ cl.waiting = false ∧ cl.structured = false ∧ cl.tls = v.c.tls := by
    unfold NState.client
    rw [h7]
    exact ⟨_, rfl, rfl, hex.wait, h4, h3⟩
  have hp : Plain cl := by
    refine ⟨by rw [hcle]; exact hg, ?_⟩
    unfold Client.paged
    rw [hcle, hclw, hex.cow]
    rfl
  have hs1 : session es v.env cf v.n svs v.nz v.sends.1 v.sends.2 = (.serving, s) := by
    unfold Visitor.sends
    rw [← h1]
    cases v.c.tls <;> rfl
  refine ⟨s, cl, fl, hs1, hcl, h2, hcle, ⟨hp, by rw [hcle]; exact hex.tree, by rw [hcle]; exact hex.wait⟩,
    by rw [hclt, hcle, hsp]; exact htls, hcls, ?_, ha.mirrors.read_only, ?_⟩
  · rw [ha.mirrors.read_only]
    unfold badWrite
    rw [hcle]
    have := hex.auto
    cases hx : has ex.flags F_AUTOREADONLY with
    | true => rw [this hx]; rfl
    | false => simp
  · intro out
    obtain ⟨s', q1, q2⟩ := ha.client out
    refine ⟨s', ?_, q2⟩
    rw [← q1]
    unfold Visitor.gets
    cases v.c.tls <;> rfl

theorem spliceServer_reads (e : Endian) (cl : Client) (lg : Bool) (fin : Option Request)
    (hfin : ∀ r ∈ fin, r.IsDisc) : (spliceServer e cl lg).Reads (closing fin) := by
  constructor
  · intro st s rest hs
    show fetch e cl st (s.encode ++ rest) = .ub ∨ ∃ st' p, p.bytes = s.data ∧
      fetch e cl st (s.encode ++ rest) = .val (st', .push (reqOf e s) p rest)
    rcases fetch_sent e cl st s hs rest with ⟨h, _⟩ | ⟨w', p, h, _, _, _, hp, _⟩
    · exact .inl h
    · exact .inr ⟨_, p, hp, h⟩
  · intro st st' x h
    exact fetch_stops _ _ _ _ _ hfin _ h

/-- As `never_dead`, for any server that is safe. -/
theorem never_dead_of {σ : Type} (v : Nat → Server σ) (J : Job → Prop) (hsafe : ∀ sid, (v sid).Safe J)
    (S T : System σ) (hf : ∀ s ∈ S.sessions, s.Fresh)
    (tr : List (Nat × Ext)) (hx : Exec v S tr T) (sid : Nat)
    (ss : List Sent) (hok : ∀ x ∈ ss, x.Ok) (fin : Option Request) (hfin : ∀ r ∈ fin, r.IsDisc)
    (hreads : (v sid).Reads (closing fin))
    (hs0 : ∃ errnos pos, S.sessions[sid]? =
      some (Session.fresh (ss.flatMap Sent.encode ++ closing fin) errnos pos))
    (s : Session σ) (hs : T.sessions[sid]? = some s) : s.main ≠ .dead ∧ s.main ≠ .broken := by
  have hsound : ∀ {T : System σ} {tr : List (Nat × Ext)}, Exec v S tr T →
      ∀ (sid : Nat) s, T.sessions[sid]? = some s → s.Sound J := fun hx =>
    hx.always (I := fun _ s => s.Sound J)
      (fun sid _ _ _ _ _ h hi => h.sound (hsafe sid) hi)
      (fun _ s hs => by
        obtain ⟨_, _, _, rfl⟩ := hf s (List.mem_of_getElem? hs)
        refine ⟨by simp [Session.fresh], by simp [Session.fresh], ?_⟩
        intro x hx
        obtain ⟨en, _, rfl⟩ := List.mem_map.mp hx
        trivial)
  refine ⟨?_, (hsound hx sid s hs).main⟩
  induction hx generalizing s with
  | nil =>
    obtain ⟨errnos, pos, h⟩ := hs0
    rw [h] at hs
    cases hs
    simp [Session.fresh]
  | step tr T sid' t t' evs sh' hx ht h1 ih =>
    by_cases he : sid' = sid
    · subst he
      rw [List.getElem?_set_self (List.getElem?_eq_some_iff.mp ht).1] at hs
      cases hs
      intro hd
      rcases h1.dead (hsafe sid') (hsound hx sid' t ht) hd with h | ⟨hm, hb⟩
      · exact ih t ht h
      · obtain ⟨t2, ht2, hfo⟩ := hx.follows (sid := sid') (ss := ss) (tail := closing fin) hreads hok hs0
        rw [ht] at ht2
        cases ht2
        rw [hfo.left hm] at hb
        cases hl : ss.drop (received sid' tr).length with
        | nil =>
          rw [hl] at hb
          simp only [List.flatMap_nil, List.nil_append] at hb
          rw [closing_ok _ fin hfin] at hb
          cases hb
        | cons x xs =>
          rw [hl] at hb
          have hxok : x.Ok := hok x (List.mem_of_mem_drop (by rw [hl]; exact List.mem_cons_self))
          simp only [List.flatMap_cons, Sent.encode, List.append_assoc] at hb
          rw [magic_ok _ _ hxok.fits hxok.magic] at hb
          cases hb
    · rw [List.getElem?_set_ne he] at hs
      exact ih s hs

/-- **C87** for any number of clients and threads, as `C87_many_partial`, on an export of plain files with or without `splice = true`, on which data of reads and
writes goes through pipes. With splicing the clients do not use TLS (with it a write makes the server's process fail, `C04_false_tls_splice`). Missing: that every
session comes to its end (a pipe that is full makes a thread wait for ever, C96); a page of the file that changes after a reply was handed to the kernel. -/
theorem C87_many_splice_partial (es : Endian) (cf : NConf) (svs : List SrvExport) (sv : SrvExport) (probes : List ProbeFile) (ex : Export)
    (vs : Nat → Visitor) (hv : ∀ i, (vs i).Comes es cf svs sv probes ex) (hfl : OfSpliced sv.flags) (hok : FilesOk sv.flags probes)
    (htls : ∀ i, (vs i).c.tls = false ∨ has sv.flags F_SPLICE = false)
    (d : Nat → Nat) (lgs : Nat → Bool) (N : Nat) (w : World) (log : List Byte) (errnos : Nat → List Nat) (pos : Nat → Nat) :
    ∃ (st : Nat → NState) (cls : Nat → Client) (fl : Nat → Nat) (size : Nat) (f : Flat),
      (∀ i, session es (vs i).env cf (vs i).n svs (vs i).nz (vs i).sends.1 (vs i).sends.2 = (.serving, st i) ∧ (st i).client (d i) = some (cls i) ∧
        (st i).inp = (vs i).stream ∧ (fl i).testBit 1 = has ex.flags F_READONLY) ∧
      size = (if sv.expected ≠ 0 then sv.expected else total (parts sv.flags probes)) ∧ Joined w (parts sv.flags probes) size f ∧
      ∀ tr T, Exec (fun i => spliceServer es (cls i) (lgs i))
          ⟨⟨w, none, log⟩, (List.range N).map fun i => Session.fresh (st i).inp (errnos i) (pos i)⟩ tr T →
        ∃ h f', Spec.visible h = tr ∧ Causal h ∧ Legal f (acts h) f' ∧ Joined T.sh.st (parts sv.flags probes) size f' ∧
          ∀ i, i < N → ∃ s, T.sessions[i]? = some s ∧ s.main ≠ .dead ∧ s.main ≠ .broken ∧
            (∃ s', cliRun (vs i).ec (vs i).c (vs i).errm (vs i).errh ((vs i).gets s.sock).1 ((vs i).gets s.sock).2 = (.ready size (fl i), s') ∧
              s'.inp = s.sock) ∧
            (∃ part, s.sock = ((messages i tr).map Prod.snd).flatten ++ part ∧ (s.main = .over → part = [])) ∧
            (received i tr).map asked = ((vs i).ss.take (received i tr).length).map Sent.cmd ∧
            (s.main = .over → (received i tr).length = (vs i).ss.length) ∧
            ∀ j ∈ received i tr, ∃ more, Complete size ((fl i).testBit 1) [false] (asked j) (mine i j.id h ++ more) ∧ (s.main = .over → more = []) := by
  have hmet := fun i => visitor_met_splice (hv i) hfl hok (htls i) (d i)
  obtain ⟨st, hmet⟩ := Classical.axiomOfChoice hmet
  obtain ⟨cls, hmet⟩ := Classical.axiomOfChoice hmet
  obtain ⟨fl, hmet⟩ := Classical.axiomOfChoice hmet
  obtain ⟨hg, hsz, -⟩ := setup_good (hv 0).letsIn.setup hfl.tree hfl.wait (by rw [(hv 0).files]; exact hok)
  have hset := (hv 0).letsIn.setup
  rw [(hv 0).files] at hsz hset
  have hone : OneSplice ex cls := ⟨fun i => (hmet i).2.2.2.1, fun i => (hmet i).2.2.2.2.1⟩
  refine ⟨st, cls, fl, ex.exportsize, view ex w, fun i => ⟨(hmet i).1, (hmet i).2.1, (hmet i).2.2.1, (hmet i).2.2.2.2.2.2.2.2.1⟩, hsz, view_joined hset hfl.tree hfl.wait hok w, ?_⟩
  intro tr T hx
  have hfresh : ∀ s ∈ (⟨⟨w, none, log⟩, (List.range N).map fun i => Session.fresh (st i).inp (errnos i) (pos i)⟩ : System World).sessions, s.Fresh := by
    intro s hs
    obtain ⟨i, -, rfl⟩ := List.mem_map.mp hs
    exact ⟨_, _, _, rfl⟩
  obtain ⟨h, h1, h2, h3, h4⟩ := C72_splice_interleaving_partial es ex cls lgs hone _ T tr hfresh hx
  refine ⟨h, view ex T.sh.st, h1, h2, h3, view_joined hset hfl.tree hfl.wait hok _, ?_⟩
  intro i hi
  have hs0 : ((List.range N).map fun i => Session.fresh (σ := World) (st i).inp (errnos i) (pos i))[i]? =
      some (Session.fresh ((vs i).ss.flatMap Sent.encode ++ closing (vs i).fin) (errnos i) (pos i)) := by
    rw [List.getElem?_map, List.getElem?_range hi]
    simp only [Option.map_some]
    rw [(hmet i).2.2.1]
    rfl
  have hreads := spliceServer_reads es (cls i) (lgs i) _ (hv i).disc
  obtain ⟨s, hs, hfo⟩ := hx.follows (sid := i) (ss := (vs i).ss) (tail := closing (vs i).fin) hreads (hv i).ok ⟨_, _, hs0⟩
  obtain ⟨hd1, hd2⟩ := never_dead_of (fun i => spliceServer es (cls i) (lgs i)) Job.Fits
    (fun i => spliceServer_safe es (cls i) (hone.flat i) (hmet i).2.2.2.2.2.1 (lgs i)) _ T hfresh tr hx i (vs i).ss (hv i).ok (vs i).fin (hv i).disc
    hreads ⟨_, _, hs0⟩ s hs
  obtain ⟨⟨part, g1, -, g3⟩, -, -, -⟩ := whole_replies
    (fun sid => spliceServer es (cls sid) (lgs sid)) (view ex) (fun _ => Job.Fits)
    (fun sid j => Complete ex.exportsize (badWrite (cls sid)) [(cls sid).structured, false] (cmdOf j.req j.payload))
    (fun sid j => Partial ex.exportsize (badWrite (cls sid)) [(cls sid).structured, false] (cmdOf j.req j.payload))
    (fun sid => by
      have := spliceServer_meets es (cls sid) (hone.flat sid) (lgs sid)
      rw [hone.same sid] at this
      exact this)
    (fun _ _ _ h => complete_answered h) (fun _ _ _ h => partial_begun h) _ T tr hfresh hx i s hs
  refine ⟨s, hs, hd1, hd2, (hmet i).2.2.2.2.2.2.2.2.2 s.sock, ⟨part, g1, g3⟩, ?_, fun ho => hfo.all (.inr ho), ?_⟩
  · have hr := hfo.read
    apply List.ext_getElem?
    intro k
    have hk := congrArg (fun l => l[k]?) hr
    simp only [List.getElem?_map] at hk ⊢
    cases h5 : (received i tr)[k]? with
    | none =>
      rw [h5] at hk
      cases h6 : ((vs i).ss.take (received i tr).length)[k]? with
      | none => rfl
      | some x => rw [h6] at hk; cases hk
    | some j =>
      rw [h5] at hk
      cases h6 : ((vs i).ss.take (received i tr).length)[k]? with
      | none => rw [h6] at hk; cases hk
      | some x =>
        rw [h6] at hk
        simp only [Option.map_some, Option.some.injEq] at hk ⊢
        exact cmd_of_what hk
  · intro j hj
    obtain ⟨more, m1, m2⟩ := h4 i s hs j hj
    rw [(hmet i).2.2.2.2.2.2.1, (hmet i).2.2.2.2.2.2.2.1] at m1
    exact ⟨more, Complete.framing (by simp) m1, m2⟩

namespace ManyDemo

/-- The export of `NDemo` with `splice = true`. -/
def spliced : SrvExport := { NDemo.a with flags := NDemo.a.flags ||| F_SPLICE }

end ManyDemo

/-- The hypotheses of `C87_many_splice_partial` are met, with splicing. -/
example : (∀ i : Nat, ((fun _ => ManyDemo.visitor) i).Comes .big NDemo.cf [ManyDemo.spliced, NDemo.s] ManyDemo.spliced NDemo.yes.probes
      ⟨ManyDemo.spliced.flags, 4096, [⟨3, 0⟩], []⟩) ∧
    OfSpliced ManyDemo.spliced.flags ∧ FilesOk ManyDemo.spliced.flags NDemo.yes.probes ∧ has ManyDemo.spliced.flags F_SPLICE = true ∧
    ∀ i : Nat, ((fun _ => ManyDemo.visitor) i).c.tls = false ∨ has ManyDemo.spliced.flags F_SPLICE = false := by
  have hc : ManyDemo.visitor.Comes .big NDemo.cf [ManyDemo.spliced, NDemo.s] ManyDemo.spliced NDemo.yes.probes
      ⟨ManyDemo.spliced.flags, 4096, [⟨3, 0⟩], []⟩ := by
    refine ⟨⟨by decide +kernel, by decide +kernel, by decide +kernel, by decide +kernel, by decide +kernel⟩, rfl, by decide, by decide, rfl, .inr rfl,
      (by intro h; cases h), ⟨by decide, rfl, .inr (by decide), by decide⟩,
      ⟨.inr ⟨rfl, 89, rfl, by decide, by decide⟩, rfl, rfl, rfl, rfl, rfl, by decide +kernel⟩, rfl, ?_, (by intro r h; cases h)⟩
    intro s hs
    change s ∈ WDemo.talk at hs
    simp only [WDemo.talk, List.mem_cons, List.not_mem_nil, or_false] at hs
    rcases hs with rfl | rfl | rfl | rfl <;> exact ⟨⟨by decide, by decide, by decide, by decide, by decide⟩, by decide, by decide, by decide⟩
  exact ⟨fun _ => hc, ⟨by decide, by decide, by decide, by decide⟩, ⟨by decide, by decide, by decide, by decide⟩, by decide, fun _ => .inl rfl⟩

end Nbd.Props
