import Verif.Props.Whole
import Verif.TreeHealth
/-!
# C87 for tree exports

As C87, for an export kept as a tree of block files: the client has a disk that holds the blocks, and zeroes where there is no block file.
-/

set_option autoImplicit false

namespace Nbd.Spec

/-- The export is a tree: none of the options that make it a copy or something to wait for, and no splice; it was not made read-only behind the back of
the configuration. -/
structure OfTree (flags : Nat) : Prop where
  tree : has flags F_TREEFILES = true
  cow : has flags F_COPYONWRITE = false
  wait : has flags F_WAIT = false
  splice : has flags F_SPLICE = false
  auto : has flags F_AUTOREADONLY = true → has flags F_READONLY = true

/-- The first `size` bytes of the array `f` are those of the block files under the directory `name` as they are stored in `w`, 4096 bytes in each (C14 says
which file has which block), and zero where there is no file. -/
def Blocks (w : World) (name : List Char) (size : Nat) (f : Flat) : Prop :=
  ∀ a, a < size → ∃ p, treeFilename name size a = some p ∧
    match w.files (.path p) with
    | none => f a = 0
    | some file => f a = file.data (a % 4096)

/-- The block files that are there are complete. -/
def WholeBlocks (w : World) (name : List Char) (size : Nat) : Prop :=
  ∀ a p file, a < size → treeFilename name size a = some p → w.files (.path p) = some file → 4096 ≤ file.size

end Nbd.Spec

namespace Nbd.Props

open Nbd Nbd.Spec

/-- **C08 and C22 for trees, no spurious failures.** If no system call fails, the block files that exist are complete, and the request is in range and permitted,
the request succeeds, whether the blocks it concerns have files or not; and the block files are complete afterwards. -/
theorem C08_no_spurious_errors_tree (e : Endian) (cl : Client) (hcl : Treefile cl) (hn : cl.ex.name.length ≤ 4040) (w : World) (r : Req)
    (p : Payload) (hpl : p.fits r) (hnp : ∀ bs, p ≠ .pipe bs)
    (hh : ∀ t, ∃ k, 0 < k ∧ w.orc t = .done k) (hc : WholeBlocks w cl.ex.name cl.ex.exportsize) (hf : r.type < 262144)
    (hcode : r.type % 65536 = 3 ∨
      (r.start + r.len ≤ cl.ex.exportsize ∧
        (r.type % 65536 = 0 ∨
         (badWrite cl = false ∧ (r.type % 65536 = 6 ∨ r.type % 65536 = 1 ∨ r.type % 65536 = 4))))) :
    ∃ w' msgs rs, handleRequest e cl w r p = .val (cl, w', msgs) ∧ msgs.flatMap Msg.bytes = wire rs ∧
      (∀ x ∈ rs, x.error = 0) ∧ WholeBlocks w' cl.ex.name cl.ex.exportsize := by
  obtain ⟨w', msgs, rs, h1, h2, h3, h4⟩ := handleRequest_ready e cl hcl hn w r p hpl (fun bs h => absurd h (hnp bs)) ⟨hh, hc⟩ hf hcode
  exact ⟨w', msgs, rs, h1, h2.wire, h3, h4.blocks⟩

/-- A session of permitted requests on a tree whose store works. -/
theorem mainloop_tree (e : Endian) (cl : Client) (hcl : Treefile cl) (hn : cl.ex.name.length ≤ 4040) (hfr : framing cl = [false])
    (ss : List Sent) (hok : ∀ s ∈ ss, s.Ok) (hmay : ∀ s ∈ ss, May cl.ex.exportsize (badWrite cl) s) : ∀ w, TreeReady cl.ex w →
      (mainloop e cl w (ss.flatMap Sent.encode)).ending = .gone ∧ TreeReady cl.ex (mainloop e cl w (ss.flatMap Sent.encode)).w ∧
      ∃ rs, (mainloop e cl w (ss.flatMap Sent.encode)).sent = wire rs ∧
        DiskRun cl.ex.exportsize (view cl.ex w) (ss.map Sent.cmd) rs (view cl.ex (mainloop e cl w (ss.flatMap Sent.encode)).w) := by
  have hp := hcl.plain
  induction ss with
  | nil =>
    intro w h
    rw [List.flatMap_nil, mainloop_nil]
    exact ⟨rfl, h, [], rfl, .nil _⟩
  | cons s ss ih =>
    intro w hready
    have hs := hok s (by simp)
    have hm := hmay s (by simp)
    have hst : (s :: ss).flatMap Sent.encode = s.encode ++ ss.flatMap Sent.encode := by simp
    rw [hst]
    rcases fetch_sent e cl w s hs (ss.flatMap Sent.encode) with ⟨_, _, hsp⟩ | ⟨w1, p, hf, hsame, hfiles, hfit, hb, _, hpipe⟩
    · rw [hcl.splice] at hsp
      cases hsp
    · rw [mainloop_push _ _ _ _ _ _ _ _ hf]
      have hk1 := fetch_keeps (fun _ => False) _ _ _ _ _ _ hf
      have hready1 : TreeReady cl.ex w1 := hready.same hfiles hk1.orc
      have hnp : ∀ bs, p = .pipe bs → (reqOf e s).len = 0 := by
        intro bs hbs
        rcases hpipe bs hbs with ⟨h, _⟩ | h
        · rw [hcl.splice] at h; cases h
        · exact h
      obtain ⟨w', msgs, rs2, hq, e2, e3, hready2⟩ := handleRequest_ready e cl hcl hn w1 (reqOf e s) p hfit hnp hready1 hm.flags (by
        rcases hm.code with h | ⟨h, h' | ⟨h', h'' | h'' | h''⟩⟩
        · exact .inl h
        · exact .inr ⟨h, .inl h'⟩
        · exact .inr ⟨h, .inr ⟨h', .inr (.inl h'')⟩⟩
        · exact .inr ⟨h, .inr ⟨h', .inr (.inr h'')⟩⟩
        · exact .inr ⟨h, .inr ⟨h', .inl h''⟩⟩)
      rw [hq]
      dsimp only
      have hcmd : cmdOf (reqOf e s) p = s.cmd := by
        unfold cmdOf Sent.cmd; rw [hb]; rfl
      obtain ⟨-, rs, henc, hstep⟩ := handleRequest_plain e cl cl hp w1 w' (reqOf e s) p msgs
        hs.fits.len hfit (fun _ h2 => hm.zeroes h2) hq
      have hcode : s.cmd.code = s.req.type % 65536 := by simp only [Sent.cmd]; rw [if_pos hm.flags]
      rw [hcmd, hsame.view, hfr] at hstep
      have hone : ∃ r, rs = [r] ∧ DiskStep cl.ex.exportsize (view cl.ex w) s.cmd r (view cl.ex w') := by
        have hgood : ∃ rs2, Encodes msgs rs2 ∧ ∀ x ∈ rs2, x.error = 0 := ⟨rs2, e2, e3⟩
        have hbad : ∀ err, err ∈ errnos → rs = [.simple err s.cmd.cookie []] → False := by
          intro err he hr
          obtain ⟨rs2, e2, e3⟩ := hgood
          rw [hr] at henc
          exact (errno_lt he).2 (encodes_err henc e2 e3 (errno_lt he).1)
        have ht : ∀ (g : Flat), FlatStep cl.ex.exportsize (badWrite cl) [false] (view cl.ex w) s.cmd rs g →
            ∃ r, rs = [r] ∧ DiskStep cl.ex.exportsize (view cl.ex w) s.cmd r g := by
          intro g hstep
          cases hstep with
          | read _ hc hr m hmm h =>
            simp only [List.mem_singleton] at hmm
            subst hmm
            cases h
            exact ⟨_, rfl, .read hc⟩
          | readFails _ hc hr m hmm h =>
            simp only [List.mem_singleton] at hmm
            subst hmm
            cases h with
            | simple err he => exact (hbad err he rfl).elim
          | write hc => exact ⟨_, rfl, .write hc⟩
          | writeFails hc _ _ err n he => exact (hbad err he rfl).elim
          | zeroes hc => exact ⟨_, rfl, .zeroes hc⟩
          | zeroesFails hc _ _ err n he => exact (hbad err he rfl).elim
          | flush hc err he =>
            rcases he with rfl | he
            · exact ⟨_, rfl, .flush hc⟩
            · exact (hbad err he rfl).elim
          | trim hc _ _ _ hin hout => exact ⟨_, rfl, .trim hc _ hin hout⟩
          | refused err he why =>
            exfalso
            rw [hcode] at why
            have hcs : s.cmd.start = s.req.start ∧ s.cmd.len = s.req.len := ⟨rfl, rfl⟩
            rw [hcs.1, hcs.2] at why
            simp only [List.mem_cons, List.not_mem_nil, or_false, not_or] at why
            rcases hm.code with h | ⟨h, h' | ⟨h', h''⟩⟩
            · omega
            · omega
            · rw [h'] at why
              simp only [Bool.false_eq_true, and_false, false_or] at why
              omega
        exact ht _ hstep
      obtain ⟨r, rfl, hd⟩ := hone
      obtain ⟨hend, hlast, rs', hw', hrun⟩ := ih (fun x hx => hok x (by simp [hx])) (fun x hx => hmay x (by simp [hx])) w' hready2
      refine ⟨hend, hlast, r :: rs', ?_, .cons _ _ _ _ _ _ _ hd hrun⟩
      exact Run.cons_sent _ _ [r] rs' henc.wire hw'

/-- The contents of the export are those of its block files. -/
theorem view_blocks {ex : Export} (ht : has ex.flags F_TREEFILES = true) (hn : ex.name.length ≤ 4040) (hs : ex.exportsize ≤ 2 ^ 63) (w : World) :
    Blocks w ex.name ex.exportsize (view ex w) := by
  intro a ha
  obtain ⟨p, hp⟩ := treeFilename_some hn hs a
  refine ⟨p, hp, ?_⟩
  unfold view home content
  rw [if_pos ha, ht, if_pos rfl, hp]
  simp only [Option.map_some]
  cases w.files (.path p) with
  | none => rfl
  | some f => rfl

/-- **C87** for trees (partial: zeroes of at most 64 MiB a request, see C09, no splice, and the kernel asks only for what it may). nbd-client connects to nbd-server,
by either method of negotiation, with or without TLS, for an export with the `treefiles` option it is let in to, under a name that leaves room for the paths of
the blocks. Then it uses a device of the configured size. If no system call fails and the block files that exist are complete, every request is carried out and
answered with success: the client has a disk of that size which holds the blocks that have files, and zeroes elsewhere, and afterwards the block files hold what
the disk holds, and are complete. Blocks without a file are given one when they are written (or read). -/
theorem C87_tree_partial (ec es : Endian) (env : NEnv) (cf : NConf) (n : Nat) (svs : List SrvExport) (nz : Bool) (c : CliConf)
    (errm errh A At B Bt : List Byte) (hT : Talk ec es env cf n svs nz c errm errh A At B Bt)
    (hc : c.list = false) (hn : c.name.length ≤ 4096) (h0 : (0 : Byte) ∉ c.name)
    (hm : env.malloc (c.name.length + 1) = true) (hf : c.tls = true ∨ cf.forcedTls = false)
    (hk : c.tls = true → cf.keyfile = true) (sv : SrvExport) (ex : Export)
    (hnm : Named c.tls svs c.name sv) (hin : LetsIn env cf sv 0 ex)
    (hfl : OfTree sv.flags) (hsz : sv.expected ≤ 2 ^ 63) (hdir : (env.attempt 0 sv).exportname.length ≤ 4040)
    (w : World) (hh : ∀ t, ∃ k, 0 < k ∧ w.orc t = .done k) (hcomp : WholeBlocks w (env.attempt 0 sv).exportname sv.expected)
    (d : Nat) (ss : List Sent) (hss : ∀ s ∈ ss, s.Ok)
    (hmay : ∀ s ∈ ss, May sv.expected (has sv.flags F_READONLY) s) :
    ∃ (s : NState) (cl : Client) (rs : List Reply) (fl : Nat) (f f' : Flat) (s' : CState),
      session es env cf n svs nz (if c.tls then A else A ++ ss.flatMap Sent.encode) (some (if c.tls then At ++ ss.flatMap Sent.encode else At)) = (.serving, s) ∧
      s.client d = some cl ∧ s.inp = ss.flatMap Sent.encode ∧
      (mainloop es cl w s.inp).ending = .gone ∧ (mainloop es cl w s.inp).sent = wire rs ∧
      cliRun ec c errm errh (if c.tls then B else B ++ wire rs) (if c.tls then Bt ++ wire rs else Bt) = (.ready sv.expected fl, s') ∧ s'.inp = wire rs ∧
      fl.testBit 1 = has sv.flags F_READONLY ∧
      Blocks w (env.attempt 0 sv).exportname sv.expected f ∧
      Blocks (mainloop es cl w s.inp).w (env.attempt 0 sv).exportname sv.expected f' ∧
      WholeBlocks (mainloop es cl w s.inp).w (env.attempt 0 sv).exportname sv.expected ∧
      DiskRun sv.expected f (ss.map Sent.cmd) rs f' := by
  have hex : ex = ⟨sv.flags, sv.expected, [], (env.attempt 0 sv).exportname⟩ := by
    have := hin.setup
    unfold setupExport at this
    rw [hfl.tree] at this
    simpa using this.symm
  subst hex
  obtain ⟨fl, ha⟩ := C27_agree ec es env cf n svs nz c errm errh A At B Bt hT hc hn h0 hm hf hk sv _ (by dsimp only; omega) hnm hin
  obtain ⟨s, h1, h2, h3, h4, h5, h6, h7⟩ := ha.server (ss.flatMap Sent.encode)
  obtain ⟨cl, hcl, hcle, hclw, hcls⟩ : ∃ cl, s.client d = some cl ∧ cl.ex = ⟨sv.flags, sv.expected, [], (env.attempt 0 sv).exportname⟩ ∧
      cl.waiting = false ∧ cl.structured = false := by
    unfold NState.client
    rw [h7]
    exact ⟨_, rfl, rfl, hfl.wait, h4⟩
  have htree : Treefile cl := by
    refine ⟨⟨?_, ?_⟩, ?_, ?_, ?_⟩
    · rw [hcle]
      exact ⟨hsz, fun h => by have := hfl.tree; rw [show has sv.flags F_TREEFILES = false from h] at this; cases this⟩
    · unfold Client.paged
      rw [hcle, hclw]
      show (has sv.flags F_COPYONWRITE || false) = false
      rw [hfl.cow]; rfl
    · rw [hcle]; exact hfl.tree
    · rw [hcle]; exact hfl.splice
    · rw [hcle]; exact hfl.wait
  have hbw : badWrite cl = has sv.flags F_READONLY := by
    show (has cl.ex.flags F_READONLY || has cl.ex.flags F_AUTOREADONLY) = _
    rw [hcle]
    have := hfl.auto
    show (has sv.flags F_READONLY || has sv.flags F_AUTOREADONLY) = _
    cases hx : has sv.flags F_AUTOREADONLY with
    | true => rw [this hx]; rfl
    | false => simp
  have hfr : framing cl = [false] := by
    unfold framing
    rw [htree.splice, hcls]; rfl
  have hname : cl.ex.name = (env.attempt 0 sv).exportname := by rw [hcle]
  have hsize : cl.ex.exportsize = sv.expected := by rw [hcle]
  obtain ⟨hend, hlast, rs, hr1, hr2⟩ := mainloop_tree es cl htree (by rw [hname]; exact hdir) hfr ss hss (by rw [hbw, hsize]; exact hmay) w
    ⟨hh, by rw [hname, hsize]; exact hcomp⟩
  obtain ⟨s', hs1, hs2⟩ := ha.client (wire rs)
  rw [← h2] at hend hlast hr1 hr2
  have hv := view_blocks htree.tree (by rw [hname]; exact hdir) htree.plain.good.size
  rw [hname, hsize] at hv
  rw [hsize] at hr2
  have hl := hlast.blocks
  rw [hname, hsize] at hl
  exact ⟨s, cl, rs, fl, view cl.ex w, view cl.ex (mainloop es cl w s.inp).w, s', h1, hcl, h2, hend, hr1, hs1, hs2, ha.mirrors.read_only, hv w, hv _, hl, hr2⟩

namespace WDemo

/-- A tree of 8 KiB in the directory `/t`, of which no block has been written. -/
def tree : SrvExport := ⟨0, [97], F_FLUSH ||| F_FUA ||| F_TRIM ||| F_TREEFILES, 8192⟩

def treeEnv : NEnv := ⟨fun _ _ => { NDemo.yes with exportname := ['/', 't'], probes := [] }, fun _ => true⟩

def treeB : List Byte := (session .big treeEnv NDemo.cf 9 [tree, NDemo.s] false CDemo.A (some [])).2.plainOut

/-- System calls that transfer at most 7 bytes. -/
def treeWorld : World := ⟨fun _ => none, fun _ => .done 7, 0, 0, fun _ => []⟩

/-- Write ten bytes across the two blocks, flush, and read over the place. -/
def treeTalk : List Sent := [Demo.write 4090 [1, 2, 3, 4, 5, 6, 7, 8, 9, 10], Demo.request 3 0 0, Demo.request 0 4085 20, Demo.request 4 0 4096,
  Demo.request 0 4085 20]

end WDemo

/-- The hypotheses of `C87_tree_partial` are met. -/
example : Talk .little .big WDemo.treeEnv NDemo.cf 9 [WDemo.tree, NDemo.s] false CDemo.a [] [] CDemo.A [] WDemo.treeB [] ∧
    Named false [WDemo.tree, NDemo.s] CDemo.a.name WDemo.tree ∧
    LetsIn WDemo.treeEnv NDemo.cf WDemo.tree 0 ⟨WDemo.tree.flags, 8192, [], ['/', 't']⟩ ∧ OfTree WDemo.tree.flags ∧
    (∀ t, ∃ k, 0 < k ∧ WDemo.treeWorld.orc t = .done k) ∧ WholeBlocks WDemo.treeWorld ['/', 't'] 8192 ∧
    (∀ s ∈ WDemo.treeTalk, s.Ok) ∧ (∀ s ∈ WDemo.treeTalk, May 8192 false s) := by
  refine ⟨⟨by decide +kernel, by decide +kernel, by decide +kernel, by decide +kernel, by decide +kernel⟩,
    ⟨by decide, rfl, .inr (by decide), by decide⟩, ⟨.inr ⟨rfl, 89, rfl, by decide, by decide⟩, rfl, rfl, rfl, rfl, rfl, by decide +kernel⟩,
    ⟨by decide, by decide, by decide, by decide, by decide⟩, fun _ => ⟨7, by decide, rfl⟩, ?_, ?_, ?_⟩
  · intro a p f _ _ h
    cases h
  · intro s hs
    simp only [WDemo.treeTalk, List.mem_cons, List.not_mem_nil, or_false] at hs
    rcases hs with rfl | rfl | rfl | rfl | rfl <;> exact ⟨⟨by decide, by decide, by decide, by decide, by decide⟩, by decide, by decide, by decide⟩
  · intro s hs
    simp only [WDemo.treeTalk, List.mem_cons, List.not_mem_nil, or_false] at hs
    rcases hs with rfl | rfl | rfl | rfl | rfl <;> exact ⟨by decide, by decide, by decide⟩

/-- And that is what happens: a block that is trimmed reads as zeroes. -/
example : (mainloop .big ⟨⟨WDemo.tree.flags, 8192, [], ['/', 't']⟩, false, [], 0, 0, 0, false, false⟩ WDemo.treeWorld (WDemo.treeTalk.flatMap Sent.encode)).sent =
    wire [.simple 0 Demo.cookie [], .simple 0 Demo.cookie [],
      .simple 0 Demo.cookie [0, 0, 0, 0, 0, 1, 2, 3, 4, 5, 6, 7, 8, 9, 10, 0, 0, 0, 0, 0], .simple 0 Demo.cookie [],
      .simple 0 Demo.cookie [0, 0, 0, 0, 0, 0, 0, 0, 0, 0, 0, 7, 8, 9, 10, 0, 0, 0, 0, 0]] := by decide +kernel

end Nbd.Props
