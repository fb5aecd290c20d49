import Verif.Props.Whole
import Verif.Props.CowConf
/-!
# C87 for copy-on-write exports

From nbd-client's first byte to the private copy and back: C27 (negotiation), C13 and C49 (the files one after the other), C12 (what the session reads is
what it wrote, and the original elsewhere) and C11 (the original stays as it is).
-/

set_option autoImplicit false

namespace Nbd.Spec

/-- The export is a copy-on-write one of plain files, without `sparse_cow`, and was not made read-only behind the back of the configuration. (Copy-on-write
excludes `splice` and `waitfile`, see C50.) -/
structure OfCopy (flags : Nat) : Prop where
  tree : has flags F_TREEFILES = false
  cow : has flags F_COPYONWRITE = true
  wait : has flags F_WAIT = false
  splice : has flags F_SPLICE = false
  sparse : has flags F_SPARSE = false
  auto : has flags F_AUTOREADONLY = true → has flags F_READONLY = true

end Nbd.Spec

namespace Nbd.Props

open Nbd Nbd.Spec

theorem setup_copy_kept {flags expected : Nat} {name : List Char} {probes : List ProbeFile} {ex : Export}
    (h : setupExport flags expected name probes = some ex) (hf : OfCopy flags) : OfCopy ex.flags := by
  rcases setupExport_flags flags expected name probes ex h with h | h
  · rw [h]; exact hf
  · have go : ∀ m, F_AUTOREADONLY &&& m = 0 → F_READONLY &&& m = 0 → has ex.flags m = has flags m := by
      intro m h1 h2
      rw [h, has_or_of _ _ _ h2, has_or_of _ _ _ h1]
    refine ⟨?_, ?_, ?_, ?_, ?_, fun _ => ?_⟩
    · rw [go _ (by decide) (by decide)]; exact hf.tree
    · rw [go _ (by decide) (by decide)]; exact hf.cow
    · rw [go _ (by decide) (by decide)]; exact hf.wait
    · rw [go _ (by decide) (by decide)]; exact hf.splice
    · rw [go _ (by decide) (by decide)]; exact hf.sparse
    · rw [h]
      unfold has
      rw [Nat.and_or_distrib_right]
      simp [F_READONLY, F_AUTOREADONLY]

/-- An export byte lives in one of the files that were opened. -/
theorem setup_home_fd {flags expected : Nat} {name : List Char} {probes : List ProbeFile} {ex : Export}
    (h : setupExport flags expected name probes = some ex) (hft : has flags F_TREEFILES = false) (hfw : has flags F_WAIT = false)
    (hok : FilesOk flags probes) (a : Nat) (x : FileId × Nat) (hx : home ex a = some x) :
    ∃ p ∈ parts flags probes, x.1 = .fd p.fd := by
  obtain ⟨_, _, _, hfs⟩ := setup_good h hft hfw hok
  unfold home at hx
  rw [setup_tree_kept h hft] at hx
  simp only [Bool.false_eq_true, if_false, Option.map_eq_some_iff] at hx
  obtain ⟨⟨fi, nx⟩, h1, rfl⟩ := hx
  obtain ⟨i, h2, _⟩ := locate_index _ _ _ _ h1
  rw [hfs, laid_getElem?] at h2
  simp only [Option.map_eq_some_iff] at h2
  obtain ⟨p, hp1, rfl⟩ := h2
  exact ⟨p, List.mem_of_getElem? hp1, rfl⟩

/-- **C87** for copy-on-write exports (partial: what C12 is partial for - the export is a whole number of 4096-byte blocks and at most 4 GiB, system calls do not
fail and are not short of a block, requests are `AllTractable`: of the blocks a read touches, only the last may have been written before). nbd-client connects to
nbd-server, by either method of negotiation, with or without TLS, for a copy-on-write export it is let in to; `d` is the descriptor of the diff file. Then it uses a device of
the size of the files together (or of the configured size), which it takes for read-only exactly if the server does. The bytes it gets are the replies of an
array that holds the bytes of the files one after the other when the session begins and that nobody else writes to. Afterwards every file but the diff file is what it was. -/
theorem C87_cow_partial (ec es : Endian) (env : NEnv) (cf : NConf) (n : Nat) (svs : List SrvExport) (nz : Bool) (c : CliConf)
    (errm errh A At B Bt : List Byte) (hT : Talk ec es env cf n svs nz c errm errh A At B Bt)
    (hc : c.list = false) (hn : c.name.length ≤ 4096) (h0 : (0 : Byte) ∉ c.name)
    (hm : env.malloc (c.name.length + 1) = true) (hf : c.tls = true ∨ cf.forcedTls = false)
    (hk : c.tls = true → cf.keyfile = true) (sv : SrvExport) (ex : Export)
    (hnm : Spec.Named c.tls svs c.name sv) (hin : LetsIn env cf sv 0 ex)
    (hfl : OfCopy sv.flags) (hok : FilesOk sv.flags (env.attempt 0 sv).probes)
    (hwhole : ex.exportsize % 4096 = 0) (hsmall : ex.exportsize ≤ 4294967296)
    (w : World) (hgen : NeverFails w) (hpr : Present w (parts sv.flags (env.attempt 0 sv).probes))
    (d : Nat) (hd : ∃ f, w.files (.fd d) = some f) (hown : ∀ p ∈ parts sv.flags (env.attempt 0 sv).probes, p.fd ≠ d)
    (ss : List Sent) (hss : ∀ s ∈ ss, s.Ok) (ht : AllTractable false (ss.map Sent.cmd)) :
    ∃ (s : NState) (cl : Client) (rs : List Reply) (fl size : Nat) (f f' : Flat) (s' : CState),
      session es env cf n svs nz (if c.tls then A else A ++ ss.flatMap Sent.encode) (some (if c.tls then At ++ ss.flatMap Sent.encode else At)) = (.serving, s) ∧
      s.client d = some cl ∧ s.inp = ss.flatMap Sent.encode ∧
      (mainloop es cl w s.inp).ending = .gone ∧ (mainloop es cl w s.inp).sent = wire rs ∧
      cliRun ec c errm errh (if c.tls then B else B ++ wire rs) (if c.tls then Bt ++ wire rs else Bt) = (.ready size fl, s') ∧ s'.inp = wire rs ∧
      size = (if sv.expected ≠ 0 then sv.expected else total (parts sv.flags (env.attempt 0 sv).probes)) ∧
      fl.testBit 1 = has ex.flags F_READONLY ∧
      Joined w (parts sv.flags (env.attempt 0 sv).probes) size f ∧
      SureRun size (fl.testBit 1) false f (ss.map Sent.cmd) rs f' ∧
      ∀ id file, id ≠ .fd d → w.files id = some file → (mainloop es cl w s.inp).w.files id = some file := by
  obtain ⟨hg, hsz, -⟩ := setup_good hin.setup hfl.tree hfl.wait hok
  have hex := setup_copy_kept hin.setup hfl
  obtain ⟨fl, ha⟩ := C27_agree ec es env cf n svs nz c errm errh A At B Bt hT hc hn h0 hm hf hk sv ex
    (by have := hg.size; omega) hnm hin
  obtain ⟨s, h1, h2, h3, h4, h5, h6, h7⟩ := ha.server (ss.flatMap Sent.encode)
  obtain ⟨cl, hcl, hcle, hclw, hcls, hclm, hcll, hclp, hcld⟩ : ∃ cl, s.client d = some cl ∧ cl.ex = ex ∧ cl.waiting = false ∧ cl.structured = false ∧
      cl.difmap = List.replicate (ex.exportsize / 4096) 4294967295 ∧ cl.difffilelen = 0 ∧ cl.diffpos = 0 ∧ cl.difffile = d := by
    unfold NState.client
    rw [h7]
    exact ⟨_, rfl, rfl, hex.wait, h4, rfl, rfl, rfl, rfl⟩
  have hx : CowExport ex := ⟨hg, hex.cow, hex.sparse, hex.splice, hwhole, hsmall⟩
  obtain ⟨rs, g, hr1, hr2, hr3⟩ := C12_one_partial es ex hx cl w ⟨hcle, hclm, hcll, hclp, hclw, by rw [hcld]; exact hd⟩
    (by
      intro a x hax
      obtain ⟨p, hp, hpx⟩ := setup_home_fd hin.setup hfl.tree hfl.wait hok a x hax
      rw [hpx, hcld]
      intro hcon
      cases hcon
      exact hown p hp rfl)
    (setup_backed hin.setup hfl.tree hfl.wait hok w hpr).1 hgen ss hss (by rw [hcls]; exact ht)
  have hmap : (ss.map Sent.encode).flatten = ss.flatMap Sent.encode := by simp [List.flatMap]
  rw [hmap, ← h2] at hr1 hr2
  obtain ⟨s', hs1, hs2⟩ := ha.client (wire rs)
  have hro : (has ex.flags F_READONLY || has ex.flags F_AUTOREADONLY) = fl.testBit 1 := by
    rw [ha.mirrors.read_only]
    have := hex.auto
    cases hx : has ex.flags F_AUTOREADONLY with
    | true => rw [this hx]; rfl
    | false => simp
  rw [hcls, hro] at hr3
  have hkept := (mainloop_keptOff es cl (by rw [hcle]; exact hex.cow) (by rw [hcle]; exact hex.splice) w s.inp).1
  refine ⟨s, cl, rs, fl, ex.exportsize, original ex w, g, s', h1, hcl, h2, hr2, hr1, hs1, hs2, hsz, ha.mirrors.read_only,
    view_joined hin.setup hfl.tree hfl.wait hok w, hr3, ?_⟩
  intro id file hid hfile
  rw [hcle, hcld, hex.tree] at hkept
  rcases hkept id hid with h | ⟨h, _⟩
  · rw [h]; exact hfile
  · cases h

namespace WDemo

/-- A copy-on-write export of the file of `WDemo.world`; the diff file is 9. -/
def copy : SrvExport := ⟨0, [97], F_FLUSH ||| F_FUA ||| F_TRIM ||| F_COPYONWRITE, 0⟩

def copyB : List Byte := (session .big NDemo.env NDemo.cf 9 [copy, NDemo.s] false CDemo.A (some [])).2.plainOut

def copyWorld : World :=
  ⟨fun id => if id = .fd 3 then some (File.clean (fun i => UInt8.ofNat i) 4096) else if id = .fd 9 then some (File.clean (fun _ => 0) 0) else none,
    fun _ => .done (2 ^ 31), 0, 0, fun _ => []⟩

end WDemo

/-- The hypotheses of `C87_cow_partial` are met, with the requests `WDemo.talk`. -/
example : Talk .little .big NDemo.env NDemo.cf 9 [WDemo.copy, NDemo.s] false CDemo.a [] [] CDemo.A [] WDemo.copyB [] ∧
    Spec.Named false [WDemo.copy, NDemo.s] CDemo.a.name WDemo.copy ∧
    LetsIn NDemo.env NDemo.cf WDemo.copy 0 ⟨WDemo.copy.flags, 4096, [⟨3, 0⟩], []⟩ ∧ OfCopy WDemo.copy.flags ∧
    FilesOk WDemo.copy.flags NDemo.yes.probes ∧ NeverFails WDemo.copyWorld ∧
    Present WDemo.copyWorld (parts WDemo.copy.flags NDemo.yes.probes) ∧ (∃ f, WDemo.copyWorld.files (.fd 9) = some f) ∧
    (∀ p ∈ parts WDemo.copy.flags NDemo.yes.probes, p.fd ≠ 9) ∧
    (∀ s ∈ WDemo.talk, s.Ok) ∧ AllTractable false (WDemo.talk.map Sent.cmd) := by
  refine ⟨⟨by decide +kernel, by decide +kernel, by decide +kernel, by decide +kernel, by decide +kernel⟩,
    ⟨by decide, rfl, .inr (by decide), by decide⟩, ⟨.inr ⟨rfl, 89, rfl, by decide, by decide⟩, rfl, rfl, rfl, rfl, rfl, by decide +kernel⟩,
    ⟨by decide, by decide, by decide, by decide, by decide, by decide⟩, ⟨by decide, by decide, by decide, by decide⟩, fun _ => ⟨2 ^ 31, by decide, rfl⟩, ?_,
    ⟨_, rfl⟩, by decide, ?_, ?_⟩
  · intro p hp
    have : p = ⟨3, true, true, none, some (true, 4096), 0⟩ := by simpa [parts, NDemo.yes, WDemo.copy, has] using hp
    subst this
    exact ⟨_, rfl, by decide⟩
  · intro s hs
    simp only [WDemo.talk, List.mem_cons, List.not_mem_nil, or_false] at hs
    rcases hs with rfl | rfl | rfl | rfl <;> exact ⟨⟨by decide, by decide, by decide, by decide, by decide⟩, by decide, by decide, by decide⟩
  · intro before c after h
    have hc : c ∈ WDemo.talk.map Sent.cmd := by rw [h]; simp
    simp only [WDemo.talk, List.map_cons, List.map_nil, List.mem_cons, List.not_mem_nil, or_false] at hc
    rcases hc with rfl | rfl | rfl | rfl
    · exact ⟨fun _ => by decide, fun _ => by decide, fun h => absurd h (by decide)⟩
    · exact ⟨fun h => absurd h (by decide), fun _ => by decide, fun h => absurd h (by decide)⟩
    · exact ⟨fun h => absurd h (by decide), fun _ => by decide, fun h => absurd h (by decide)⟩
    · refine ⟨fun _ => by decide, fun _ => by decide, fun _ q hq _ => ?_⟩
      obtain ⟨_, h1, h2⟩ := hq
      have h1 : 15 / 4096 ≤ q := h1
      have h2 : q ≤ (15 + 20 - 1) / 4096 := h2
      refine ⟨?_, fun h => absurd h (by decide)⟩
      show q = (15 + 20 - 1) / 4096
      omega

/-- And that is what happens. -/
example : (mainloop .big ⟨⟨WDemo.copy.flags, 4096, [⟨3, 0⟩], []⟩, false, [4294967295], 0, 9, 0, false, false⟩ WDemo.copyWorld
      (WDemo.talk.flatMap Sent.encode)).sent =
    wire [.simple 0 Demo.cookie [], .simple 0 Demo.cookie [], .simple 0 Demo.cookie [],
      .simple 0 Demo.cookie [15, 16, 17, 18, 19, 1, 2, 3, 4, 5, 6, 7, 8, 9, 10, 30, 31, 32, 33, 34]] := by decide +kernel

end Nbd.Props
