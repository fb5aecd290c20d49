import Verif.Props.Client
import Verif.Props.Session
import Verif.Props.Store
import Verif.GrowLemmas
/-!
# C87: a whole connection

From nbd-client's first byte to the files of the export and back: C27 (negotiation), C13 and C49 (the files one after the other), C04, C05 and C08 (requests
and replies), put together. The client's kernel, which makes the requests and reads the replies, is not part of the code: the requests are any list of
well-formed ones.
-/

set_option autoImplicit false

namespace Nbd.Spec

/-- The first `size` bytes of the array `f` are the bytes of the files `ps`, one file after the other, as they are stored in `w`. -/
def Joined (w : World) (ps : List ProbeFile) (size : Nat) (f : Flat) : Prop :=
  ∀ (i : Nat) (p : ProbeFile) (o : Nat) (file : File), ps[i]? = some p → o < sizeAutodetect p → Props.total (ps.take i) + o < size →
    w.files (.fd p.fd) = some file → f (Props.total (ps.take i) + o) = file.data o

/-- The export is of plain files: none of the options that make it a tree, a copy, or something to wait for, and no splice; it was not made read-only
behind the back of the configuration. -/
structure OfFiles (flags : Nat) : Prop where
  tree : has flags F_TREEFILES = false
  cow : has flags F_COPYONWRITE = false
  wait : has flags F_WAIT = false
  splice : has flags F_SPLICE = false
  auto : has flags F_AUTOREADONLY = true → has flags F_READONLY = true

/-- The files are usable: those that can be written can be read, none of those used is empty, together they are not larger than a file can be, and
no file is used twice. -/
structure FilesOk (flags : Nat) (probes : List ProbeFile) : Prop where
  rw : ∀ p ∈ probes, p.canWrite → p.canRead
  pos : ∀ p ∈ Props.parts flags probes, 0 < sizeAutodetect p
  sum : Props.total (Props.parts flags probes) ≤ 2 ^ 63
  distinct : (Props.parts flags probes).Pairwise (fun p q => p.fd ≠ q.fd)

/-- What a working disk of `size` bytes does: it carries out every command, and says so. (A trimmed byte is kept or zeroed.) -/
inductive DiskStep (size : Nat) (f : Flat) (c : Cmd) : Reply → Flat → Prop where
  | read (hc : c.code = 0) : DiskStep size f c (.simple 0 c.cookie (f.read c.start c.len)) f
  | write (hc : c.code = 1) : DiskStep size f c (.simple 0 c.cookie []) (f.write c.start c.data)
  | flush (hc : c.code = 3) : DiskStep size f c (.simple 0 c.cookie []) f
  | trim (hc : c.code = 4) (g : Flat) (hin : ∀ i, c.start ≤ i → i < c.start + c.len → g i = f i ∨ g i = 0)
      (hout : ∀ i, i < c.start ∨ c.start + c.len ≤ i → g i = f i) : DiskStep size f c (.simple 0 c.cookie []) g
  | zeroes (hc : c.code = 6) : DiskStep size f c (.simple 0 c.cookie []) (f.write c.start (Flat.zeros c.len))

/-- One command after the other, one reply to each. -/
inductive DiskRun (size : Nat) : Flat → List Cmd → List Reply → Flat → Prop where
  | nil (f : Flat) : DiskRun size f [] [] f
  | cons (f g k : Flat) (c : Cmd) (r : Reply) (cs : List Cmd) (rs : List Reply) (h1 : DiskStep size f c r g) (h2 : DiskRun size g cs rs k) :
      DiskRun size f (c :: cs) (r :: rs) k

/-- A request a client of such a disk may make: no flags but FUA and NO_HOLE; a flush, or a read inside the disk, or, if it is not read-only, a write, trim or
write-zeroes inside the disk (at most 64 MiB of zeroes, see C09). -/
structure May (size : Nat) (ro : Bool) (s : Sent) : Prop where
  flags : s.req.type < 262144
  code : s.req.type % 65536 = 3 ∨ (s.req.start + s.req.len ≤ size ∧
    (s.req.type % 65536 = 0 ∨ (ro = false ∧ (s.req.type % 65536 = 1 ∨ s.req.type % 65536 = 4 ∨ s.req.type % 65536 = 6))))
  zeroes : s.req.type % 65536 = 6 → s.req.len ≤ 64 * 1024 * 1024

/-- The files are there, and as long as they were when the server looked. -/
def Present (w : World) (ps : List ProbeFile) : Prop := ∀ p ∈ ps, ∃ file, w.files (.fd p.fd) = some file ∧ sizeAutodetect p ≤ file.size

end Nbd.Spec

namespace Nbd.Props

open Nbd Nbd.Spec

theorem has_ro_or (flags bit : Nat) (hb : bit = F_TREEFILES ∨ bit = F_COPYONWRITE ∨ bit = F_WAIT ∨ bit = F_SPLICE) :
    has (flags ||| F_AUTOREADONLY ||| F_READONLY) bit = has flags bit := by
  unfold has
  rcases hb with rfl | rfl | rfl | rfl <;>
  · congr 1
    rw [Nat.and_or_distrib_right, Nat.and_or_distrib_right]
    simp [F_TREEFILES, F_COPYONWRITE, F_WAIT, F_SPLICE, F_AUTOREADONLY, F_READONLY]

theorem setup_flags_kept {flags expected : Nat} {name : List Char} {probes : List ProbeFile} {ex : Export}
    (h : setupExport flags expected name probes = some ex) (hf : OfFiles flags) : OfFiles ex.flags := by
  rcases setupExport_flags flags expected name probes ex h with h | h
  · rw [h]; exact hf
  · rw [h]
    refine ⟨?_, ?_, ?_, ?_, fun _ => ?_⟩
    · rw [has_ro_or _ _ (by simp)]; exact hf.tree
    · rw [has_ro_or _ _ (by simp)]; exact hf.cow
    · rw [has_ro_or _ _ (by simp)]; exact hf.wait
    · rw [has_ro_or _ _ (by simp)]; exact hf.splice
    · unfold has
      rw [Nat.and_or_distrib_right]
      simp [F_READONLY, F_AUTOREADONLY]

theorem setup_tree_kept {flags expected : Nat} {name : List Char} {probes : List ProbeFile} {ex : Export}
    (h : setupExport flags expected name probes = some ex) (ht : has flags F_TREEFILES = false) : has ex.flags F_TREEFILES = false := by
  rcases setupExport_flags flags expected name probes ex h with h | h
  · rw [h]; exact ht
  · rw [h, has_ro_or _ _ (by simp)]; exact ht

theorem setup_good {flags expected : Nat} {name : List Char} {probes : List ProbeFile} {ex : Export}
    (h : setupExport flags expected name probes = some ex) (hft : has flags F_TREEFILES = false) (hfw : has flags F_WAIT = false) (hok : FilesOk flags probes) :
    GoodExport ex ∧ ex.exportsize = (if expected ≠ 0 then expected else total (parts flags probes)) ∧
      ex.exportsize ≤ total (parts flags probes) ∧ ex.files = laid (has flags F_MULTIFILE) expected 0 (parts flags probes) := by
  obtain ⟨h1, h2, h3, h4⟩ := setup_parts flags expected name probes ex hft hfw hok.rw h
  rw [map_effSize _ _ _ hok.pos] at h3 h4
  have hs := hok.sum
  have hmod : total (parts flags probes) % 2 ^ 64 = total (parts flags probes) := Nat.mod_eq_of_lt (by omega)
  have h3 : ex.exportsize = (if expected ≠ 0 then expected else total (parts flags probes)) := by rw [h3]; simp only [hmod]
  have h4 : ex.exportsize ≤ total (parts flags probes) := by rw [← hmod]; exact h4
  refine ⟨⟨by omega, fun _ => ?_⟩, h3, h4, h2⟩
  rw [h2]
  refine laid_good _ expected _ h1 ?_ ?_ hok.distinct
  · intro q hq
    rw [effSize_eq _ _ _ (hok.pos q (List.dropLast_subset _ hq))]
    exact hok.pos q (List.dropLast_subset _ hq)
  · rw [map_effSize _ _ _ hok.pos]; omega

/-- Every offset below the total lies in one of the files. -/
theorem total_split (ps : List ProbeFile) : ∀ a, a < total ps → ∃ i p o, ps[i]? = some p ∧ o < sizeAutodetect p ∧ a = total (ps.take i) + o := by
  induction ps with
  | nil => intro a ha; simp [total] at ha
  | cons p ps ih =>
    intro a ha
    have ht : total (p :: ps) = sizeAutodetect p + total ps := by simp [total]
    by_cases h : a < sizeAutodetect p
    · exact ⟨0, p, a, rfl, h, by simp [total]⟩
    · obtain ⟨i, q, o, h1, h2, h3⟩ := ih (a - sizeAutodetect p) (by omega)
      refine ⟨i + 1, q, o, by simpa using h1, h2, ?_⟩
      have : total ((p :: ps).take (i + 1)) = sizeAutodetect p + total (ps.take i) := by simp [total]
      omega

theorem setup_home {flags expected : Nat} {name : List Char} {probes : List ProbeFile} {ex : Export}
    (h : setupExport flags expected name probes = some ex) (hft : has flags F_TREEFILES = false) (hfw : has flags F_WAIT = false) (hok : FilesOk flags probes) (w : World)
    (i : Nat) (p : ProbeFile) (o : Nat) (hi : (parts flags probes)[i]? = some p) (ho : o < sizeAutodetect p)
    (hlt : total ((parts flags probes).take i) + o < ex.exportsize) : home ex (total ((parts flags probes).take i) + o) = some (.fd p.fd, o) := by
  have hl := C13_layout_partial flags expected name probes ex hft hfw hok.rw h hok.pos hok.sum hok.distinct w i p o hi ho
  have hg := (setup_good h hft hfw hok).1
  have ht := setup_tree_kept h hft
  obtain ⟨fi, nx, h1, h2⟩ := getFilepos_files ex w (total ((parts flags probes).take i) + o)
    (by have := hg.size; omega) ht (hg.files ht)
  rw [h2] at hl
  simp only [Out.val.injEq, Prod.mk.injEq, Option.some.injEq, Handle.file.injEq, FileId.fd.injEq, true_and] at hl
  unfold home
  rw [ht, h1]
  simp only [Bool.false_eq_true, if_false, Option.map_some]
  rw [hl.1, hl.2.1]

theorem setup_backed {flags expected : Nat} {name : List Char} {probes : List ProbeFile} {ex : Export}
    (h : setupExport flags expected name probes = some ex) (hft : has flags F_TREEFILES = false) (hfw : has flags F_WAIT = false) (hok : FilesOk flags probes) (w : World)
    (hp : Present w (parts flags probes)) : Backed ex w ∧ ∀ fi ∈ ex.files, ∃ f, w.files (.fd fi.fhandle) = some f := by
  obtain ⟨_, _, hle, hfs⟩ := setup_good h hft hfw hok
  constructor
  · intro a ha
    obtain ⟨i, p, o, h1, h2, rfl⟩ := total_split _ a (Nat.lt_of_lt_of_le ha hle)
    obtain ⟨file, h3, h4⟩ := hp p (List.mem_of_getElem? h1)
    exact ⟨_, o, file, setup_home h hft hfw hok w i p o h1 h2 ha, h3, by omega⟩
  · intro fi hfi
    rw [hfs, List.mem_iff_getElem?] at hfi
    obtain ⟨i, hi⟩ := hfi
    rw [laid_getElem?] at hi
    simp only [Option.map_eq_some_iff] at hi
    obtain ⟨p, hp1, rfl⟩ := hi
    obtain ⟨file, h3, _⟩ := hp p (List.mem_of_getElem? hp1)
    exact ⟨file, h3⟩

theorem Present.grow {w w' : World} {ps : List ProbeFile} (h : Present w ps) (hg : FdGrow w w') : Present w' ps := by
  intro p hp
  obtain ⟨f, h1, h2⟩ := h p hp
  obtain ⟨f', h3, h4⟩ := hg _ _ h1
  exact ⟨f', h3, Nat.le_trans h2 h4⟩

/-- A simple reply with an error is not a reply without one. -/
theorem encodes_err {msgs : List Msg} {err : Nat} {c d : List Byte} {rs : List Reply} (h1 : Encodes msgs [.simple err c d])
    (h2 : Encodes msgs rs) (h0 : ∀ x ∈ rs, x.error = 0) (he : err < 2 ^ 32) : err = 0 := by
  unfold Encodes at h1 h2
  rw [h1] at h2
  match rs, h2 with
  | [], h2 => simp at h2
  | _ :: _ :: _, h2 => simp at h2
  | [r], h2 =>
    have h3 := h0 r (by simp)
    simp only [List.map_cons, List.map_nil, List.cons.injEq, and_true] at h2
    cases r with
    | chunk fl ty c2 p =>
      exfalso
      have := congrArg (List.take 4) h2
      simp only [Reply.encode, List.append_assoc] at this
      rw [List.take_left' (by simp), List.take_left' (by simp)] at this
      revert this
      decide
    | simple e2 c2 d2 =>
      simp only [Reply.error] at h3
      subst h3
      simp only [Reply.encode, List.append_assoc] at h2
      have h4 := List.append_inj_left (List.append_inj_right h2 (by simp)) (by simp)
      have := congrArg beVal h4
      rwa [beVal_toBE_of_lt he, beVal_toBE_of_lt (by decide)] at this

/-- A session of permitted requests on a store that works. -/
theorem mainloop_disk (e : Endian) (ps : List ProbeFile) (cl : Client) (hp : Plain cl) (hfr : framing cl = [false])
    (hnw : has cl.ex.flags F_WAIT = false)
    (hbk : ∀ w, Present w ps → Backed cl.ex w ∧ ∀ fi ∈ cl.ex.files, ∃ f, w.files (.fd fi.fhandle) = some f)
    (ss : List Sent) (hok : ∀ s ∈ ss, s.Ok) (hmay : ∀ s ∈ ss, May cl.ex.exportsize (badWrite cl) s) : ∀ w, Healthy w → Present w ps →
      (mainloop e cl w (ss.flatMap Sent.encode)).ending = .gone →
      ∃ rs, (mainloop e cl w (ss.flatMap Sent.encode)).sent = wire rs ∧
        DiskRun cl.ex.exportsize (view cl.ex w) (ss.map Sent.cmd) rs (view cl.ex (mainloop e cl w (ss.flatMap Sent.encode)).w) := by
  induction ss with
  | nil =>
    intro w _ _ _
    rw [List.flatMap_nil, mainloop_nil]
    exact ⟨[], rfl, .nil _⟩
  | cons s ss ih =>
    intro w hh hpr hend
    have hs := hok s (by simp)
    have hm := hmay s (by simp)
    have hst : (s :: ss).flatMap Sent.encode = s.encode ++ ss.flatMap Sent.encode := by simp
    rw [hst] at hend ⊢
    rcases fetch_sent e cl w s hs (ss.flatMap Sent.encode) with ⟨hub, _⟩ | ⟨w1, p, hf, hsame, _, hfit, hb, _⟩
    · rw [mainloop_ub _ _ _ _ hub] at hend
      cases hend
    · rw [mainloop_push _ _ _ _ _ _ _ _ hf] at hend ⊢
      split at hend
      · cases hend
      · cases hend
      · rename_i cl' w' msgs hq
        have hend : (mainloop e cl' w' (ss.flatMap Sent.encode)).ending = .gone := hend
        have hcmd : cmdOf (reqOf e s) p = s.cmd := by
          unfold cmdOf Sent.cmd; rw [hb]; rfl
        have hk1 := fetch_keeps (fun _ => False) _ _ _ _ _ _ hf
        have hg1 := fetch_fdGrow _ _ _ _ _ _ hf
        have hh1 : Healthy w1 := by intro t; rw [hk1.orc]; exact hh t
        have hpr1 := Present.grow hpr hg1
        obtain ⟨rfl, rs, henc, hstep⟩ := handleRequest_plain e cl cl' hp w1 w' (reqOf e s) p msgs
          hs.fits.len hfit (fun _ h2 => hm.zeroes h2) hq
        have hk2 := (handleRequest_keeps e cl' cl' hp w1 w' (reqOf e s) p msgs hs.fits.len hfit hq).2
        have hh2 : Healthy w' := by intro t; rw [hk2.orc]; exact hh1 t
        have hpr2 := Present.grow hpr1 (handleRequest_fdGrow e cl' cl' hp.paged w1 w' (reqOf e s) p msgs hq)
        have hcode : s.cmd.code = s.req.type % 65536 := by simp only [Sent.cmd]; rw [if_pos hm.flags]
        rw [hcmd, hsame.view, hfr] at hstep
        have hone : ∃ r, rs = [r] ∧ DiskStep cl'.ex.exportsize (view cl'.ex w) s.cmd r (view cl'.ex w') := by
          have hgood : s.req.type % 65536 ≠ 4 → ∃ rs2, Encodes msgs rs2 ∧ ∀ x ∈ rs2, x.error = 0 := by
            intro h4
            obtain ⟨_, _, m2, rs2, e1, e2, e3⟩ := handleRequest_healthy e cl' hp w1 (reqOf e s) p hs.fits.len hfit hh1 (hbk w1 hpr1).1 (hbk w1 hpr1).2
              hnw hm.flags (by
                rcases hm.code with h | ⟨h, h' | ⟨h', h'' | h'' | h''⟩⟩
                · exact .inl h
                · exact .inr ⟨h, .inl h'⟩
                · exact .inr ⟨h, .inr ⟨h', .inr h''⟩⟩
                · exact absurd h'' h4
                · exact .inr ⟨h, .inr ⟨h', .inl h''⟩⟩)
            rw [hq] at e1
            cases e1
            exact ⟨rs2, e2, e3⟩
          have hbad : ∀ err, err ∈ errnos → s.req.type % 65536 ≠ 4 → rs = [.simple err s.cmd.cookie []] → False := by
            intro err he h4 hr
            obtain ⟨rs2, e2, e3⟩ := hgood h4
            rw [hr] at henc
            exact (errno_lt he).2 (encodes_err henc e2 e3 (errno_lt he).1)
          have ht : ∀ (g : Flat), FlatStep cl'.ex.exportsize (badWrite cl') [false] (view cl'.ex w) s.cmd rs g →
              ∃ r, rs = [r] ∧ DiskStep cl'.ex.exportsize (view cl'.ex w) s.cmd r g := by
            intro g hstep
            cases hstep with
            | read _ hc hr m hmm h =>
              simp only [List.mem_singleton] at hmm
              subst hmm
              cases h
              exact ⟨_, rfl, .read hc⟩
            | readFails _ hc hr m hmm h =>
              simp only [List.mem_singleton] at hmm
              subst hmm
              cases h with
              | simple err he => exact (hbad err he (by omega) rfl).elim
            | write hc => exact ⟨_, rfl, .write hc⟩
            | writeFails hc _ _ err n he => exact (hbad err he (by omega) rfl).elim
            | zeroes hc => exact ⟨_, rfl, .zeroes hc⟩
            | zeroesFails hc _ _ err n he => exact (hbad err he (by omega) rfl).elim
            | flush hc err he =>
              rcases he with rfl | he
              · exact ⟨_, rfl, .flush hc⟩
              · exact (hbad err he (by omega) rfl).elim
            | trim hc _ _ _ hin hout => exact ⟨_, rfl, .trim hc _ hin hout⟩
            | refused err he why =>
              exfalso
              rw [hcode] at why
              have hcs : s.cmd.start = s.req.start ∧ s.cmd.len = s.req.len := ⟨rfl, rfl⟩
              rw [hcs.1, hcs.2] at why
              simp only [List.mem_cons, List.not_mem_nil, or_false, not_or] at why
              rcases hm.code with h | ⟨h, h' | ⟨h', h''⟩⟩
              · omega
              · omega
              · rw [h'] at why
                simp only [Bool.false_eq_true, and_false, false_or] at why
                omega
          exact ht _ hstep
        obtain ⟨r, rfl, hd⟩ := hone
        obtain ⟨rs', hw', hrun⟩ := ih (fun x hx => hok x (by simp [hx])) (fun x hx => hmay x (by simp [hx])) w' hh2 hpr2 hend
        refine ⟨r :: rs', ?_, .cons _ _ _ _ _ _ _ hd hrun⟩
        exact Run.cons_sent _ _ [r] rs' henc.wire hw'

/-- The contents of the export are those of its files, one after the other. -/
theorem view_joined {flags expected : Nat} {name : List Char} {probes : List ProbeFile} {ex : Export}
    (h : setupExport flags expected name probes = some ex) (hft : has flags F_TREEFILES = false) (hfw : has flags F_WAIT = false) (hok : FilesOk flags probes) (w : World) :
    Joined w (parts flags probes) ex.exportsize (view ex w) := by
  intro i p o file hi ho hlt hw
  unfold view
  rw [if_pos hlt, setup_home h hft hfw hok w i p o hi ho hlt]
  unfold content
  simp only []
  rw [hw]

/-- What the client and the server have agreed on, and that the session ends when the client goes. -/
theorem whole_server (ec es : Endian) (env : NEnv) (cf : NConf) (n : Nat) (svs : List SrvExport) (nz : Bool) (c : CliConf)
    (errm errh A At B Bt : List Byte) (hT : Talk ec es env cf n svs nz c errm errh A At B Bt)
    (hc : c.list = false) (hn : c.name.length ≤ 4096) (h0 : (0 : Byte) ∉ c.name)
    (hm : env.malloc (c.name.length + 1) = true) (hf : c.tls = true ∨ cf.forcedTls = false)
    (hk : c.tls = true → cf.keyfile = true) (sv : SrvExport) (ex : Export)
    (hnm : Named c.tls svs c.name sv) (hin : LetsIn env cf sv 0 ex)
    (hfl : OfFiles sv.flags) (hok : FilesOk sv.flags (env.attempt 0 sv).probes)
    (w : World) (d : Nat) (ss : List Sent) (hss : ∀ s ∈ ss, s.Ok) :
    ∃ (s : NState) (cl : Client) (fl : Nat),
      session es env cf n svs nz (if c.tls then A else A ++ ss.flatMap Sent.encode) (some (if c.tls then At ++ ss.flatMap Sent.encode else At)) = (.serving, s) ∧
      s.client d = some cl ∧ s.inp = ss.flatMap Sent.encode ∧ cl.ex = ex ∧ Plain cl ∧ framing cl = [false] ∧
      (has cl.ex.flags F_READONLY || has cl.ex.flags F_AUTOREADONLY) = fl.testBit 1 ∧ fl.testBit 1 = has ex.flags F_READONLY ∧
      (mainloop es cl w (ss.flatMap Sent.encode)).ending = .gone ∧
      ∀ rest, ∃ s', cliRun ec c errm errh (if c.tls then B else B ++ rest) (if c.tls then Bt ++ rest else Bt) = (.ready ex.exportsize fl, s') ∧
        s'.inp = rest := by
  obtain ⟨hg, hsz, -⟩ := setup_good hin.setup hfl.tree hfl.wait hok
  have hex := setup_flags_kept hin.setup hfl
  obtain ⟨fl, ha⟩ := C27_agree ec es env cf n svs nz c errm errh A At B Bt hT hc hn h0 hm hf hk sv ex
    (by have := hg.size; omega) hnm hin
  obtain ⟨s, h1, h2, h3, h4, h5, h6, h7⟩ := ha.server (ss.flatMap Sent.encode)
  obtain ⟨cl, hcl, hcle, hclw, hcls, hclt⟩ : ∃ cl, s.client d = some cl ∧ cl.ex = ex ∧ cl.waiting = false ∧ cl.structured = false ∧ cl.tls = c.tls := by
    unfold NState.client
    rw [h7]
    exact ⟨_, rfl, rfl, hex.wait, h4, h3⟩
  have hp : Plain cl := by
    refine ⟨by rw [hcle]; exact hg, ?_⟩
    unfold Client.paged
    rw [hcle, hclw, hex.cow]
    rfl
  have hsp : cl.tls = false ∨ has cl.ex.flags F_SPLICE = false := .inr (by rw [hcle]; exact hex.splice)
  have hend : (mainloop es cl w (ss.flatMap Sent.encode)).ending = .gone := by
    have hsafe := mainloop_safe es cl w (ss.flatMap Sent.encode) hp hsp
    obtain ⟨k, rs, k1, -, -, -, k5, k6⟩ := mainloop_session es ss hss [] .gone (fun cl w => mainloop_short es cl w [] (by decide)) cl w
    rw [List.append_nil] at k5 k6
    by_cases hlt : k < ss.length
    · have := k5 hlt
      simp only [List.mem_cons, List.not_mem_nil, or_false] at this
      rcases this with h | h
      · exact absurd h hsafe.1
      · exact absurd h (hsafe.2.2 (by rw [hcle]; exact hex.tree))
    · exact k6 (by omega)
  refine ⟨s, cl, fl, h1, hcl, h2, hcle, hp, by unfold framing; rw [hcle, hex.splice, hcls]; rfl, ?_, ha.mirrors.read_only, hend, ha.client⟩
  rw [ha.mirrors.read_only, hcle]
  have := hex.auto
  cases hx : has ex.flags F_AUTOREADONLY with
  | true => rw [this hx]; rfl
  | false => simp

/-- **C87** (partial: exports of plain files, zeroes of at most 64 MiB a request, see C09). nbd-client connects to nbd-server, by either method of negotiation, with or
without TLS, for an export it is let in to. Then it uses a device of the size of the files together (or of the configured size), which it takes for read-only exactly if
the server does. Whatever well-formed requests `ss` the client's kernel sends then, the bytes it gets are the replies `rs` of an array that holds the bytes of
the files one after the other, and afterwards the files hold what the array holds. For one request at a time (see C72 for many). -/
theorem C87_device_partial (ec es : Endian) (env : NEnv) (cf : NConf) (n : Nat) (svs : List SrvExport) (nz : Bool) (c : CliConf)
    (errm errh A At B Bt : List Byte) (hT : Talk ec es env cf n svs nz c errm errh A At B Bt)
    (hc : c.list = false) (hn : c.name.length ≤ 4096) (h0 : (0 : Byte) ∉ c.name)
    (hm : env.malloc (c.name.length + 1) = true) (hf : c.tls = true ∨ cf.forcedTls = false)
    (hk : c.tls = true → cf.keyfile = true) (sv : SrvExport) (ex : Export)
    (hnm : Named c.tls svs c.name sv) (hin : LetsIn env cf sv 0 ex)
    (hfl : OfFiles sv.flags) (hok : FilesOk sv.flags (env.attempt 0 sv).probes)
    (w : World) (d : Nat) (ss : List Sent) (hss : ∀ s ∈ ss, s.Ok) (hz : ∀ s ∈ ss, s.cmd.code = 6 → s.req.len ≤ 64 * 1024 * 1024) :
    ∃ (s : NState) (cl : Client) (rs : List Reply) (fl size : Nat) (f f' : Flat) (s' : CState),
      -- the server negotiates and goes on with what comes next
      session es env cf n svs nz (if c.tls then A else A ++ ss.flatMap Sent.encode) (some (if c.tls then At ++ ss.flatMap Sent.encode else At)) = (.serving, s) ∧
      s.client d = some cl ∧ s.inp = ss.flatMap Sent.encode ∧
      (mainloop es cl w s.inp).ending = .gone ∧ (mainloop es cl w s.inp).sent = wire rs ∧
      -- the client negotiates and leaves the replies for the kernel
      cliRun ec c errm errh (if c.tls then B else B ++ wire rs) (if c.tls then Bt ++ wire rs else Bt) = (.ready size fl, s') ∧ s'.inp = wire rs ∧
      -- the size, and what happened to the files
      size = (if sv.expected ≠ 0 then sv.expected else total (parts sv.flags (env.attempt 0 sv).probes)) ∧
      fl.testBit 1 = has ex.flags F_READONLY ∧
      Joined w (parts sv.flags (env.attempt 0 sv).probes) size f ∧
      Joined (mainloop es cl w s.inp).w (parts sv.flags (env.attempt 0 sv).probes) size f' ∧
      FlatRun size (fl.testBit 1) [false] f (ss.map Sent.cmd) rs f' := by
  obtain ⟨s, cl, fl, h1, hcl, h2, rfl, hp, hfr, hro, hfro, hend, hcli⟩ := whole_server ec es env cf n svs nz c errm errh A At B Bt hT hc hn h0 hm hf hk sv ex
    hnm hin hfl hok w d ss hss
  obtain ⟨-, hsz, -⟩ := setup_good hin.setup hfl.tree hfl.wait hok
  obtain ⟨rs, hr1, hr2⟩ := mainloop_plain es ss hss cl w hp hz hend |>.2
  obtain ⟨s', hs1, hs2⟩ := hcli (wire rs)
  have hbw : badWrite cl = fl.testBit 1 := hro
  rw [hbw, hfr] at hr2
  refine ⟨s, cl, rs, fl, cl.ex.exportsize, view cl.ex w, view cl.ex (mainloop es cl w (ss.flatMap Sent.encode)).w, s', h1, hcl, h2, ?_, ?_, hs1, hs2, hsz,
    hfro, view_joined hin.setup hfl.tree hfl.wait hok w, ?_, hr2⟩
  · rw [h2]; exact hend
  · rw [h2]; exact hr1
  · rw [h2]; exact view_joined hin.setup hfl.tree hfl.wait hok _

/-- **C87**, a store that works (partial as above, and the kernel asks only for what it may). If no system call fails and the files are as long as they were, then every request is carried out
and answered with success: the client has a disk of that size which holds the files one after the other. -/
theorem C87_disk_partial (ec es : Endian) (env : NEnv) (cf : NConf) (n : Nat) (svs : List SrvExport) (nz : Bool) (c : CliConf)
    (errm errh A At B Bt : List Byte) (hT : Talk ec es env cf n svs nz c errm errh A At B Bt)
    (hc : c.list = false) (hn : c.name.length ≤ 4096) (h0 : (0 : Byte) ∉ c.name)
    (hm : env.malloc (c.name.length + 1) = true) (hf : c.tls = true ∨ cf.forcedTls = false)
    (hk : c.tls = true → cf.keyfile = true) (sv : SrvExport) (ex : Export)
    (hnm : Named c.tls svs c.name sv) (hin : LetsIn env cf sv 0 ex)
    (hfl : OfFiles sv.flags) (hok : FilesOk sv.flags (env.attempt 0 sv).probes)
    (w : World) (hh : ∀ t, ∃ k, 0 < k ∧ w.orc t = .done k) (hpr : Present w (parts sv.flags (env.attempt 0 sv).probes))
    (d : Nat) (ss : List Sent) (hss : ∀ s ∈ ss, s.Ok)
    (hmay : ∀ s ∈ ss, May (if sv.expected ≠ 0 then sv.expected else total (parts sv.flags (env.attempt 0 sv).probes)) (has ex.flags F_READONLY) s) :
    ∃ (s : NState) (cl : Client) (rs : List Reply) (fl size : Nat) (f f' : Flat) (s' : CState),
      session es env cf n svs nz (if c.tls then A else A ++ ss.flatMap Sent.encode) (some (if c.tls then At ++ ss.flatMap Sent.encode else At)) = (.serving, s) ∧
      s.client d = some cl ∧ s.inp = ss.flatMap Sent.encode ∧
      (mainloop es cl w s.inp).ending = .gone ∧ (mainloop es cl w s.inp).sent = wire rs ∧
      cliRun ec c errm errh (if c.tls then B else B ++ wire rs) (if c.tls then Bt ++ wire rs else Bt) = (.ready size fl, s') ∧ s'.inp = wire rs ∧
      size = (if sv.expected ≠ 0 then sv.expected else total (parts sv.flags (env.attempt 0 sv).probes)) ∧
      fl.testBit 1 = has ex.flags F_READONLY ∧
      Joined w (parts sv.flags (env.attempt 0 sv).probes) size f ∧
      Joined (mainloop es cl w s.inp).w (parts sv.flags (env.attempt 0 sv).probes) size f' ∧
      DiskRun size f (ss.map Sent.cmd) rs f' := by
  obtain ⟨s, cl, fl, h1, hcl, h2, rfl, hp, hfr, hro, hfro, hend, hcli⟩ := whole_server ec es env cf n svs nz c errm errh A At B Bt hT hc hn h0 hm hf hk sv ex
    hnm hin hfl hok w d ss hss
  obtain ⟨-, hsz, -⟩ := setup_good hin.setup hfl.tree hfl.wait hok
  have hbw : badWrite cl = has cl.ex.flags F_READONLY := Eq.trans hro hfro
  obtain ⟨rs, hr1, hr2⟩ := mainloop_disk es (parts sv.flags (env.attempt 0 sv).probes) cl hp hfr (setup_flags_kept hin.setup hfl).wait
    (fun w hw => setup_backed hin.setup hfl.tree hfl.wait hok w hw) ss hss (by rw [hbw, hsz]; exact hmay) w hh hpr hend
  obtain ⟨s', hs1, hs2⟩ := hcli (wire rs)
  refine ⟨s, cl, rs, fl, cl.ex.exportsize, view cl.ex w, view cl.ex (mainloop es cl w (ss.flatMap Sent.encode)).w, s', h1, hcl, h2, ?_, ?_, hs1, hs2, hsz,
    hfro, view_joined hin.setup hfl.tree hfl.wait hok w, ?_, hr2⟩
  · rw [h2]; exact hend
  · rw [h2]; exact hr1
  · rw [h2]; exact view_joined hin.setup hfl.tree hfl.wait hok _

namespace WDemo

/-- A file of 4096 bytes, and system calls that transfer at most 7 bytes. -/
def world : World := ⟨fun id => if id = .fd 3 then some (File.clean (fun i => UInt8.ofNat i) 4096) else none, fun _ => .done 7, 0, 0, fun _ => []⟩

/-- Write ten bytes, flush, trim, and read over the place. -/
def talk : List Sent := [Demo.write 20 [1, 2, 3, 4, 5, 6, 7, 8, 9, 10], Demo.request 3 0 0, Demo.request 4 100 8, Demo.request 0 15 20]

end WDemo

/-- The hypotheses of `C87_disk_partial` are met by the client and the server of C27 and the requests `WDemo.talk`. -/
example : Talk .little .big NDemo.env NDemo.cf 9 [NDemo.a, NDemo.s] false CDemo.a [] [] CDemo.A [] CDemo.B [] ∧
    Named false [NDemo.a, NDemo.s] CDemo.a.name NDemo.a ∧
    LetsIn NDemo.env NDemo.cf NDemo.a 0 ⟨NDemo.a.flags, 4096, [⟨3, 0⟩], []⟩ ∧ OfFiles NDemo.a.flags ∧ FilesOk NDemo.a.flags NDemo.yes.probes ∧
    (∀ t, ∃ k, 0 < k ∧ WDemo.world.orc t = .done k) ∧ Present WDemo.world (parts NDemo.a.flags NDemo.yes.probes) ∧
    (∀ s ∈ WDemo.talk, s.Ok) ∧ (∀ s ∈ WDemo.talk, May (total (parts NDemo.a.flags NDemo.yes.probes)) false s) := by
  refine ⟨⟨by decide +kernel, by decide +kernel, by decide +kernel, by decide +kernel, by decide +kernel⟩,
    ⟨by decide, rfl, .inr (by decide), by decide⟩, ⟨.inr ⟨rfl, 89, rfl, by decide, by decide⟩, rfl, rfl, rfl, rfl, rfl, by decide +kernel⟩,
    ⟨by decide, by decide, by decide, by decide, by decide⟩, ⟨by decide, by decide, by decide, by decide⟩, fun _ => ⟨7, by decide, rfl⟩, ?_, ?_, ?_⟩
  · intro p hp
    have : p = ⟨3, true, true, none, some (true, 4096), 0⟩ := by simpa [parts, NDemo.yes, NDemo.a, has] using hp
    subst this
    exact ⟨_, rfl, by decide⟩
  · intro s hs
    simp only [WDemo.talk, List.mem_cons, List.not_mem_nil, or_false] at hs
    rcases hs with rfl | rfl | rfl | rfl <;> exact ⟨⟨by decide, by decide, by decide, by decide, by decide⟩, by decide, by decide, by decide⟩
  · intro s hs
    have ht : total (parts NDemo.a.flags NDemo.yes.probes) = 4096 := by decide
    rw [ht]
    simp only [WDemo.talk, List.mem_cons, List.not_mem_nil, or_false] at hs
    rcases hs with rfl | rfl | rfl | rfl <;> exact ⟨by decide, by decide, by decide⟩

/-- And that is what happens, although every system call moves 7 bytes at most. -/
example : (mainloop .big ⟨⟨NDemo.a.flags, 4096, [⟨3, 0⟩], []⟩, false, [], 0, 0, 0, false, false⟩ WDemo.world (WDemo.talk.flatMap Sent.encode)).sent =
    wire [.simple 0 Demo.cookie [], .simple 0 Demo.cookie [], .simple 0 Demo.cookie [],
      .simple 0 Demo.cookie [15, 16, 17, 18, 19, 1, 2, 3, 4, 5, 6, 7, 8, 9, 10, 30, 31, 32, 33, 34]] := by decide +kernel

end Nbd.Props
