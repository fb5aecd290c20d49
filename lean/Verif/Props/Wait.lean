import Verif.WaitAny
import Verif.Demo
/-!
# Waiting for the exported file (C47)

A session on an export with `waitfile` begins without the file. The model (`Verif.Wait`): the request thread handles one request at a
time, the other thread copies one saved block at a time; they alternate in any order, except where the lock forbids it. `waitRun`
executes such a schedule up to the switch, `mainloop` what the client sends after it.

`C47_partial` covers schedules in which a request is handled without the other thread running in between, requests that read within a
block and write whole blocks, and an operating system that does not fail; `C47_errors_partial` adds errors while copying. What is false otherwise is below.
-/

set_option autoImplicit false

namespace Nbd.Spec

/-- A session that has just begun to wait for the file that will have descriptor `fh`: nothing saved, diff file empty. -/
structure FreshWait (fh : Nat) (cl : Client) (w : World) : Prop where
  flag : has cl.ex.flags F_WAIT = true
  nocow : has cl.ex.flags F_COPYONWRITE = false
  nosparse : has cl.ex.flags F_SPARSE = false
  nosplice : has cl.ex.flags F_SPLICE = false
  notree : has cl.ex.flags F_TREEFILES = false
  waiting : cl.waiting = true
  blocks : cl.ex.exportsize % 4096 = 0
  size : cl.ex.exportsize ≤ 2 ^ 31
  map : cl.difmap = List.replicate (cl.ex.exportsize / 4096) 4294967295
  saved : cl.difffilelen = 0 ∧ cl.diffpos = 0
  diff : ∃ f, w.files (.fd cl.difffile) = some f
  other : fh ≠ cl.difffile
  real : ∃ f, w.files (.fd fh) = some f

end Nbd.Spec

namespace Nbd.Props

open Nbd.Spec

theorem freshWait_inv {fh : Nat} {cl : Client} {w : World} (h : FreshWait fh cl w) (hfh : 0 < fh) (hgen : Generous w) :
    WaitInv fh ⟨cl, w, .absent⟩ ∧ waitView fh cl w = inFile fh cl.ex.exportsize w := by
  have hclean : ∀ p m : Nat, cl.difmap[p]? = some m → m = NOPAGE := by
    intro p m hm
    rw [h.map, List.getElem?_replicate] at hm
    split at hm
    · cases hm; rfl
    · cases hm
  refine ⟨⟨⟨h.nocow, h.flag, h.nosparse, h.nosplice, h.notree, h.waiting, h.blocks, h.size, ?_, ?_, ?_, ?_, ?_, ?_, h.other, h.real⟩,
    hgen, hfh, (by simp), (by intro b i d he; cases he), (by intro i he; cases he)⟩, ?_⟩
  · show cl.difmap.length = _
    rw [h.map, List.length_replicate]
  · obtain ⟨f, hf⟩ := h.diff
    exact ⟨f, hf, by show cl.difffilelen * 4096 ≤ _; rw [h.saved.1]; omega⟩
  · show cl.diffpos = cl.difffilelen * 4096
    rw [h.saved.1, h.saved.2]
  · show cl.difffilelen ≤ _
    rw [h.saved.1]; omega
  · intro p m hm hn; exact absurd (hclean p m hm) hn
  · intro p q m hm _ hn; exact absurd (hclean p m hm) hn
  · funext a
    unfold waitView inFile
    split
    · split
      · rename_i m hm
        rw [if_neg (by simp [hclean _ m hm])]
      · rfl
    · rfl

/-- **C47, for whole blocks.** Take any schedule of the file appearing, steps of the copying thread, and requests that read within one
block or write whole blocks (at most 2^20 of them in all). Nothing undefined happens. While the session waits, the replies are those of
the array the file holds when it appears, with every write and write-zeroes acknowledged and applied, except that reads may fail. When
the thread has switched, the file holds exactly that array, and whatever the client sends then operates on the file. -/
theorem C47_partial (e : Endian) (fh : Nat) (cl : Client) (w : World) (hfresh : FreshWait fh cl w) (hfh : 0 < fh)
    (hgen : ∀ t, ∃ n, 4096 ≤ n ∧ w.orc t = .done n)
    (ts : List WaitTurn) (hreq : ∀ x ∈ requests ts, x.Ok ∧ Whole x.cmd) (hroom : blocksOf (requests ts) ≤ 2 ^ 20)
    (out : Out (Waiting × List Byte)) (hrun : waitRun e fh (ts.map WaitTurn.ev) ⟨cl, w, .absent⟩ = some out) :
    ∃ s sent rs g, out = .val (s, sent) ∧ sent = wire rs ∧
      PatientRun cl.ex.exportsize (has cl.ex.flags F_READONLY || has cl.ex.flags F_AUTOREADONLY) cl.structured
        (inFile fh cl.ex.exportsize w) ((requests ts).map Sent.cmd) rs g ∧
      (s.pc = .done →
        inFile fh cl.ex.exportsize s.w = g ∧
        ∀ later : List Sent, (∀ x ∈ later, x.Ok) → (∀ x ∈ later, x.cmd.code = 6 → x.req.len ≤ 64 * 1024 * 1024) →
          (mainloop e s.cl s.w (later.flatMap Sent.encode)).ending = .gone →
          ∃ rs', (mainloop e s.cl s.w (later.flatMap Sent.encode)).sent = wire rs' ∧
            FlatRun cl.ex.exportsize (has cl.ex.flags F_READONLY || has cl.ex.flags F_AUTOREADONLY) [cl.structured] g
              (later.map Sent.cmd) rs'
              (inFile fh cl.ex.exportsize (mainloop e s.cl s.w (later.flatMap Sent.encode)).w)) := by
  obtain ⟨hinv, hv⟩ := freshWait_inv hfresh hfh hgen
  obtain ⟨s, sent, rs, g, h1, h2, h3, h4, h5, h6, h7, h8⟩ := waitRun_wait e fh ts _ out hinv hreq
    (by show cl.difffilelen + _ ≤ _; rw [hfresh.saved.1]; omega) hrun
  simp only [] at h3 h5 h6 h7
  rw [hv] at h3
  refine ⟨s, sent, rs, g, h1, h2, h3, ?_⟩
  intro hdone
  rcases h8 with ⟨hi, _⟩ | ⟨_, hp, hf, hg⟩
  · exact absurd hdone hi.active
  · have ht : has s.cl.ex.flags F_TREEFILES = false := by rw [h6]; exact hfresh.notree
    have hg' := hg
    rw [view_single _ fh hf ht, h7] at hg'
    refine ⟨hg', ?_⟩
    intro later hok hz hend
    obtain ⟨k1, rs', k2, k3⟩ := mainloop_plain e later hok s.cl s.w hp hz hend
    refine ⟨rs', k2, ?_⟩
    have hfr : framing s.cl = [cl.structured] := by
      unfold framing; rw [h6, hfresh.nosplice, h5]; rfl
    have hbw : badWrite s.cl = (has cl.ex.flags F_READONLY || has cl.ex.flags F_AUTOREADONLY) := by
      unfold badWrite; rw [h6]
    rw [hg, hfr, hbw, h7, view_single _ fh hf ht, h7] at k3
    exact k3

/-- **C47, the switch comes.** After any such schedule in which the file has appeared, if no further requests arrive the copying thread
reaches the switch. -/
theorem C47_switch_partial (e : Endian) (fh : Nat) (cl : Client) (w : World) (hfresh : FreshWait fh cl w) (hfh : 0 < fh)
    (hgen : ∀ t, ∃ n, 4096 ≤ n ∧ w.orc t = .done n)
    (ts : List WaitTurn) (hreq : ∀ x ∈ requests ts, x.Ok ∧ Whole x.cmd) (hroom : blocksOf (requests ts) ≤ 2 ^ 20)
    (s : Waiting) (sent : List Byte) (hrun : waitRun e fh (ts.map WaitTurn.ev) ⟨cl, w, .absent⟩ = some (.val (s, sent)))
    (happeared : s.pc ≠ .absent) :
    ∃ n s', waitRun e fh (List.replicate n .commit) s = some (.val (s', [])) ∧ s'.pc = .done := by
  obtain ⟨hinv, _⟩ := freshWait_inv hfresh hfh hgen
  obtain ⟨s1, sent1, _, _, h1, _, _, _, _, _, _, h8⟩ := waitRun_wait e fh ts _ _ hinv hreq
    (by show cl.difffilelen + _ ≤ _; rw [hfresh.saved.1]; omega) hrun
  cases h1
  rcases h8 with ⟨hi, _⟩ | ⟨hd, _⟩
  · obtain ⟨s', ⟨n, hn⟩, hp⟩ := wait_reaches e fh s hi happeared
    exact ⟨n, s', hn, hp⟩
  · exact ⟨0, s, rfl, hd⟩

/-- **C47, errors while copying.** After any such schedule, let the operating system fail or stop short in any of the copying thread's
system calls, for any number of its steps. Nothing undefined happens. If the thread switches nevertheless, the file holds exactly what
the client's writes made of it. If it has not switched, then as soon as the errors stop (and no requests arrive) it will, and then the
file holds that array: no error makes it drop or damage a block. -/
theorem C47_errors_partial (e : Endian) (fh : Nat) (cl : Client) (w : World) (hfresh : FreshWait fh cl w) (hfh : 0 < fh)
    (hgen : ∀ t, ∃ n, 4096 ≤ n ∧ w.orc t = .done n)
    (ts : List WaitTurn) (hreq : ∀ x ∈ requests ts, x.Ok ∧ Whole x.cmd) (hroom : blocksOf (requests ts) ≤ 2 ^ 20)
    (s : Waiting) (sent : List Byte) (hrun : waitRun e fh (ts.map WaitTurn.ev) ⟨cl, w, .absent⟩ = some (.val (s, sent)))
    (happeared : s.pc ≠ .absent) (hcopying : s.pc ≠ .done)
    (errors : Nat → Kr) (n : Nat) (out : Out (Waiting × List Byte))
    (hcopy : waitRun e fh (List.replicate n .commit) { s with w := { s.w with orc := errors } } = some out) :
    ∃ rs g s', sent = wire rs ∧
      PatientRun cl.ex.exportsize (has cl.ex.flags F_READONLY || has cl.ex.flags F_AUTOREADONLY) cl.structured
        (inFile fh cl.ex.exportsize w) ((requests ts).map Sent.cmd) rs g ∧
      out = .val (s', []) ∧
      (s'.pc = .done → inFile fh cl.ex.exportsize s'.w = g) ∧
      (s'.pc ≠ .done → ∀ calm : Nat → Kr, (∀ t, ∃ n, 4096 ≤ n ∧ calm t = .done n) →
        ∃ k s2, waitRun e fh (List.replicate k .commit) { s' with w := { s'.w with orc := calm } } = some (.val (s2, [])) ∧
          s2.pc = .done ∧ inFile fh cl.ex.exportsize s2.w = g) := by
  obtain ⟨hinv, hv⟩ := freshWait_inv hfresh hfh hgen
  obtain ⟨s1, sent1, rs, g, h1, h2, h3, h4, h5, h6, h7, h8⟩ := waitRun_wait e fh ts _ _ hinv hreq
    (by show cl.difffilelen + _ ≤ _; rw [hfresh.saved.1]; omega) hrun
  simp only [] at h3 h5 h6 h7
  rw [hv] at h3
  cases h1
  rcases h8 with ⟨hi, hg⟩ | ⟨hd, _⟩
  · have hin : CopyInv fh { s with w := { s.w with orc := errors } } :=
      ⟨hi.ok.of_files rfl, hcopying, hi.index, hi.clean⟩
    obtain ⟨s', k1, k2, k3, k4⟩ := waitRun_copy e fh n _ out hin hcopy
    have hvw : waitView fh s.cl { s.w with orc := errors } = g := by
      rw [← hg]; exact waitView_of_files fh s.cl rfl
    simp only [h7, hvw] at k4
    have hpc' : s'.pc ≠ .absent := by
      rcases k4 with ⟨_, _⟩ | ⟨hd, _⟩
      · exact waitRun_present e fh n { s with w := { s.w with orc := errors } } _ happeared (hcopy.trans (by rw [k1]))
      · rw [hd]; simp
    refine ⟨rs, g, s', h2, h3, k1, ?_, ?_⟩
    · intro hd
      rcases k4 with ⟨hi', _⟩ | ⟨_, hf⟩
      · exact absurd hd hi'.active
      · exact hf
    · intro hnd calm hcalm
      rcases k4 with ⟨hi', hv'⟩ | ⟨hd, _⟩
      · have hw : WaitInv fh { s' with w := { s'.w with orc := calm } } :=
          ⟨hi'.ok.of_files rfl, hcalm, hfh, hnd, hi'.index, hi'.clean⟩
        obtain ⟨s2, ⟨k, hk⟩, hp⟩ := wait_reaches e fh _ hw hpc'
        obtain ⟨s3, j1, j2, _, j4⟩ := waitRun_copy e fh k _ _ ⟨hw.ok, hw.active, hw.index, hw.clean⟩ hk
        cases j1
        refine ⟨k, s2, hk, hp, ?_⟩
        rcases j4 with ⟨hi2, _⟩ | ⟨_, hf⟩
        · exact absurd hp hi2.active
        · have hsz : s'.cl.ex.exportsize = cl.ex.exportsize := by rw [k2]; exact h7
          have hvv : waitView fh s'.cl { s'.w with orc := calm } = g := by
            rw [← hv']; exact waitView_of_files fh s'.cl rfl
          simp only [hsz, hvv] at hf
          exact hf
      · exact absurd hd hnd
  · exact absurd hd hcopying

/-! ### An example -/

/-- An export of two blocks that waits for its file. -/
def waitClient : Client := ⟨⟨F_WAIT, 8192, [], []⟩, true, [4294967295, 4294967295], 0, 9, 0, false, false⟩

/-- The file that will appear has descriptor 3. -/
def waitWorld : World where
  files := fun id =>
    if id = .fd 3 then some (File.clean (fun i => UInt8.ofNat (i % 251)) 8192)
    else if id = .fd 9 then some (File.clean (fun _ => 0) 0) else none
  orc := fun _ => .done (2 ^ 31)
  tick := 0
  errno := 0
  old := fun _ => []

theorem waitClient_fresh : FreshWait 3 waitClient waitWorld :=
  ⟨by decide, by decide, by decide, by decide, by decide, rfl, rfl, by decide, rfl, ⟨rfl, rfl⟩, ⟨_, rfl⟩, by decide, ⟨_, rfl⟩⟩

/-- Write block 1, see the file appear, read a byte of block 1 while it is still saved, overwrite it when it has been copied. -/
def waitTurns : List WaitTurn :=
  [.send (Demo.write 4096 (List.replicate 4096 5)), .appear, .commit, .send (Demo.request 0 5000 1), .commit,
   .send (Demo.write 4096 (List.replicate 4096 6))] ++ List.replicate 10 .commit

/-- A write of a whole block. -/
theorem wholeWrite (a : Nat) (data : List Byte) (ha : a < 2 ^ 64) (hm : a % 4096 = 0) (hl : data.length = 4096) :
    (Demo.write a data).Ok ∧ Whole (Demo.write a data).cmd := by
  refine ⟨⟨⟨?_, ?_, rfl, ha, ?_⟩, rfl, ?_, ?_⟩, ⟨?_, ?_, ?_, ?_⟩⟩
  · show 0x25609513 < 2 ^ 32; decide
  · show 1 < 2 ^ 32; decide
  · show data.length < 2 ^ 32; omega
  · show 1 ≠ 2; decide
  · rfl
  · intro h; cases h
  · intro _
    refine ⟨?_, hm, ?_⟩
    · show 0 < data.length; omega
    · show data.length % 4096 = 0; omega
  · intro h; cases h
  · intro h; cases h

-- The hypotheses of `C47_partial` hold for it, and it reaches the switch.
example : (∀ x ∈ requests waitTurns, x.Ok ∧ Whole x.cmd) ∧ blocksOf (requests waitTurns) ≤ 2 ^ 20 := by
  refine ⟨?_, by decide +kernel⟩
  intro x hx
  have hx : x ∈ [Demo.write 4096 (List.replicate 4096 5), Demo.request 0 5000 1, Demo.write 4096 (List.replicate 4096 6)] := hx
  rcases List.mem_cons.mp hx with h | hx
  · rw [h]; exact wholeWrite 4096 _ (by decide) rfl List.length_replicate
  rcases List.mem_cons.mp hx with h | hx
  · rw [h]
    refine ⟨⟨⟨by decide, by decide, by decide, by decide, by decide⟩, rfl, by decide, by decide⟩, ⟨fun _ => ⟨by decide, by decide⟩, ?_, ?_, ?_⟩⟩
    · intro h; cases h
    · intro h; cases h
    · intro h; cases h
  · rw [List.mem_singleton.mp hx]; exact wholeWrite 4096 _ (by decide) rfl List.length_replicate

/-- Where the example ends: the thread's position, what was sent, and the first byte of block 1 in the file. -/
def waitSummary (r : Option (Out (Waiting × List Byte))) : Option (WaitPc × List Byte × Byte × Byte) :=
  match r with
  | some (.val (s, sent)) => some (s.pc, sent, content s.w (.fd 3, 0), content s.w (.fd 3, 4096))
  | _ => none

example : waitSummary (waitRun .little 3 (waitTurns.map WaitTurn.ev) ⟨waitClient, waitWorld, .absent⟩) =
    some (.done, wire [.simple 0 Demo.cookie [], .simple 0 Demo.cookie [5], .simple 0 Demo.cookie []], 0, 6) := by decide +kernel

/-- A full disk: half of the block fits, then nothing; the third call and those after it work. -/
def waitErrors : Nat → Kr := fun t => if t = 1 then .done 2048 else if t = 3 then .err ENOSPC else .done (2 ^ 31)

-- `C47_errors_partial` is about runs like this one: the block is half copied, tried again, not copied at all, tried again.
example : (match waitRun .little 3 (([.send (Demo.write 4096 (List.replicate 4096 5)), .appear, .commit] : List WaitTurn).map WaitTurn.ev)
      ⟨waitClient, waitWorld, .absent⟩ with
    | some (.val (s, _)) =>
      (List.range 12).map fun n =>
        match waitRun .little 3 (List.replicate n .commit) { s with w := { s.w with orc := waitErrors, tick := 0 } } with
        | some (.val (s, _)) => some (s.pc, content s.w (.fd 3, 4096), content s.w (.fd 3, 8191))
        | _ => none
    | _ => []) =
    [some (.commit false 1 0, 80, 159), some (.commit false 0 0, 5, 159), some (.commit false 1 0, 5, 159),
     some (.commit false 0 0, 5, 159), some (.commit false 1 0, 5, 159), some (.commit false 2 1, 5, 5),
     some (.commit false 0 0, 5, 5), some (.commit false 1 0, 5, 5), some (.commit false 2 0, 5, 5),
     some (.commit true 0 0, 5, 5), some (.commit true 1 0, 5, 5), some (.commit true 2 0, 5, 5)] := by decide +kernel

/-! ### What is false -/

/-- With block 0 in the map and nothing in the diff file, the copying thread stays at block 0. -/
theorem stuck_step (cl : Client) (w : World) (hm : cl.difmap[0]? = some 0) (hp : 0 < pagecount cl)
    (hf : (w.files (.fd cl.difffile)).map File.size = some 0) :
    ∃ w', waitStep 3 ⟨cl, w, .commit false 0 0⟩ = .val ⟨cl, w', .commit false 0 0⟩ ∧ w'.files = w.files := by
  have hfail : ∃ w', commitPage 3 cl w 0 = .val (cl, w', .failed) ∧ w'.files = w.files := by
    unfold commitPage
    rw [if_neg (by rw [Nat.zero_mul]; decide), hm]
    simp only []
    rw [if_neg (by decide)]
    have hlen : ∀ bs, (sysPread w (.fd cl.difffile) (diffOffset 0 0) DIFFPAGESIZE).2 = some bs → bs.length ≠ DIFFPAGESIZE := by
      intro bs hb
      unfold sysPread at hb
      cases hw : w.files (.fd cl.difffile) with
      | none => rw [hw] at hf; cases hf
      | some f =>
        rw [hw] at hb hf
        have hs : f.size = 0 := by simpa using hf
        simp only [] at hb
        split at hb
        · cases hb
        · cases hb
          unfold File.pread
          rw [Flat.read_length, hs]
          simp [DIFFPAGESIZE]
    have hfl : (sysPread w (.fd cl.difffile) (diffOffset 0 0) DIFFPAGESIZE).1.files = w.files := sysPread_files _ _ _ _
    generalize sysPread w (.fd cl.difffile) (diffOffset 0 0) DIFFPAGESIZE = o at hlen hfl
    obtain ⟨w', _ | bs⟩ := o
    · exact ⟨w', rfl, hfl⟩
    · simp only []
      rw [if_pos (hlen bs rfl)]
      exact ⟨w', rfl, hfl⟩
  obtain ⟨w', h1, h2⟩ := hfail
  refine ⟨w', ?_, h2⟩
  unfold waitStep
  simp only []
  rw [if_pos hp, h1]

theorem stuck_run (n : Nat) : ∀ (cl : Client) (w : World), cl.difmap[0]? = some 0 → 0 < pagecount cl →
    (w.files (.fd cl.difffile)).map File.size = some 0 →
    ∃ w', waitRun .little 3 (List.replicate n .commit) ⟨cl, w, .commit false 0 0⟩ = some (.val (⟨cl, w', .commit false 0 0⟩, [])) := by
  induction n with
  | zero => intro cl w _ _ _; exact ⟨w, rfl⟩
  | succ n ih =>
    intro cl w hm hp hf
    obtain ⟨w1, h1, h2⟩ := stuck_step cl w hm hp hf
    obtain ⟨w', h⟩ := ih cl w1 hm hp (by rw [h2]; exact hf)
    refine ⟨w', ?_⟩
    rw [List.replicate_succ, waitRun]
    simp only [h1]
    exact h

/-- **C47 is false of the code: a write of part of a block.** The server refuses it, but by then it has entered a saved block that does
not exist into its map. The copying thread tries to copy that block for ever: the session never switches to the file that appears,
even if no further requests come. -/
theorem C47_false_stuck : FreshWait 3 waitClient waitWorld ∧
    ∀ n, ∃ s, waitRun .little 3 (.request (Demo.write 0 [7]).encode :: .appear :: List.replicate n .commit)
      ⟨waitClient, waitWorld, .absent⟩ = some (.val (s, wire [.simple 22 Demo.cookie []])) ∧ s.pc ≠ .done := by
  refine ⟨waitClient_fresh, fun n => ?_⟩
  have h1 : (mainloop .little waitClient waitWorld (Demo.write 0 [7]).encode).ending = .gone := by decide +kernel
  have h2 : (mainloop .little waitClient waitWorld (Demo.write 0 [7]).encode).cl.difmap[0]? = some 0 := by decide +kernel
  have h3 : 0 < pagecount (mainloop .little waitClient waitWorld (Demo.write 0 [7]).encode).cl := by decide +kernel
  have h4 : ((mainloop .little waitClient waitWorld (Demo.write 0 [7]).encode).w.files
      (.fd (mainloop .little waitClient waitWorld (Demo.write 0 [7]).encode).cl.difffile)).map File.size = some 0 := by decide +kernel
  have h5 : (mainloop .little waitClient waitWorld (Demo.write 0 [7]).encode).sent = wire [.simple 22 Demo.cookie []] := by
    decide +kernel
  obtain ⟨w', h⟩ := stuck_run n _ _ h2 h3 h4
  have hrun : waitRun .little 3 (.request (Demo.write 0 [7]).encode :: .appear :: List.replicate n .commit)
      ⟨waitClient, waitWorld, .absent⟩ = some (.val (⟨(mainloop .little waitClient waitWorld (Demo.write 0 [7]).encode).cl, w',
        .commit false 0 0⟩, wire [.simple 22 Demo.cookie []])) := by
    rw [waitRun]
    simp only [h1]
    rw [waitRun]
    simp only []
    rw [if_neg (by decide), h]
    simp only [h5, List.append_nil]
  exact ⟨_, hrun, by simp⟩

/-- **C47 is false of the code: a refused write damages the file.** After the client's one-byte write to block 0 was refused and its
write of block 1 acknowledged, the data of block 1 is copied into block 0 of the file. -/
theorem C47_false_damage : FreshWait 3 waitClient waitWorld ∧
    waitSummary (waitRun .little 3 [.request (Demo.write 0 [7]).encode, .request (Demo.write 4096 (List.replicate 4096 5)).encode,
      .appear, .commit] ⟨waitClient, waitWorld, .absent⟩) =
      some (.commit false 1 1, wire [.simple 22 Demo.cookie [], .simple 0 Demo.cookie []], 5, 80) ∧
    content waitWorld (.fd 3, 0) = 0 :=
  ⟨waitClient_fresh, by decide +kernel, by decide +kernel⟩

/-- The check behind `C47_false_race`. -/
def raceCheck : Bool :=
  match waitRun .little 3 (.appear :: List.replicate 6 .commit) ⟨waitClient, waitWorld, .absent⟩ with
  | some (.val (s, sent)) => sent == [] && s.pc == .done &&
    match expwriteRest s.cl s.w 4096 (List.replicate 4096 5) true with
    | .val (cl, w, ok) => ok == true && content w (.fd 3, 4096) == 80 &&
        (mainloop .little cl w (Demo.request 0 4096 1).encode).sent == wire [.simple 0 Demo.cookie [80]]
    | _ => false
  | _ => false

/-- **C47 is false of the code: the switch during a write.** `expwrite` finds the session still waiting (it does not hold the lock when
it looks); the copying thread then finishes and switches; the write goes on as if nothing had happened, saves its block and reports
success. The block is not in the file and will not be read back. -/
theorem C47_false_race : FreshWait 3 waitClient waitWorld ∧ waitClient.paged = true ∧
    ∃ s cl w, waitRun .little 3 (.appear :: List.replicate 6 .commit) ⟨waitClient, waitWorld, .absent⟩ = some (.val (s, [])) ∧
      s.pc = .done ∧
      expwriteRest s.cl s.w 4096 (List.replicate 4096 5) true = .val (cl, w, true) ∧
      content w (.fd 3, 4096) = 80 ∧
      (mainloop .little cl w (Demo.request 0 4096 1).encode).sent = wire [.simple 0 Demo.cookie [80]] := by
  refine ⟨waitClient_fresh, rfl, ?_⟩
  have h : raceCheck = true := by decide +kernel
  unfold raceCheck at h
  split at h
  · rename_i s sent hs
    simp only [Bool.and_eq_true, beq_iff_eq] at h
    obtain ⟨⟨h1, h2⟩, h⟩ := h
    generalize hx : expwriteRest s.cl s.w 4096 (List.replicate 4096 5) true = o at h
    match o, h with
    | .val (cl, w, ok), h =>
      simp only [Bool.and_eq_true, beq_iff_eq] at h
      obtain ⟨⟨h3, h4⟩, h5⟩ := h
      subst h1 h3
      exact ⟨s, cl, w, hs, h2, hx, h4, h5⟩
  · cases h

/-- **C47 is false of the code: a trim while waiting** uses a list of files that is not there. -/
theorem C47_false_trim : FreshWait 3 waitClient waitWorld ∧
    waitRun .little 3 [.request (Demo.request 4 0 4096).encode] ⟨waitClient, waitWorld, .absent⟩ = some .ub := by
  refine ⟨waitClient_fresh, ?_⟩
  have h1 : (mainloop .little waitClient waitWorld (Demo.request 4 0 4096).encode).ending = .ub := by decide +kernel
  rw [waitRun]
  simp only [h1]

/-- Copying the clean blocks below 2^19. -/
theorem big_pass (cl : Client) (w : World) (hp : 2 ^ 19 < pagecount cl)
    (hm : ∀ i, i < pagecount cl → cl.difmap[i]? = some NOPAGE) (n : Nat) : ∀ i, i + n = 2 ^ 19 →
    waitRun .little 3 (List.replicate (n + 1) .commit) ⟨cl, w, .commit false i 0⟩ = some .ub := by
  induction n with
  | zero =>
    intro i hi
    have hu : waitStep 3 ⟨cl, w, .commit false i 0⟩ = .ub := by
      unfold waitStep
      simp only []
      rw [if_pos (by omega)]
      unfold commitPage
      rw [if_pos (by rw [show DIFFPAGESIZE = 4096 from rfl]; omega)]
    rw [List.replicate_succ, waitRun]
    simp only [hu]
  | succ n ih =>
    intro i hi
    have hu : waitStep 3 ⟨cl, w, .commit false i 0⟩ = .val ⟨cl, w, .commit false (i + 1) 0⟩ := by
      unfold waitStep
      simp only []
      rw [if_pos (by omega)]
      unfold commitPage
      rw [if_neg (by rw [show DIFFPAGESIZE = 4096 from rfl]; omega), hm i (by omega)]
      simp only [if_true]
    rw [List.replicate_succ, waitRun]
    simp only [hu]
    exact ih (i + 1) (by omega)

/-- **C47 is false of the code: exports of more than 2 GiB.** Whatever the session does before, once the copying thread runs through
the blocks without interruption it computes an offset that overflows a C `int`. -/
theorem C47_false_big (cl : Client) (w : World) (hbig : 2 ^ 31 + 4096 ≤ cl.ex.exportsize) (hlt : cl.ex.exportsize < 2 ^ 43)
    (hmap : cl.difmap = List.replicate (cl.ex.exportsize / 4096) 4294967295) :
    waitRun .little 3 (.appear :: List.replicate (2 ^ 19 + 1) .commit) ⟨cl, w, .absent⟩ = some .ub := by
  have hpc : pagecount cl = cl.ex.exportsize / 4096 := by
    unfold pagecount
    rw [show DIFFPAGESIZE = 4096 from rfl]
    simp only []
    rw [Nat.mod_eq_of_lt (by omega), if_pos (by omega)]
  rw [waitRun]
  simp only []
  rw [if_neg (by decide)]
  exact big_pass cl w (by rw [hpc]; omega) (by intro i hi; rw [hmap, List.getElem?_replicate, if_pos (by omega)]; rfl) (2 ^ 19) 0 (by omega)

end Nbd.Props
