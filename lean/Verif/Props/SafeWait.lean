import Verif.SafeWait
import Verif.Props.Wait
import Verif.Props.SafeCow
/-! # C53 for exports that wait for their file -/
set_option autoImplicit false

namespace Nbd.Spec
open Nbd

/-- A new session that waits for its file: whole blocks, at most 2 GiB (`C47_false_big`), nothing saved yet. Nothing is asked of
the kernel, of the diff file or of the file that will appear. -/
structure WaitsFor (cl : Client) : Prop where
  flag : has cl.ex.flags F_WAIT = true
  nocow : has cl.ex.flags F_COPYONWRITE = false
  nosplice : has cl.ex.flags F_SPLICE = false
  notree : has cl.ex.flags F_TREEFILES = false
  waiting : cl.waiting = true
  blocks : cl.ex.exportsize % 4096 = 0
  size : cl.ex.exportsize ≤ 2 ^ 31
  map : cl.difmap = List.replicate (cl.ex.exportsize / 4096) 4294967295

end Nbd.Spec

namespace Nbd.Props
open Nbd Nbd.Spec

/-- **C53** for `waitfile` (partial: commands that are `Calm`, the others are the subject of `C47_false_trim`, `C53_false_wait_read` and
`C53_false_wait_empty`; exports of whole blocks up to 2 GiB, `C47_false_big`; requests are not interrupted by the other
thread, `C47_false_race`). Whatever bytes a client sends while the file is not there and while it is being filled, whenever the
file appears, in every order of requests and steps of the waiting thread, and whichever calls fail or are cut short: the process does not
run into undefined behaviour and does not exit. Once the session has gone over to the file it is as
safe as any other, whatever is sent. -/
theorem C53_wait_partial (e : Endian) (fh : Nat) (cl : Client) (w : World) (h : WaitsFor cl) (evs : List WaitEv)
    (hc : AllCalm cl.ex.exportsize cl.structured (wishes evs)) (out : Out (Waiting × List Byte))
    (hrun : waitRun e fh evs ⟨cl, w, .absent⟩ = some out) :
    ∃ s sent, out = .val (s, sent) ∧
      (s.pc = .done → ∀ stream, (mainloop e s.cl s.w stream).ending = .gone ∨
        (mainloop e s.cl s.w stream).ending = .disconnected) := by
  have hclean : ∀ q, ¬ Dirty cl q := by
    rintro q ⟨m, hm, hne⟩
    rw [h.map, List.getElem?_replicate] at hm
    split at hm
    · cases hm; exact hne rfl
    · cases hm
  obtain ⟨s, sent, h1, h2⟩ := waitRun_calm e fh evs ⟨cl, w, .absent⟩ []
    ⟨Nat.le_trans h.size (by decide), h.flag, h.nosplice, h.waiting, h.blocks, by
      show cl.difmap.length = _
      rw [h.map, List.length_replicate]⟩ h.size (by simp) (fun q hq => absurd hq (hclean q))
    (fun pre c post hp => hc pre c post hp) out hrun
  refine ⟨s, sent, h1, fun hd stream => ?_⟩
  rcases h2 with ⟨_, hw, hx⟩ | ⟨hn, _⟩
  · have hfl : s.cl.ex.flags = cl.ex.flags := by rw [hx]
    have hfi : s.cl.ex.files = [⟨fh, 0⟩] := by rw [hx]
    have := mainloop_rooted e s.cl s.w stream
      ⟨.inr ⟨by rw [hfl]; exact h.notree, fh, [], hfi⟩, by unfold Client.paged; rw [hfl, h.nocow, hw]; rfl⟩
      (.inr (by rw [hfl]; exact h.nosplice))
    rw [hfl, h.notree] at this
    simpa using this
  · exact absurd hd hn

/-! ### A session that waits -/

theorem waitClient_waits : WaitsFor waitClient :=
  ⟨waitClient_fresh.flag, waitClient_fresh.nocow, waitClient_fresh.nosplice, waitClient_fresh.notree, waitClient_fresh.waiting,
    waitClient_fresh.blocks, waitClient_fresh.size, waitClient_fresh.map⟩

/-- A read of what is not there, a write of part of a block, the file, the thread, a flush, the thread, junk. -/
def calmEvents : List WaitEv :=
  [.request (Demo.request 0 0 100).encode, .request (Demo.write 10 [7]).encode, .appear, .commit, .request (Demo.request 3 0 0).encode,
   .commit, .request [1, 2, 3]]

theorem commandsIn_one (s : Sent) (h : s.Ok) : commandsIn s.encode = [s.cmd] := by
  have := commandsIn_sent [s] (by simpa using h) [] (.inl (by decide))
  simpa using this

-- Its commands are calm.
example : AllCalm waitClient.ex.exportsize waitClient.structured (wishes calmEvents) := by
  have h0 : wishes calmEvents = [(Demo.request 0 0 100).cmd, (Demo.write 10 [7]).cmd, (Demo.request 3 0 0).cmd] := by
    have h3 : commandsIn [1, 2, 3] = [] := by rw [commandsIn, dif_pos (by decide)]
    simp only [calmEvents, wishes, h3]
    rw [commandsIn_one, commandsIn_one, commandsIn_one]
    · rfl
    all_goals exact ⟨⟨by decide, by decide, by decide, by decide, by decide⟩, rfl, by decide, by decide⟩
  intro before c after h
  rw [h0] at h
  match before, h with
  | [], h => cases h; exact ⟨by decide, by decide, fun _ _ => .inr (.inl (by decide))⟩
  | [_], h => cases h; exact ⟨by decide, by decide, fun h => absurd h (by decide)⟩
  | [_, _], h => cases h; exact ⟨by decide, by decide, fun h => absurd h (by decide)⟩
  | _ :: _ :: _ :: z, h =>
    have := congrArg List.length h
    simp at this

-- The run can happen, on a kernel that fails every third time.
example : (waitRun .little 3 calmEvents ⟨waitClient, { waitWorld with orc := cowFlaky.orc }, .absent⟩).isSome = true := by
  decide +kernel

/-- **C53 is false of waiting sessions: a read of two blocks that were written.** Only the last of them is put into the reply, so that
memory that was never initialised is sent. -/
theorem C53_false_wait_read : WaitsFor waitClient ∧
    (mainloop .little waitClient waitWorld ((Demo.write 0 (List.replicate 4096 5)).encode ++
      (Demo.write 4096 (List.replicate 4096 6)).encode ++ (Demo.request 0 4095 2).encode)).ending = .ub :=
  ⟨waitClient_waits, by decide +kernel⟩

/-- **C53 is false of waiting sessions: a read of nothing at offset 0**, which looks up blocks up to the end of the address space. -/
theorem C53_false_wait_empty : WaitsFor waitClient ∧
    (mainloop .little waitClient waitWorld ((Demo.write 0 (List.replicate 4096 5)).encode ++ 
      (Demo.write 4096 (List.replicate 4096 6)).encode ++ (Demo.request 0 0 0).encode)).ending = .ub :=
  ⟨waitClient_waits, by decide +kernel⟩

/-- **C03 and C47 are false of waiting sessions with structured replies**: after two blocks have been written, with 5 and with 6, the
server answers a read of the last byte of the first and the first byte of the second block with both bytes at the same place, and says
that the answer is complete. -/
theorem C47_false_structured : WaitsFor { waitClient with structured := true } ∧
    (mainloop .little { waitClient with structured := true } waitWorld ((Demo.write 0 (List.replicate 4096 5)).encode ++
      (Demo.write 4096 (List.replicate 4096 6)).encode ++ (Demo.request 0 4095 2).encode)).sent =
    wire [.simple 0 Demo.cookie [], .simple 0 Demo.cookie [], .chunk 0 1 Demo.cookie (toBE 8 4095 ++ [5]),
      .chunk 0 1 Demo.cookie (toBE 8 4095 ++ [6]), .chunk 1 0 Demo.cookie []] :=
  ⟨{ waitClient_waits with }, by decide +kernel⟩

/-! ### C99 for every kind of export -/

/-- **C99** for servers with any exports (partial: as `C99_cow_partial`, and on exports that wait for their file as
`C53_wait_partial`, up to the moment the file appears). Whatever bytes a client
sends from the moment it is connected, in the clear and inside TLS: the process that serves it does not run into undefined
behaviour. -/
theorem C99_every_export_partial (e : Endian) (env : NEnv) (cf : NConf) (n : Nat) (svs : List SrvExport) (nz : Bool)
    (inp : List Byte) (tlsIn : Option (List Byte)) (hi : inp.length < 2 ^ 32 - 1)
    (ht : ∀ i, tlsIn = some i → i.length < 2 ^ 32 - 1) (hn : ∀ sv ∈ svs, sv.name.length ≤ 1020)
    (ha : ∀ sv, (env.attempt 0 sv).acl ≠ none)
    (hc : cf.dontfork = true ∨ (session e env cf n svs nz inp tlsIn).2.commits ≤ 1)
    (hr : ∀ sv ∈ svs, has sv.flags F_COPYONWRITE = true ∨ has sv.flags F_WAIT = true ∨ tlsIn ≠ none →
      has sv.flags F_SPLICE = false) (d : Nat) (w : World)
    (hcow : ∀ s cl, session e env cf n svs nz inp tlsIn = (.serving, s) → s.client d = some cl →
      has cl.ex.flags F_COPYONWRITE = true → has cl.ex.flags F_WAIT = false →
      GoodExport cl.ex ∧ cl.ex.exportsize % 4096 = 0 ∧ (∀ a x, home cl.ex a = some x → x.1 ≠ .fd d) ∧
      Backed cl.ex w ∧ NoEarlyEof w ∧ AllGentle cl.ex.exportsize cl.structured (commandsIn s.inp))
    (hwait : ∀ s cl, session e env cf n svs nz inp tlsIn = (.serving, s) → s.client d = some cl →
      has cl.ex.flags F_WAIT = true → cl.ex.exportsize ≤ 2 ^ 63 ∧ cl.ex.exportsize % 4096 = 0 ∧
      AllCalm cl.ex.exportsize cl.structured (commandsIn s.inp)) :
    ¬ Crashes e env cf n svs nz inp tlsIn d w := by
  rintro (h | ⟨s, cl, h1, h2, h3⟩)
  · exact C31_no_ub_partial e env cf n svs nz inp tlsIn hi ht hn ha hc h
  · obtain ⟨sv, hsv, ⟨flags, expected, name, probes, hset, hfl⟩, hex, hw, htls⟩ := session_client h1 h2
    have hspl := hr sv hsv
    have hd : cl.difffile = d ∧ cl.difmap = List.replicate (cl.ex.exportsize / 4096) 4294967295 := by
      unfold NState.client at h2
      cases hx : s.ex with
      | none => rw [hx] at h2; cases h2
      | some ex => rw [hx] at h2; cases h2; exact ⟨rfl, rfl⟩
    have hclean : ∀ q, ¬ Dirty cl q := by
      rintro q ⟨m, hm, hne⟩
      rw [hd.2, List.getElem?_replicate] at hm
      split at hm
      · cases hm; exact hne rfl
      · cases hm
    have hcv : has cl.ex.flags F_COPYONWRITE = has sv.flags F_COPYONWRITE := has_marked hex (by decide) (by decide)
    have hwv : has cl.ex.flags F_WAIT = has sv.flags F_WAIT := has_marked hex (by decide) (by decide)
    have hsv' : has cl.ex.flags F_SPLICE = has sv.flags F_SPLICE := has_marked hex (by decide) (by decide)
    cases hwt : has cl.ex.flags F_WAIT with
    | true =>
      obtain ⟨k1, k2, k3⟩ := hwait s cl h1 h2 hwt
      have := (mainloop_calm e cl w s.inp [] ⟨k1, hwt, by rw [hsv']; exact hspl (.inr (.inl (hwv.symm.trans hwt))),
        hw.trans hwt, k2, by rw [hd.2, List.length_replicate]⟩ (fun q hq => absurd hq (hclean q))
        (fun pre c post hp => k3 pre c post hp)).1
      rw [h3] at this
      simp at this
    | false =>
      have hw' : cl.waiting = false := hw.trans hwt
      cases hcw : has cl.ex.flags F_COPYONWRITE with
      | true =>
        obtain ⟨k1, k2, k3, k4, k5, k6⟩ := hcow s cl h1 h2 hcw hwt
        have := C53_cow_partial e cl w ⟨k1, hcw, by rw [hsv']; exact hspl (.inl (hcv.symm.trans hcw)), hw', k2, hd.2,
          by rw [hd.1]; exact k3, k4, k5⟩ s.inp k6
        rw [h3] at this
        simp at this
      | false =>
        have := C53_every_layout_partial e cl w ⟨⟨flags, expected, name, probes, hset,
          by rw [has_marked hfl (by decide) (by decide), ← hwv]; exact hwt⟩, hcw, hw'⟩ (by
          by_cases hk : tlsIn = none
          · left
            subst hk
            have := (session_clear e env cf n svs nz inp).1
            rw [h1] at this
            rw [htls]; exact this
          · right
            rw [hsv']; exact hspl (.inr (.inr hk))) s.inp
        rw [h3] at this
        simp at this

/-- An export of 8192 bytes with `waitfile = true`. -/
def waitOffer : SrvExport := ⟨0, [], F_WAIT, 8192⟩

def calmTalk : List Byte := toBE 4 3 ++ optRequest 7 (infoData [] []) ++ (Demo.request 0 0 100).encode

-- Its hypotheses are met by a client of such an export, which is served.
example : (session .little cowEnv NDemo.cf 9 [waitOffer] false calmTalk none).1 = .serving ∧
    ¬ Crashes .little cowEnv NDemo.cf 9 [waitOffer] false calmTalk none 9 cowWorld := by
  have hs : (session .little cowEnv NDemo.cf 9 [waitOffer] false calmTalk none).1 = .serving := by decide +kernel
  have hcl : (session .little cowEnv NDemo.cf 9 [waitOffer] false calmTalk none).2.client 9 =
      some waitClient := by decide +kernel
  have hin : (session .little cowEnv NDemo.cf 9 [waitOffer] false calmTalk none).2.inp =
      (Demo.request 0 0 100).encode := by decide +kernel
  refine ⟨hs, C99_every_export_partial .little cowEnv NDemo.cf 9 _ false calmTalk none (by decide +kernel) (by simp) ?_
    (fun _ h => (by cases h)) (.inr (by decide +kernel)) ?_ 9 cowWorld ?_ ?_⟩
  · intro sv h
    simp only [List.mem_singleton] at h
    subst h
    decide
  · intro sv h
    simp only [List.mem_singleton] at h
    subst h
    exact fun _ => by decide
  · intro s cl h1 h2 h3 _
    rw [h1] at hcl
    have hcl : s.client 9 = some waitClient := hcl
    rw [hcl] at h2
    cases h2
    exact absurd h3 (by decide)
  · intro s cl h1 h2 _
    rw [h1] at hcl hin
    have hcl : s.client 9 = some waitClient := hcl
    have hin : s.inp = (Demo.request 0 0 100).encode := hin
    rw [hcl] at h2
    cases h2
    refine ⟨by decide, by decide, ?_⟩
    rw [hin, commandsIn_one _ ⟨⟨by decide, by decide, by decide, by decide, by decide⟩, rfl, by decide, by decide⟩]
    intro before c after h
    match before, h with
    | [], h => cases h; exact ⟨by decide, by decide, fun _ _ => .inr (.inl (by decide))⟩
    | _ :: z, h =>
      have := congrArg List.length h
      simp at this

end Nbd.Props
