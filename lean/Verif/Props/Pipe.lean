import Verif.PipeLemmas
import Verif.Props.Store
/-!
# Requests served by splicing (C96)

On an export with `splice = true` the data of a request of up to 1 MiB goes through a pipe. The theorems say which
requests get through it. `POut.stuck` means that the thread serving the request waits for ever: the request is never
answered, and the thread never takes another one.
-/
set_option autoImplicit false

namespace Nbd.Props
open Nbd.Spec

/-- **C96** (partial: it is false, below). The pipe changes nothing else: on any usable export and with any kernel, a
request whose thread does not get stuck is served as if pipes held any amount of data, which is what the theorems on C04,
C10, C15 and C48 are about. -/
theorem C96_same_partial (e : Endian) (cl : Client) (hg : GoodExport cl.ex) (w : World) (r : Req) (hr : r.Wf) (p : Payload)
    (h : handleRequestP e cl w r p ≠ .stuck) :
    handleRequestP e cl w r p = .of (handleRequest e cl w r p) := by
  unfold handleRequestP at h ⊢
  by_cases hc : (r.type - r.type % 65536) / 65536 / 4 = 0 ∧ r.type % 65536 = CMD_READ ∧ badRange cl r = false
  · rw [if_pos hc] at h ⊢
    obtain ⟨h1, h2, h3⟩ := hc
    have hin := inRange hg hr.len h3
    unfold handleRequest
    simp only
    rw [if_neg (by simpa using h1), if_pos h2, h3, if_neg (by simp)]
    have hsame : handleReadP e cl w r ≠ .stuck → handleReadP e cl w r = .of (handleRead e cl w r) := by
      intro hns
      unfold handleReadP at hns ⊢
      unfold handleRead
      cases hs : has cl.ex.flags F_SPLICE with
      | false => rfl
      | true =>
        rw [hs] at hns
        simp only [if_true] at hns ⊢
        unfold handleSpliceReadP at hns ⊢
        unfold handleSpliceRead
        cases ht : cl.tls with
        | true => rfl
        | false =>
          rw [ht] at hns
          simp only [Bool.false_eq_true, if_false] at hns ⊢
          rcases hm : mkpipe w r.len with ⟨w1, _ | _⟩
          · rfl
          · rw [hm] at hns
            simp only at hns ⊢
            have hns2 : expspliceInP cl.ex w1 r.start r.len [] PIPE_BUFS ≠ .stuck := by
              intro hx; rw [hx] at hns; exact hns rfl
            rw [expspliceInP_same cl.ex hg w1 r.start r.len [] PIPE_BUFS hin hns2]
            rcases expspliceIn cl.ex w1 r.start r.len [] with ⟨w2, pipe, _ | _⟩ | _ | _ <;> rfl
    have hns : handleReadP e cl w r ≠ .stuck := by
      intro hx; rw [hx] at h; exact h rfl
    rw [hsame hns]
    rcases handleRead e cl w r with ⟨w2, msgs⟩ | _ | _ <;> rfl
  · rw [if_neg hc]

/-- **C96** (partial: kernels that never fail and files that start at page boundaries; it is false, below). Which reads get
stuck: exactly those of at most 1 MiB that touch more than 256 pages, so that they would need more buffers than a pipe of
1 MiB has. Every other read is answered. -/
theorem C96_reads_partial (e : Endian) (cl : Client) (hg : GoodExport cl.ex) (hs : has cl.ex.flags F_SPLICE = true)
    (ht : has cl.ex.flags F_TREEFILES = false) (htls : cl.tls = false) (hal : Aligned cl.ex) (w : World) (hw : Willing w)
    (hb : Backed cl.ex w) (r : Req) (hr : r.Wf) (hread : r.type = 0) (hin : r.start + r.len ≤ cl.ex.exportsize)
    (p : Payload) :
    handleRequestP e cl w r p = .stuck ↔ r.len ≤ 1048576 ∧ 1048576 < r.start % 4096 + r.len := by
  have hsz := hg.size
  have hlen := hr.len
  have hbad : badRange cl r = false := by
    unfold badRange
    simp only [Bool.or_eq_false_iff, decide_eq_false_iff_not, Nat.not_lt, gt_iff_lt]
    omega
  unfold handleRequestP
  rw [if_pos ⟨by rw [hread], by rw [hread]; rfl, hbad⟩]
  have hof : ∀ {α : Type} (x : Out α), POut.of x ≠ .stuck := by intro α x; cases x <;> simp [POut.of]
  unfold handleReadP handleSpliceReadP
  rw [hs, if_pos rfl, htls, if_neg (by simp)]
  by_cases hm : r.len > MAX_PIPE_SIZE
  · have hmk : mkpipe w r.len = (w, false) := by unfold mkpipe; rw [if_pos hm]
    rw [hmk]
    simp only
    have hmp : MAX_PIPE_SIZE = 1048576 := rfl
    constructor
    · intro hx
      exfalso
      have := hof (handleNormalRead e cl w r)
      rcases hq : POut.of (handleNormalRead e cl w r) with ⟨a, b⟩ | _ | _ | _ <;> rw [hq] at hx <;> simp_all
    · intro hx; omega
  · obtain ⟨n, hn, horc⟩ := hw w.tick
    have hmk : mkpipe w r.len = (w.step, true) := by
      unfold mkpipe World.next; rw [if_neg hm, horc]
    rw [hmk]
    simp only
    have hiff := expspliceInP_stuck cl.ex hg ht hal w.step hw hb r.start r.len [] PIPE_BUFS (by omega) hin
    have hbufs : PIPE_BUFS < bufsOf r.start r.len ↔ r.len ≤ 1048576 ∧ 1048576 < r.start % 4096 + r.len := by
      have hmp : MAX_PIPE_SIZE = 1048576 := rfl
      have hpb : PIPE_BUFS = 256 := rfl
      have h1 := bufsOf_gt 256 r.start r.len
      have h2 := bufsOf_le 256 r.start r.len
      have h3 := Nat.mod_lt r.start (show 4096 > 0 by decide)
      unfold fitBufs at h1 h2
      rw [hpb]
      constructor
      · intro h; omega
      · intro h; exact h1 (by omega)
    rw [← hbufs, ← hiff]
    rcases hq : expspliceInP cl.ex w.step r.start r.len [] PIPE_BUFS with ⟨w2, pipe, _ | _⟩ | _ | _ | _
    · simp only [reduceCtorEq, iff_false]
      have := hof (handleNormalRead e cl w2 r)
      rcases hx : POut.of (handleNormalRead e cl w2 r) with ⟨a, b⟩ | _ | _ | _
      · simp
      · simp
      · simp
      · exact absurd hx this
    all_goals simp

theorem fetchP_pipe (e : Endian) (cl : Client) (w w' : World) (stream rest payload : List Byte) (r : Req)
    (arrived : Nat → Nat) (bufs : List (List Byte)) (hbufs : bufs.flatten = payload)
    (h : fetch e cl w stream = .val (w', .push r (.pipe payload) rest)) :
    fetchP e cl w stream arrived bufs =
      if bufs.length ≤ 256 then .val (w', .push r (.pipe payload) rest) else .stuck := by
  unfold fetchP
  rw [h]
  simp only
  rw [spliceNet_eq, show PIPE_BUFS = 256 from rfl]
  by_cases hb : bufs.length ≤ 256
  · rw [if_pos hb, if_pos hb, ← hbufs]; rfl
  · rw [if_neg hb, if_neg hb]

/-- A write of at most 1 MiB to a splice export goes through a pipe. -/
theorem fetch_write_pipe (e : Endian) (cl : Client) (hs : has cl.ex.flags F_SPLICE = true) (htls : cl.tls = false)
    (w : World) (hw : Willing w) (s : Sent) (h : s.Ok) (hwr : s.req.type % 65536 = 1) (hlen : s.req.len ≤ 1048576)
    (rest : List Byte) :
    fetch e cl w (s.encode ++ rest) = .val (w.step, .push (reqOf e s) (.pipe s.data) rest) := by
  have hl := Sent.encode_length s h
  have hln : (s.encode ++ rest).length = 28 + s.data.length + rest.length := by
    simp [Spec.Sent.encode, hl]; omega
  have ht : (s.encode ++ rest).take 28 = s.req.encode := by
    rw [Spec.Sent.encode, List.append_assoc]; exact List.take_left' hl
  have hd : (s.encode ++ rest).drop 28 = s.data ++ rest := by
    rw [Spec.Sent.encode, List.append_assoc]; exact List.drop_left' hl
  have hdat := h.data
  rw [if_pos hwr] at hdat
  have hrl : (reqOf e s).len = s.data.length := by rw [hdat]; rfl
  have hmag : (reqOf e s).magicOk e = true := by simp [Req.magicOk, reqOf]
  have hmk : mkpipe w (reqOf e s).len = (w.step, true) := by
    obtain ⟨n, hn, horc⟩ := hw w.tick
    have hmp : MAX_PIPE_SIZE = 1048576 := rfl
    unfold mkpipe World.next
    rw [if_neg (by rw [hrl, hdat]; omega), horc]
  unfold fetch
  rw [if_neg (by omega), ht, hd, loadReq_encode e s h]
  simp only [hmag, Bool.not_true, Bool.false_eq_true, if_false]
  rw [if_pos (show (reqOf e s).type % 65536 = CMD_WRITE from hwr), hs, if_pos rfl, hmk]
  simp only [htls, Bool.and_false, Bool.false_and, Bool.false_eq_true, if_false, if_true]
  rw [if_neg (by rw [List.length_append]; omega), List.take_left' hrl.symm, List.drop_left' hrl.symm]

/-- **C96** (partial: kernels that never fail; it is false, below). Which writes get stuck: a write of at most 1 MiB to a
splice export, on a connection that is not encrypted, is handed to the thread pool with its payload exactly if the payload
arrives from the network in at most 256 buffers, however these are spread over time. Otherwise the thread that reads the
connection is stuck, and nothing that the client sends after it is ever looked at. -/
theorem C96_writes_partial (e : Endian) (cl : Client) (hs : has cl.ex.flags F_SPLICE = true) (htls : cl.tls = false)
    (w : World) (hw : Willing w) (s : Sent) (h : s.Ok) (hwr : s.req.type % 65536 = 1) (hlen : s.req.len ≤ 1048576)
    (rest : List Byte) (arrived : Nat → Nat) (bufs : List (List Byte)) (hbufs : bufs.flatten = s.data) :
    fetchP e cl w (s.encode ++ rest) arrived bufs =
      if bufs.length ≤ 256 then .val (w.step, .push (reqOf e s) (.pipe s.data) rest) else .stuck :=
  fetchP_pipe e cl w w.step _ rest s.data _ arrived bufs hbufs (fetch_write_pipe e cl hs htls w hw s h hwr hlen rest)

/-- The same for requests that use no pipe: nothing gets stuck in the reading thread. -/
theorem C96_others_partial (e : Endian) (cl : Client) (w : World) (stream : List Byte)
    (arrived : Nat → Nat) (bufs : List (List Byte))
    (h : ∀ w' r payload rest, fetch e cl w stream ≠ .val (w', .push r (.pipe payload) rest)) :
    fetchP e cl w stream arrived bufs = .of (fetch e cl w stream) := by
  unfold fetchP
  cases hf : fetch e cl w stream with
  | ub => rfl
  | exit => rfl
  | val x =>
    obtain ⟨w1, f⟩ := x
    cases f with
    | disc rest => rfl
    | gone => rfl
    | push r p rest =>
      cases p with
      | data b => rfl
      | nothing => rfl
      | pipe b => exact absurd hf (h _ _ _ _)

/-! ### C96 is false -/

/-- A splice export of one file of 2 MiB. -/
def pipeClient : Client := ⟨⟨F_SPLICE, 2097152, [⟨3, 0⟩], []⟩, false, [], 0, 0, 0, false, false⟩

/-- The file, and a kernel that does everything at once. -/
def pipeWorld : World :=
  { files := fun i => if i = .fd 3 then some (.clean (fun _ => 7) 2097152) else none
    orc := fun _ => .done 2097152
    tick := 0
    errno := 0 }

theorem pipe_good : GoodExport pipeClient.ex :=
  ⟨by decide, fun _ => ⟨by decide, by decide, by decide⟩⟩

theorem pipe_aligned : Aligned pipeClient.ex := by
  intro f hf
  simp only [pipeClient, List.mem_singleton] at hf
  subst hf
  rfl

theorem pipe_willing : Willing pipeWorld := fun _ => ⟨2097152, by decide, rfl⟩

theorem pipe_backed : Backed pipeClient.ex pipeWorld := by
  intro a ha
  refine ⟨.fd 3, a, .clean (fun _ => 7) 2097152, ?_, by simp [pipeWorld], ha⟩
  simp only [home, show has pipeClient.ex.flags F_TREEFILES = false by decide, Bool.false_eq_true, if_false]
  simp [pipeClient, locate]

/-- **C96 is false of reads.** On a splice export of one complete file of 2 MiB, with a kernel that never fails and never
stops early, a read of 1 MiB is answered at offset 0 but never at offset 1 (nor at any offset that is not a multiple of
4096). -/
theorem C96_false_read (cookie : List Byte) (hc : cookie.length = 8) :
    ∃ (cl : Client) (w : World), Plain cl ∧ Willing w ∧ Backed cl.ex w ∧
      ∀ start, start + 1048576 ≤ cl.ex.exportsize →
        (handleRequestP .little cl w ⟨0x25609513, 0, cookie, start, 1048576⟩ .nothing = .stuck ↔
          start % 4096 ≠ 0) := by
  refine ⟨pipeClient, pipeWorld, ⟨pipe_good, rfl⟩, pipe_willing, pipe_backed, ?_⟩
  intro start hs
  have hs2 : start + 1048576 ≤ 2097152 := hs
  rw [C96_reads_partial .little pipeClient pipe_good (by decide) (by decide) rfl pipe_aligned pipeWorld pipe_willing
    pipe_backed ⟨0x25609513, 0, cookie, start, 1048576⟩
    ⟨by simp, hc, by simp only; omega, by simp⟩ rfl hs .nothing]
  simp only
  omega

/-- **C96 is false of writes.** On the same export, a write of more than 256 bytes that arrive one by one is never carried
out, and whatever the client sends after it is never read. -/
theorem C96_false_write : ∃ (cl : Client) (w : World), Plain cl ∧ Willing w ∧ Backed cl.ex w ∧
    ∀ n, 256 < n → n ≤ 1048576 → ∃ (s : Sent) (bufs : List (List Byte)), s.Ok ∧ s.req.type = 1 ∧
      s.req.start + s.req.len ≤ cl.ex.exportsize ∧ s.req.len = n ∧ bufs.flatten = s.data ∧
      ∀ arrived rest, fetchP .little cl w (s.encode ++ rest) arrived bufs = .stuck := by
  refine ⟨pipeClient, pipeWorld, ⟨pipe_good, rfl⟩, pipe_willing, pipe_backed, ?_⟩
  intro n h1 h2
  have hok : (⟨⟨0x25609513, 1, [1, 2, 3, 4, 5, 6, 7, 8], 0, n⟩, List.replicate n 9⟩ : Sent).Ok :=
    ⟨⟨by simp, by simp, rfl, by simp, by simp only; omega⟩, rfl, by simp, by simp⟩
  refine ⟨⟨⟨0x25609513, 1, [1, 2, 3, 4, 5, 6, 7, 8], 0, n⟩, List.replicate n 9⟩,
    List.replicate n [9], hok, rfl, by simp only [pipeClient]; omega, rfl, by simp, ?_⟩
  intro arrived rest
  rw [C96_writes_partial .little pipeClient (by decide) rfl pipeWorld pipe_willing _ hok rfl h2 rest arrived _
    (by simp)]
  rw [if_neg (by rw [List.length_replicate]; omega)]

/-- The hypotheses of `C96_reads_partial` and `C96_writes_partial` hold of this export; and two requests that get
through: the read of 1 MiB at offset 0, and a short read at an odd offset. -/
example : GoodExport pipeClient.ex ∧ Aligned pipeClient.ex ∧ Willing pipeWorld ∧ Backed pipeClient.ex pipeWorld ∧
    handleRequestP .little pipeClient pipeWorld ⟨0x25609513, 0, [1, 2, 3, 4, 5, 6, 7, 8], 0, 1048576⟩ .nothing ≠
      .stuck ∧
    (match handleRequestP .little pipeClient pipeWorld ⟨0x25609513, 0, [1, 2, 3, 4, 5, 6, 7, 8], 4095, 2⟩ .nothing with
      | .val (_, _, msgs) => msgs
      | _ => []) = [⟨simpleHdr .little 0 [1, 2, 3, 4, 5, 6, 7, 8], [7, 7]⟩] := by
  refine ⟨pipe_good, pipe_aligned, pipe_willing, pipe_backed, ?_, by decide +kernel⟩
  rw [Ne, C96_reads_partial .little pipeClient pipe_good (by decide) (by decide) rfl pipe_aligned pipeWorld pipe_willing
    pipe_backed _ ⟨by simp, rfl, by simp, by simp⟩ rfl (by decide) .nothing]
  simp

end Nbd.Props
