import Verif.ResLemmas
import Verif.SafeLemmas
import Verif.Demo
/-!
# Requests give back the memory and the descriptors they take (C88)
-/

set_option autoImplicit false

namespace Nbd

namespace Spec

/-- A read that the server answered with an error chunk: some message starts with the magic of a
structured reply and is of type `NBD_REPLY_TYPE_ERROR` (32769). -/
def failedRead (d : Done) : Bool :=
  d.req.type % 65536 == 0 &&
  d.msgs.any fun m => m.bytes.take 4 == [0x66, 0x8e, 0x33, 0xef] && (m.bytes.drop 6).take 2 == [0x80, 0x01]

end Spec

open Spec

namespace Props

theorem errorMsg_wire (e : Endian) (cookie : List Byte) (v : UInt32) :
    (errorMsg e cookie v).bytes.take 4 = [0x66, 0x8e, 0x33, 0xef] ∧
    ((errorMsg e cookie v).bytes.drop 6).take 2 = [0x80, 0x01] := by
  cases e <;> exact ⟨by rfl, by rfl⟩

theorem failedRead_of (e : Endian) (d : Done) (cl : Client) (h : FailedRead e cl d.req d.msgs) :
    failedRead d = true := by
  obtain ⟨-, h2, v, h3⟩ := h
  obtain ⟨h4, h5⟩ := errorMsg_wire e d.req.cookie v
  unfold failedRead
  have h2 : d.req.type % 65536 = 0 := h2
  rw [h2]
  simp only [beq_self_eq_true, Bool.true_and, List.any_eq_true]
  exact ⟨_, h3, by rw [h4, h5]; decide⟩

/-- C88. Whatever a client sends, whatever the export, and whatever the system calls return: the
accounting never finds a block freed or a descriptor closed that is not in use (the run is that of
`mainloop`, so it ends in `ub` only where `mainloop` does). When the client disconnects, the
process has the descriptors it had before, and the heap blocks it had before, plus at most one
block for each structured read that failed, no larger than the read. -/
theorem C88_session_partial (e : Endian) (cl : Client) (w : World) (stream : List Byte) (res : Res) :
    (mainloopR e cl w stream res).run = mainloop e cl w stream ∧
    ((mainloop e cl w stream).ending = .disconnected →
      (mainloopR e cl w stream res).res.fds = res.fds ∧
      ∃ left, (mainloopR e cl w stream res).res.mem = left ++ res.mem ∧
        left.length ≤ ((mainloop e cl w stream).handled.filter failedRead).length ∧
        (left.map Prod.snd).sum ≤
          (((mainloop e cl w stream).handled.filter failedRead).map fun d => d.req.len).sum) := by
  obtain ⟨h1, h2⟩ := mainloopR_agree e failedRead (fun d cl h => failedRead_of e d cl h) _ cl w stream res (Nat.le_refl _)
  refine ⟨h1, fun hd => ?_⟩
  obtain ⟨lk, h3, h4, h5⟩ := h2 hd
  rw [h3]
  exact ⟨rfl, lk, rfl, h4, h5⟩

/-- C88, if no structured read fails (for one, if structured replies were not negotiated): nothing
at all is left behind. -/
theorem C88_clean_partial (e : Endian) (cl : Client) (w : World) (stream : List Byte) (res : Res)
    (hd : (mainloop e cl w stream).ending = .disconnected)
    (hf : ∀ d ∈ (mainloop e cl w stream).handled, failedRead d = false) :
    (mainloopR e cl w stream res).res = res := by
  obtain ⟨h1, lk, h2, h3, -⟩ := (C88_session_partial e cl w stream res).2 hd
  have h0 : (mainloop e cl w stream).handled.filter failedRead = [] := by
    rw [List.filter_eq_nil_iff]
    intro d hm
    rw [hf d hm]; decide
  rw [h0] at h3
  have : lk = [] := List.length_eq_zero_iff.mp (by simpa using h3)
  subst this
  generalize (mainloopR e cl w stream res).res = r at h1 h2
  obtain ⟨m, f⟩ := r
  simp only [List.nil_append] at h1 h2
  subst h1 h2
  rfl

namespace LDemo

/-- A client with structured replies and an export of one file of `n` bytes. -/
def client (n : Nat) : Client := ⟨⟨0, n, [⟨3, 0⟩], []⟩, false, [], 0, 0, 0, true, false⟩

/-- The file has been truncated to nothing behind the server's back. -/
def Empty (w : World) : Prop := ∃ f, w.files (.fd 3) = some f ∧ f.size = 0

/-- A read of `n` bytes at the start, and a disconnect request. -/
def ask (n : Nat) : Sent := ⟨⟨0x25609513, 0, Demo.cookie, 0, n⟩, []⟩
def bye : Sent := ⟨⟨0x25609513, 2, Demo.cookie, 0, 0⟩, []⟩

theorem ask_ok (n : Nat) (h : n < 2 ^ 32) : (ask n).Ok :=
  ⟨⟨by show 0x25609513 < 2 ^ 32; decide, by show 0 < 2 ^ 32; decide, rfl, by show 0 < 2 ^ 64; decide, h⟩, rfl, by show ¬ 0 = 2; decide, rfl⟩

theorem flag (n : Nat) (f : Nat) (h : has 0 f = false) : ¬ has (client n).ex.flags f = true := by
  show ¬ has 0 f = true
  rw [h]; decide

end LDemo

open LDemo

/-- Reading the emptied file fails and leaves a block of `n` bytes. -/
theorem empty_read (n : Nat) (hn : 0 < n) (w : World) (hw : Empty w) (c : ReadCtx) (ptr : Option Nat) (res : Res)
    (hc : c.chunked = true) (hl : c.curLen = n) (h0 : c.start = 0) (h1 : c.curOff = 0) :
    ∃ w', Empty w' ∧ rawexpreadFullyR (client n).ex w c ptr res =
      .val ((w', c, false), some (res.malloc n).1, (res.malloc n).2) := by
  obtain ⟨f, hf, hs⟩ := hw
  have hread : ∃ w', Empty w' ∧ (rawexpreadR (client n).ex w 0 n (res.malloc n).2 = .val ((w', none), (res.malloc n).2) ∨
      rawexpreadR (client n).ex w 0 n (res.malloc n).2 = .val ((w', some []), (res.malloc n).2)) := by
    have hg : getFilepos (client n).ex w 0 = .val (w, some (.file (.fd 3), 0, 0)) := by
      unfold getFilepos
      rw [if_neg (by decide), if_neg (flag n _ (by decide))]
      have : bsearch (client n).ex.files 0 0 (((client n).ex.files.length : Int) - 1) = some 0 := by
        show bsearch [⟨3, 0⟩] 0 0 0 = some 0
        decide +kernel
      rw [this]; rfl
    have ho : openR (client n).ex (.file (.fd 3)) (res.malloc n).2 = (none, (res.malloc n).2) := by
      unfold openR; rw [if_neg (flag n _ (by decide))]
    have hcl : closeR (client n).ex none (res.malloc n).2 = .val (res.malloc n).2 := by
      unfold closeR; rw [if_neg (flag n _ (by decide))]
    unfold rawexpreadR
    rw [hg]
    simp only [ho, hcl, handlePread, sysPread, hf]
    rcases w.next with k | er
    · refine ⟨w.step, ⟨f, hf, hs⟩, .inr ?_⟩
      simp only [File.pread, hs, Nat.zero_sub, Nat.min_zero]
      rfl
    · exact ⟨w.fail er, ⟨f, hf, hs⟩, .inl rfl⟩
  obtain ⟨w', he, hr⟩ := hread
  refine ⟨w', he, ?_⟩
  have hfb : findReadBuf c ptr res = (some (res.malloc n).1, (res.malloc n).2) := by
    unfold findReadBuf; rw [if_pos hc, hl]
  unfold rawexpreadFullyR
  rw [if_neg (by omega), hfb]
  simp only [h0, h1, hl, Nat.add_zero]
  rcases hr with hr | hr <;> rw [hr]

/-- One such request, from the wire to the end of the worker's job. -/
theorem empty_turn (e : Endian) (n : Nat) (hn : 0 < n) (h32 : n < 2 ^ 32) (w : World) (hw : Empty w) (rest : List Byte)
    (res : Res) :
    ∃ w' d p, Empty w' ∧ mainloopR e (client n) w ((ask n).encode ++ rest) res =
      ⟨(mainloopR e (client n) w' rest ⟨(p, n) :: res.mem, res.fds⟩).run.cons d,
        (mainloopR e (client n) w' rest ⟨(p, n) :: res.mem, res.fds⟩).res⟩ := by
  have hns : ¬ has (client n).ex.flags F_SPLICE = true := flag n _ (by decide)
  obtain ⟨w1, p, hf, hfiles⟩ : ∃ w1 p, fetch e (client n) w ((ask n).encode ++ rest) =
      .val (w1, .push (reqOf e (ask n)) p rest) ∧ w1.files = w.files := by
    rcases fetch_sent e (client n) w (ask n) (ask_ok n h32) rest with ⟨-, -, h⟩ | ⟨w1, p, hf, -, h2, -⟩
    · exact absurd h hns
    · exact ⟨w1, p, hf, h2⟩
  have hw1 : Empty w1 := by
    obtain ⟨f, h1, h2⟩ := hw
    exact ⟨f, by rw [hfiles]; exact h1, h2⟩
  have h1 := fetchR_agree e (client n) w ((ask n).encode ++ rest) res
  rw [hf] at h1
  obtain ⟨k, res1, hfr, hown⟩ := h1
  rw [mainloopR_eq, hfr]
  simp only []
  have hbr : ¬ badRange (client n) (reqOf e (ask n)) = true := by
    unfold badRange
    show ¬ (decide (0 > n) || decide ((0 + n) % 2 ^ 64 > n)) = true
    have := Nat.mod_le n (2 ^ 64)
    simp only [Nat.zero_add, Bool.or_eq_true, decide_eq_true_eq]
    omega
  have hdf : has (reqOf e (ask n)).type CMD_FLAG_DF = false := by show has 0 CMD_FLAG_DF = false; decide
  obtain ⟨w', he, hx⟩ := empty_read n hn w1 hw1
    { start := 0, reqLen := n, structured := true, df := false, buf := [], curOff := 0, curLen := n,
      chunks := [] } none (res1.malloc CTXSIZE).2 rfl rfl rfl rfl
  have hne : (res1.malloc CTXSIZE).1 ∉ [(((res1.malloc CTXSIZE).2.malloc n).1, n)].map Prod.fst := by
    intro h
    have h : (res1.malloc CTXSIZE).1 = ((res1.malloc CTXSIZE).2.malloc n).1 := by simpa using h
    have := lt_unused ((res1.malloc CTXSIZE).2.mem.map Prod.fst) (res1.malloc CTXSIZE).1 (List.mem_cons_self ..)
    simp only [Res.malloc] at h this
    omega
  have hq : ∃ msgs, handleRequestR e (client n) w1 (reqOf e (ask n)) p res1 =
      .val ((client n, w', msgs), ⟨[(((res1.malloc CTXSIZE).2.malloc n).1, n)] ++ res1.mem, res1.fds⟩) := by
    unfold handleRequestR
    simp only []
    rw [if_neg (by show ¬ (0 - 0 % 65536) / 65536 / 4 ≠ 0; decide), if_pos ⟨rfl, hbr⟩]
    unfold handleReadR
    rw [if_neg hns]
    unfold handleNormalReadR
    simp only [hdf, Bool.and_false, Bool.false_and, Bool.false_or]
    rw [if_neg (by decide)]
    have hst : (client n).structured = true := rfl
    simp only [hst, Bool.not_true, Bool.false_eq_true, if_false]
    have hxr : expreadR (client n) w1
        { start := (reqOf e (ask n)).start, reqLen := (reqOf e (ask n)).len, structured := true, df := false, buf := [],
          curOff := 0, curLen := (reqOf e (ask n)).len, chunks := [] } none (res1.malloc CTXSIZE).2 =
        rawexpreadFullyR (client n).ex w1
        { start := 0, reqLen := n, structured := true, df := false, buf := [], curOff := 0, curLen := n,
          chunks := [] } none (res1.malloc CTXSIZE).2 := by
      unfold expreadR
      rw [if_neg (by
        show ¬ (has (client n).ex.flags F_COPYONWRITE || false) = true
        rw [Bool.or_false]; exact flag n _ (by decide))]
      rfl
    rw [hxr, hx]
    simp only [completeReadR, completeRead, if_true, Bool.not_false, Bool.and_true, Bool.false_eq_true, if_false]
    rw [show ((res1.malloc CTXSIZE).2.malloc n).2 =
      ⟨[(((res1.malloc CTXSIZE).2.malloc n).1, n)] ++ ((res1.malloc CTXSIZE).1, CTXSIZE) :: res1.mem, res1.fds⟩ from rfl,
      free_mid _ _ _ _ _ hne]
    exact ⟨_, rfl⟩
  obtain ⟨msgs, hq⟩ := hq
  rw [hq]
  simp only []
  have hfresh : ∀ x ∈ [(((res1.malloc CTXSIZE).2.malloc n).1, n)], x.1 ∉ res1.mem.map Prod.fst := by
    intro x hx hin
    rw [List.mem_singleton] at hx
    subst hx
    exact unused_not_mem ((res1.malloc CTXSIZE).2.mem.map Prod.fst) (List.mem_cons_of_mem _ hin)
  rw [(hown _ hfresh).1]
  exact ⟨w', _, _, he, rfl⟩

/-- `k` such requests, then a disconnect request. -/
theorem empty_run (e : Endian) (n : Nat) (hn : 0 < n) (h32 : n < 2 ^ 32) (k : Nat) :
    ∀ (w : World) (res : Res), Empty w →
      (mainloopR e (client n) w ((List.replicate k (ask n)).flatMap Sent.encode ++ bye.encode) res).run.ending = .disconnected ∧
      (mainloopR e (client n) w ((List.replicate k (ask n)).flatMap Sent.encode ++ bye.encode) res).res.bytes =
        k * n + res.bytes := by
  induction k with
  | zero =>
    intro w res hw
    have hd := mainloop_disc e (client n) w bye.req ⟨by decide, by decide, by decide, by decide, by decide⟩ rfl rfl []
    obtain ⟨h1, h2⟩ := C88_session_partial e (client n) w bye.encode res
    have hb : bye.encode = bye.req.encode ++ [] := rfl
    simp only [List.replicate_zero, List.flatMap_nil, List.nil_append]
    rw [hb] at h1 h2 ⊢
    refine ⟨by rw [h1]; exact hd.2, ?_⟩
    rw [C88_clean_partial e (client n) w _ res hd.2 (by rw [hd.1]; intro d h; cases h)]
    omega
  | succ k ih =>
    intro w res hw
    obtain ⟨w', d, p, he, hm⟩ := empty_turn e n hn h32 w hw ((List.replicate k (ask n)).flatMap Sent.encode ++ bye.encode) res
    obtain ⟨i1, i2⟩ := ih w' ⟨(p, n) :: res.mem, res.fds⟩ he
    simp only [List.replicate_succ, List.flatMap_cons, List.append_assoc]
    rw [hm]
    refine ⟨i1, ?_⟩
    simp only []
    rw [i2]
    simp only [Res.bytes, List.map_cons, List.sum_cons, Nat.succ_mul]
    omega

/-- C88 is false without that exception: `find_read_buf` allocates and `rawexpread_fully` gives up
without freeing. If the file has been truncated, each structured read of `n` bytes, `n` at will up
to 4 GiB, leaves `n` bytes on the heap; after `k` of them it is `k * n`. -/
theorem C88_false (e : Endian) (n k : Nat) (hn : 0 < n) (h32 : n < 2 ^ 32) (w : World) (hw : Empty w) (res : Res) :
    (mainloopR e (client n) w ((List.replicate k (ask n)).flatMap Sent.encode ++ bye.encode) res).run.ending = .disconnected ∧
    (mainloopR e (client n) w ((List.replicate k (ask n)).flatMap Sent.encode ++ bye.encode) res).res.bytes = k * n + res.bytes :=
  empty_run e n hn h32 k w res hw

/-- The hypotheses of `C88_false` are met. -/
example : Empty ⟨fun id => if id = .fd 3 then some (File.clean (fun _ => 7) 0) else none, fun _ => .done 7, 0, 0, fun _ => []⟩ :=
  ⟨_, rfl, rfl⟩

/-- The hypotheses of `C88_clean_partial` are met by a session that writes, writes zeroes, reads with structured replies, flushes
and disconnects; here with a block and a descriptor already in use. -/
example : (mainloop .little (Demo.client true) Demo.world
      ([Demo.write 3 [10, 11, 12, 13], Demo.request 6 0 4, Demo.request 0 2 8, Demo.request 3 0 0].flatMap Sent.encode ++ bye.encode)).ending =
      .disconnected ∧
    (∀ d ∈ (mainloop .little (Demo.client true) Demo.world
      ([Demo.write 3 [10, 11, 12, 13], Demo.request 6 0 4, Demo.request 0 2 8, Demo.request 3 0 0].flatMap Sent.encode ++ bye.encode)).handled,
      failedRead d = false) ∧
    (mainloop .little (Demo.client true) Demo.world
      ([Demo.write 3 [10, 11, 12, 13], Demo.request 6 0 4, Demo.request 0 2 8, Demo.request 3 0 0].flatMap Sent.encode ++ bye.encode)).handled.length = 4 ∧
    (mainloopR .little (Demo.client true) Demo.world
      ([Demo.write 3 [10, 11, 12, 13], Demo.request 6 0 4, Demo.request 0 2 8, Demo.request 3 0 0].flatMap Sent.encode ++ bye.encode)
      ⟨[(1, 100)], [5]⟩).res = ⟨[(1, 100)], [5]⟩ := by decide +kernel

end Props

end Nbd
