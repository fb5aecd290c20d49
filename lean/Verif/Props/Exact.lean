import Verif.Props.Session
import Verif.Props.Wait
/-!
# C08 and C09 without a limit on write-zeroes

Requests of any length. What a write-zeroes request above 64 MiB does is said exactly: it is carried out as if it were one of 64 MiB.
-/

set_option autoImplicit false

namespace Nbd

namespace Spec

/-- A command, cut down to what is carried out of it: of write-zeroes inside the export at most 64 MiB. -/
def Cmd.carried (size : Nat) (c : Cmd) : Cmd :=
  if c.code = 6 ∧ c.start + c.len ≤ size then { c with len := min c.len (64 * 1024 * 1024) } else c

end Spec

open Spec

/-- One request of any length on a plain export. -/
theorem handleRequest_exact (e : Endian) (cl cl' : Client) (hp : Plain cl) (w w' : World) (r : Req)
    (p : Payload) (msgs : List Msg) (hlen : r.len < 2 ^ 32) (hpl : p.fits r)
    (h : handleRequest e cl w r p = .val (cl', w', msgs)) :
    cl' = cl ∧ ∃ rs, Encodes msgs rs ∧
      FlatStep cl.ex.exportsize (badWrite cl) (framing cl) (view cl.ex w) ((cmdOf r p).carried cl.ex.exportsize) rs (view cl.ex w') := by
  by_cases hz : r.type < 262144 ∧ r.type % 65536 = 6 ∧ ZEROCHUNK < r.len ∧ r.start + r.len ≤ cl.ex.exportsize
  · obtain ⟨hf, ht, hl, hin⟩ := hz
    have hcode : (cmdOf r p).code = 6 := by simp only [cmdOf]; rw [if_pos hf, ht]
    have hcar : (cmdOf r p).carried cl.ex.exportsize = { cmdOf r p with len := ZEROCHUNK } := by
      unfold Cmd.carried
      rw [if_pos ⟨hcode, hin⟩]
      have : min (cmdOf r p).len (64 * 1024 * 1024) = ZEROCHUNK := Nat.min_eq_right (Nat.le_of_lt hl)
      rw [this]
    rw [hcar]
    have hin' : r.start + ZEROCHUNK ≤ cl.ex.exportsize := by omega
    cases handleRequest_handled _ _ _ _ _ _ _ _ h with
    | refused n hn why =>
      refine ⟨rfl, [.simple (errnoWire n).toNat r.cookie []], ?_, ?_⟩
      · rw [nbdErrno_eq]; exact simpleMsg_encodes e r (some _)
      · refine .refused (c := { cmdOf r p with len := ZEROCHUNK }) _ (errnoWire_toNat_mem n) ?_
        right; left
        rw [show ({ cmdOf r p with len := ZEROCHUNK } : Cmd).code = 6 from hcode]
        rcases why with h1 | h1 | h1 | h1
        · omega
        · rw [ht] at h1; exact absurd h1 (by decide)
        · exact ⟨by decide, h1.2⟩
        · have := badRange_size hp.good hlen h1.2
          omega
    | read _ h1 => omega
    | write _ h1 => omega
    | flush _ h1 => omega
    | trim _ h1 => omega
    | zeroes _ _ hw hr _ _ _ hq =>
      unfold handleWriteZeroes at hq
      have hsp := expwriteZeroes_plain cl hp w r.start r.len (has r.type CMD_FLAG_FUA) hin (notReadonly hw)
      split at hq
      · cases hq
      · cases hq
      · rename_i cl1 w1 ok hq1
        cases hq
        obtain ⟨rfl, n, hn, hsto, hok⟩ := hsp.2 _ _ _ hq1
        refine ⟨rfl, ?_⟩
        rw [hsto.view hp.good (by rw [Flat.zeros_length]; omega), resultOf_eq]
        cases ok with
        | true =>
          refine ⟨_, simpleMsg_encodes e r none, ?_⟩
          rw [hok rfl, Nat.min_eq_right (Nat.le_of_lt hl)]
          exact .zeroes (c := { cmdOf r p with len := ZEROCHUNK }) hcode hw hin'
        | false =>
          exact ⟨_, simpleMsg_encodes e r (some _),
            .zeroesFails (c := { cmdOf r p with len := ZEROCHUNK }) hcode hw hin' _ n (errnoWire_toNat_mem _) (by show n ≤ ZEROCHUNK; omega)⟩
  · have hcar : (cmdOf r p).carried cl.ex.exportsize = cmdOf r p := by
      unfold Cmd.carried
      split
      · rename_i hc
        have h1 : (if r.type < 262144 then r.type % 65536 else 65535) = 6 := hc.1
        have h2 : r.start + r.len ≤ cl.ex.exportsize := hc.2
        split at h1
        · have : r.len ≤ ZEROCHUNK := by
            apply Nat.le_of_not_lt
            intro hx
            exact hz ⟨by assumption, h1, hx, h2⟩
          show ({ cmdOf r p with len := min r.len ZEROCHUNK } : Cmd) = cmdOf r p
          rw [Nat.min_eq_left this]
          rfl
        · cases h1
      · rfl
    rw [hcar]
    by_cases hz2 : r.type < 262144 → r.type % 65536 = 6 → r.len ≤ ZEROCHUNK
    · exact handleRequest_plain e cl cl' hp w w' r p msgs hlen hpl hz2 h
    · have hbig : r.type < 262144 ∧ r.type % 65536 = 6 ∧ ZEROCHUNK < r.len := by
        refine ⟨?_, ?_, ?_⟩
        · apply Decidable.byContradiction; intro hx; exact hz2 (fun h => absurd h hx)
        · apply Decidable.byContradiction; intro hx; exact hz2 (fun _ h => absurd h hx)
        · apply Nat.lt_of_not_le; intro hx; exact hz2 (fun _ _ => hx)
      obtain ⟨hf, ht, hl⟩ := hbig
      have hout : cl.ex.exportsize < r.start + r.len := by
        apply Nat.lt_of_not_le
        intro hx
        exact hz ⟨hf, ht, hl, hx⟩
      have hcode : (cmdOf r p).code = 6 := by simp only [cmdOf]; rw [if_pos hf, ht]
      cases handleRequest_handled _ _ _ _ _ _ _ _ h with
      | refused n hn why =>
        refine ⟨rfl, [.simple (errnoWire n).toNat r.cookie []], ?_, ?_⟩
        · rw [nbdErrno_eq]; exact simpleMsg_encodes e r (some _)
        · refine .refused (c := cmdOf r p) _ (errnoWire_toNat_mem n) ?_
          right; right
          rw [hcode]
          exact ⟨by decide, hout⟩
      | read _ h1 => omega
      | write _ h1 => omega
      | flush _ h1 => omega
      | trim _ h1 => omega
      | zeroes _ _ hw hr _ _ _ hq =>
        have := inRange hp.good hlen hr
        omega

/-- Histories of requests of any length. -/
theorem mainloop_exact (e : Endian) (ss : List Sent) (hok : ∀ s ∈ ss, s.Ok) :
    ∀ cl w, Plain cl →
      (mainloop e cl w (ss.flatMap Sent.encode)).ending = .gone →
      (mainloop e cl w (ss.flatMap Sent.encode)).cl = cl ∧
      ∃ rs, (mainloop e cl w (ss.flatMap Sent.encode)).sent = wire rs ∧
        FlatRun cl.ex.exportsize (badWrite cl) (framing cl) (view cl.ex w) (ss.map (fun s => s.cmd.carried cl.ex.exportsize)) rs
          (view cl.ex (mainloop e cl w (ss.flatMap Sent.encode)).w) := by
  induction ss with
  | nil =>
    intro cl w hp hend
    rw [List.flatMap_nil, mainloop_nil]
    exact ⟨rfl, [], rfl, .nil _⟩
  | cons s ss ih =>
    intro cl w hp hend
    have hs := hok s (by simp)
    have hst : (s :: ss).flatMap Sent.encode = s.encode ++ ss.flatMap Sent.encode := by simp
    rw [hst] at hend ⊢
    rcases fetch_sent e cl w s hs (ss.flatMap Sent.encode) with ⟨hub, _⟩ | ⟨w1, p, hf, hsame, _, hfit, hb, _⟩
    · rw [mainloop_ub _ _ _ _ hub] at hend
      cases hend
    · rw [mainloop_push _ _ _ _ _ _ _ _ hf] at hend ⊢
      split at hend
      · cases hend
      · cases hend
      · rename_i cl' w' msgs hq
        have hend : (mainloop e cl' w' (ss.flatMap Sent.encode)).ending = .gone := hend
        have hcmd : cmdOf (reqOf e s) p = s.cmd := by
          unfold cmdOf Sent.cmd; rw [hb]; rfl
        obtain ⟨rfl, rs, henc, hstep⟩ := handleRequest_exact e cl cl' hp w1 w' (reqOf e s) p msgs hs.fits.len hfit hq
        rw [hcmd, hsame.view] at hstep
        obtain ⟨hcl, rs', hw', hrun⟩ := ih (fun x hx => hok x (by simp [hx])) cl' w' hp hend
        refine ⟨hcl, rs ++ rs', ?_, ?_⟩
        · have e1 := henc.wire
          exact Run.cons_sent _ _ _ _ e1 hw'
        · exact .cons _ _ _ _ _ _ _ hstep hrun

namespace Props

/-- **C08**, all requests (partial only because the property is false, `C08_false`): whatever well-formed requests a client sends, of any length, the bytes it
receives are those of a correct server with a flat array that is sent the same requests, except that a write-zeroes request above 64 MiB is one of 64 MiB; and the
export's contents afterwards are that array's. -/
theorem C08_exact_partial (e : Endian) (cl : Client) (w : World) (hp : Plain cl) (ss : List Sent) (hok : ∀ s ∈ ss, s.Ok)
    (hend : (mainloop e cl w (ss.flatMap Sent.encode)).ending = .gone) :
    ∃ rs, (mainloop e cl w (ss.flatMap Sent.encode)).sent = wire rs ∧
      FlatRun cl.ex.exportsize (has cl.ex.flags F_READONLY || has cl.ex.flags F_AUTOREADONLY)
        (if has cl.ex.flags F_SPLICE && !cl.tls then [cl.structured, false] else [cl.structured])
        (view cl.ex w) (ss.map (fun s => s.cmd.carried cl.ex.exportsize)) rs
        (view cl.ex (mainloop e cl w (ss.flatMap Sent.encode)).w) :=
  (mainloop_exact e ss hok cl w hp hend).2

/-- **C09**, any length (partial only because the property is false, `C09_false`): after a write-zeroes request answered without error, the first 64 MiB of its
range (all of it if it is shorter) are zero, and every other byte of the export is unchanged. -/
theorem C09_exact_partial (e : Endian) (cl : Client) (w : World) (hp : Plain cl) (s : Sent) (hok : s.Ok) (hcmd : s.req.type % 65536 = 6)
    (hend : (mainloop e cl w s.encode).ending = .gone)
    (hsucc : (mainloop e cl w s.encode).sent = (Reply.simple 0 s.req.cookie []).encode) :
    ∀ a, view cl.ex (mainloop e cl w s.encode).w a =
      if s.req.start ≤ a ∧ a < s.req.start + min s.req.len (64 * 1024 * 1024) then 0 else view cl.ex w a := by
  have h1 := C08_exact_partial e cl w hp [s] (by intro x hx; rw [List.mem_singleton] at hx; subst hx; exact hok)
    (by rw [show [s].flatMap Sent.encode = s.encode by simp]; exact hend)
  rw [show [s].flatMap Sent.encode = s.encode by simp] at h1
  obtain ⟨rs, hsent, hrun⟩ := h1
  generalize view cl.ex (mainloop e cl w s.encode).w = g at hrun ⊢
  have hc : s.cmd.code = 6 ∨ s.cmd.code = 65535 := by
    simp only [Sent.cmd]; split
    · left; exact hcmd
    · right; rfl
  have hcc : (s.cmd.carried cl.ex.exportsize).code = s.cmd.code ∧ (s.cmd.carried cl.ex.exportsize).start = s.req.start ∧
      (s.cmd.carried cl.ex.exportsize).cookie = s.req.cookie := by
    unfold Cmd.carried
    split <;> exact ⟨rfl, rfl, rfl⟩
  generalize hcar : s.cmd.carried cl.ex.exportsize = c at hrun hcc
  obtain ⟨hc1, hc2, hc3⟩ := hcc
  simp only [List.map_cons, List.map_nil, hcar] at hrun
  cases hrun with
  | cons _ _ _ _ rs' _ rest hstep hrest =>
    cases hrest
    rw [List.append_nil] at hsent
    rw [hsent] at hsucc
    have herr : ∀ err, err ∈ errnos → rs' = [.simple err c.cookie []] → False := by
      rintro err he rfl
      exact (errno_lt he).2 (simple_encode_inj (errno_lt he).1 (by decide) hsucc)
    cases hstep with
    | read _ h => omega
    | readFails _ h => omega
    | write h => omega
    | writeFails h => omega
    | flush h => omega
    | trim h => omega
    | zeroesFails _ _ _ err n he => exact (herr err he rfl).elim
    | refused err he => exact (herr err he rfl).elim
    | zeroes h6 hw hr =>
      have hclen : c.len = min s.req.len (64 * 1024 * 1024) := by
        rw [← hcar]
        unfold Cmd.carried
        rw [← hcar] at hr h6
        unfold Cmd.carried at hr
        split
        · rfl
        · rename_i hno
          rw [if_neg hno] at hr
          exact absurd ⟨by rw [← hc1, ← hcar]; exact h6, hr⟩ hno
      intro a
      rw [Flat.write_apply]
      by_cases hin : s.req.start ≤ a ∧ a < s.req.start + min s.req.len (64 * 1024 * 1024)
      · rw [if_pos hin, dif_pos ⟨by omega, by rw [Flat.zeros_length]; omega⟩]
        simp [Flat.zeros]
      · rw [if_neg hin, dif_neg (by rw [Flat.zeros_length]; omega)]

/-- A request to write 64 MiB + 1 zeroes at offset 5. -/
def bigZeroes : Sent := Demo.request 6 5 (64 * 1024 * 1024 + 1)

theorem bigZeroes_ok : bigZeroes.Ok :=
  ⟨⟨by decide, by decide, by decide, by decide, by decide⟩, rfl, by decide, by decide⟩

theorem bigZeroes_run : ∃ w' m, mainloop .little Demo.bigClient Demo.bigWorld bigZeroes.encode =
      ⟨[⟨⟨m, 6, Demo.cookie, 5, 64 * 1024 * 1024 + 1⟩, .nothing,
        [simpleMsg .little ⟨m, 6, Demo.cookie, 5, 64 * 1024 * 1024 + 1⟩ none]⟩], Demo.bigClient, w', .gone⟩ ∧
      view Demo.bigClient.ex w' (5 + 64 * 1024 * 1024) = 1 := by
  rcases fetch_sent .little Demo.bigClient Demo.bigWorld bigZeroes bigZeroes_ok [] with ⟨-, h, -⟩ | ⟨w1, p, hf, -⟩
  · cases h
  · obtain ⟨w', h1, h2⟩ := zeroes_stop (reqOf .little bigZeroes).magic (64 * 1024 * 1024 + 1) (by omega) (by omega)
    refine ⟨w', (reqOf .little bigZeroes).magic, ?_, h2⟩
    have hw : w1 = Demo.bigWorld ∧ p = .nothing := by
      have h3 := hf
      rw [List.append_nil] at h3
      unfold fetch at h3
      rw [if_neg (by decide +kernel)] at h3
      dsimp only at h3
      rw [if_neg (by decide +kernel), if_neg (by decide +kernel), if_neg (by decide +kernel)] at h3
      cases h3
      exact ⟨rfl, rfl⟩
    obtain ⟨rfl, rfl⟩ := hw
    rw [List.append_nil] at hf
    rw [mainloop_push _ _ _ _ _ _ _ _ hf]
    have : handleRequest .little Demo.bigClient Demo.bigWorld (reqOf .little bigZeroes) .nothing = _ := h1
    rw [this]
    dsimp only
    rw [mainloop_nil]
    rfl

/-- The hypotheses of `C08_exact_partial` and `C09_exact_partial` are met by this request, which is longer than 64 MiB. -/
example : Plain Demo.bigClient ∧ bigZeroes.Ok ∧ bigZeroes.req.type % 65536 = 6 ∧
    (mainloop .little Demo.bigClient Demo.bigWorld bigZeroes.encode).ending = .gone ∧
    (mainloop .little Demo.bigClient Demo.bigWorld bigZeroes.encode).sent = (Reply.simple 0 bigZeroes.req.cookie []).encode := by
  obtain ⟨w', m, h1, -⟩ := bigZeroes_run
  refine ⟨Demo.big_plain, bigZeroes_ok, rfl, by rw [h1], ?_⟩
  rw [h1]
  have := (simpleMsg_encodes .little ⟨m, 6, Demo.cookie, 5, 64 * 1024 * 1024 + 1⟩ none).wire
  simp only [Run.sent, List.flatMap_cons, List.flatMap_nil, List.append_nil] at this ⊢
  exact this.trans (by simp [wire]; rfl)

/-- **C08 is false**: a client that sends one write-zeroes request of 64 MiB + 1 bytes inside the export does not get what a flat array gives: the answer is
success, and a byte of the range is not zero. -/
theorem C08_false : ¬ ∀ (e : Endian) (cl : Client) (w : World), Plain cl → ∀ ss : List Sent, (∀ s ∈ ss, s.Ok) →
    (mainloop e cl w (ss.flatMap Sent.encode)).ending = .gone →
    ∃ rs, (mainloop e cl w (ss.flatMap Sent.encode)).sent = wire rs ∧
      FlatRun cl.ex.exportsize (has cl.ex.flags F_READONLY || has cl.ex.flags F_AUTOREADONLY)
        (if has cl.ex.flags F_SPLICE && !cl.tls then [cl.structured, false] else [cl.structured])
        (view cl.ex w) (ss.map Sent.cmd) rs (view cl.ex (mainloop e cl w (ss.flatMap Sent.encode)).w) := by
  intro hall
  obtain ⟨w', m, h1, h2⟩ := bigZeroes_run
  have hs : [bigZeroes].flatMap Sent.encode = bigZeroes.encode := by simp
  have := hall .little Demo.bigClient Demo.bigWorld Demo.big_plain [bigZeroes]
    (by intro s h; rw [List.mem_singleton] at h; subst h; exact bigZeroes_ok) (by rw [hs, h1])
  rw [hs, h1] at this
  obtain ⟨rs, hsent, hrun⟩ := this
  rw [show (⟨[⟨⟨m, 6, Demo.cookie, 5, 64 * 1024 * 1024 + 1⟩, .nothing,
        [simpleMsg .little ⟨m, 6, Demo.cookie, 5, 64 * 1024 * 1024 + 1⟩ none]⟩], Demo.bigClient, w', .gone⟩ : Run).w = w' from rfl] at hrun
  generalize view Demo.bigClient.ex w' = g at hrun h2
  have hzero : ∀ (n i : Nat) (h : i < (Flat.zeros n).length), (Flat.zeros n)[i] = 0 := by
    intro n i h
    simp [Flat.zeros]
  have hcode : bigZeroes.cmd.code = 6 := by decide
  have hsz : Demo.bigClient.ex.exportsize = 2 ^ 27 := rfl
  cases hrun with
  | cons _ _ _ _ rs' _ rest hstep hrest =>
    cases hrest
    rw [List.append_nil] at hsent
    have hsent : wire [.simple 0 Demo.cookie []] = wire rs' := by
      rw [← hsent]
      exact (simpleMsg_encodes .little ⟨m, 6, Demo.cookie, 5, 64 * 1024 * 1024 + 1⟩ none).wire.symm.trans (by simp [Run.sent])
    have herr : ∀ err, err ∈ errnos → rs' = [.simple err bigZeroes.cmd.cookie []] → False := by
      rintro err he rfl
      have := simple_encode_inj (d := bigZeroes.cmd.cookie) (by decide) (errno_lt he).1 (hsent.trans (by simp [wire]))
      exact (errno_lt he).2 this.symm
    cases hstep with
    | read _ h => rw [hcode] at h; cases h
    | readFails _ h => rw [hcode] at h; cases h
    | write h => rw [hcode] at h; cases h
    | writeFails h => rw [hcode] at h; cases h
    | flush h => rw [hcode] at h; cases h
    | trim h => rw [hcode] at h; cases h
    | zeroesFails _ _ _ err n he => exact herr err he rfl
    | refused err he => exact herr err he rfl
    | zeroes =>
      have : Flat.write (view Demo.bigClient.ex Demo.bigWorld) 5 (Flat.zeros (64 * 1024 * 1024 + 1)) (5 + 64 * 1024 * 1024) = 1 := h2
      rw [Flat.write_apply, dif_pos ⟨by omega, by rw [Flat.zeros_length]; omega⟩] at this
      rw [hzero] at this
      revert this
      decide

/-- **C10 is false** of an export that waits for its file: a trim that comes before the file crashes. -/
theorem C10_false : FreshWait 3 waitClient waitWorld ∧ (mainloop .little waitClient waitWorld (Demo.request 4 0 4096).encode).ending = .ub :=
  ⟨waitClient_fresh, by decide +kernel⟩

end Props

end Nbd
