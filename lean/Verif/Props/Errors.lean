import Verif.Props.Durable
import Verif.FailLemmas
import Verif.CowSession
/-!
# Failing system calls and error replies (C22)
-/

set_option autoImplicit false

namespace Nbd.Spec

/-- Some system call made between the worlds `w` and `w'` failed. -/
def SomeCallFailed (w w' : World) : Prop := ∃ t errno, w.tick ≤ t ∧ t < w'.tick ∧ w.orc t = .err errno

end Nbd.Spec

namespace Nbd.Props

open Nbd.Spec

theorem quiet_not_failed {w w' : World} (h : Unfailing w w') : ¬ SomeCallFailed w w' := by
  rintro ⟨t, errno, h1, h2, h3⟩
  obtain ⟨n, hn⟩ := h.fine t h1 h2
  rw [h3] at hn
  cases hn

theorem mem_one {r x : Reply} (h : r ∈ [x]) (hx : x.error = 0 ∨ x.error ∈ errnos) : r.error = 0 ∨ r.error ∈ errnos := by
  rw [List.mem_singleton] at h
  subst h
  exact hx

theorem mem_chunks {cookie : List Byte} {cs : List (Nat × List Byte)} {r x : Reply}
    (h : r ∈ cs.map (fun x => dataChunk cookie (x.1 % 2 ^ 64) x.2) ++ [x]) (hx : x.error = 0 ∨ x.error ∈ errnos) :
    r.error = 0 ∨ r.error ∈ errnos := by
  rw [List.mem_append] at h
  rcases h with h | h
  · rw [List.mem_map] at h
    obtain ⟨y, -, rfl⟩ := h
    left
    simp [dataChunk, Reply.error]
  · exact mem_one h hx

/-- One request on any export: its answer carries only errors the protocol defines; and if a read, a flush, or a write that is
not to be synced is answered with success, no system call failed. -/
theorem request_errors (e : Endian) (cl cl' : Client) (w w' : World) (r : Req) (p : Payload) (msgs : List Msg)
    (h : handleRequest e cl w r p = .val (cl', w', msgs)) :
    ∃ rs, Encodes msgs rs ∧ Answer r.cookie rs ∧ (∀ x ∈ rs, x.error = 0 ∨ x.error ∈ errnos) ∧
      (has cl.ex.flags F_SPLICE = false → (∀ bs, p ≠ .pipe bs) →
        (r.type % 65536 = 0 ∨
          (r.type % 65536 = 1 ∧ has cl.ex.flags F_SYNC = false ∧ r.type.testBit 16 = false) ∨
          (r.type % 65536 = 3 ∧ has cl.ex.flags F_TREEFILES = false)) →
        rs.getLast?.map Reply.error = some 0 → Unfailing w w') := by
  have hsimple : ∀ (w' : World) (ok : Bool), (ok = true → Unfailing w w') →
      ∃ rs, Encodes [simpleMsg e r (resultOf e w' ok)] rs ∧ Answer r.cookie rs ∧
        (∀ x ∈ rs, x.error = 0 ∨ x.error ∈ errnos) ∧ (rs.getLast?.map Reply.error = some 0 → Unfailing w w') := by
    intro w' ok hok
    rw [resultOf_eq]
    refine ⟨_, simpleMsg_encodes e r _, Answer.single rfl rfl, ?_, ?_⟩
    · intro x hx
      refine mem_one hx ?_
      cases ok with
      | true => left; rfl
      | false => right; exact errnoWire_toNat_mem _
    · cases ok with
      | true => intro _; exact hok rfl
      | false =>
        intro h0
        have hm := errnoWire_toNat_mem w'.errno
        simp only [Bool.false_eq_true, if_false, Option.getD_some, List.getLast?_singleton, Option.map_some, Option.some.injEq,
          Reply.error] at h0
        rw [h0] at hm
        exact absurd hm (by decide)
  have hany : ∀ (w' : World) (ok : Bool),
      ∃ rs, Encodes [simpleMsg e r (resultOf e w' ok)] rs ∧ Answer r.cookie rs ∧
        (∀ x ∈ rs, x.error = 0 ∨ x.error ∈ errnos) := by
    intro w' ok
    rw [resultOf_eq]
    refine ⟨_, simpleMsg_encodes e r _, Answer.single rfl rfl, ?_⟩
    intro x hx
    refine mem_one hx ?_
    cases ok with
    | true => left; rfl
    | false => right; exact errnoWire_toNat_mem _
  cases handleRequest_handled _ _ _ _ _ _ _ _ h with
  | refused n hn why =>
    rw [nbdErrno_eq]
    exact ⟨_, simpleMsg_encodes e r (some _), Answer.single rfl rfl, fun x hx => mem_one hx (.inr (errnoWire_toNat_mem _)),
      fun _ _ _ _ => .refl _⟩
  | read hf ht hr _ _ hq =>
    have hdf : has r.type CMD_FLAG_DF = false := has_df_of_flags (by omega)
    rcases handleRead_cases _ _ _ _ _ _ hq with ⟨w1, hn, hw1⟩ | ⟨hsp, hs⟩
    · obtain ⟨c', ok, hx, hm⟩ := handleNormalRead_replies e cl w1 w' r msgs hdf hn
      have hquiet : ok = true → has cl.ex.flags F_SPLICE = false → Unfailing w w' := by
        rintro rfl hns
        rcases hw1 with ⟨_, rfl⟩ | ⟨hc, _⟩
        · exact expread_quiet _ _ _ _ _ hx
        · rw [hns] at hc; cases hc
      cases ok with
      | true =>
        rw [if_pos rfl] at hm
        rcases hm with ⟨_, hm⟩ | ⟨_, data, _, _, hm⟩
        · refine ⟨_, hm, ?_, fun x hx => mem_chunks hx (.inl (by simp [doneChunk, Reply.error])),
            fun hns _ _ _ => hquiet rfl hns⟩
          rw [map_mod_chunks]
          exact Answer.chunks _ rfl rfl
        · exact ⟨_, hm, Answer.single rfl rfl, fun x hx => mem_one hx (.inl rfl), fun hns _ _ _ => hquiet rfl hns⟩
      | false =>
        rw [if_neg (by simp)] at hm
        have hmem := errnoWire_toNat_mem w'.errno
        rcases hm with ⟨_, hm⟩ | ⟨_, hm⟩
        · refine ⟨_, hm, ?_, fun x hx => mem_chunks hx (.inr ?_), ?_⟩
          · rw [map_mod_chunks]
            exact Answer.chunks _ rfl rfl
          · rw [errorChunk_error]; exact hmem
          · intro _ _ _ h0
            rw [List.getLast?_concat, Option.map_some, errorChunk_error, Option.some.injEq] at h0
            rw [h0] at hmem
            exact absurd hmem (by decide)
        · refine ⟨_, hm, Answer.single rfl rfl, fun x hx => mem_one hx (.inr hmem), ?_⟩
          intro _ _ _ h0
          simp only [List.getLast?_singleton, Option.map_some, Option.some.injEq, Reply.error] at h0
          rw [h0] at hmem
          exact absurd hmem (by decide)
    · obtain ⟨_, w1, pipe, _, _, rfl⟩ := handleSpliceRead_cases _ _ _ _ _ _ hs
      refine ⟨[.simple 0 r.cookie pipe], ?_, Answer.single rfl rfl, fun x hx => mem_one hx (.inl rfl), ?_⟩
      · unfold Encodes
        simp [simple_bytes_zero]
      · intro hns
        rw [hns] at hsp
        cases hsp
  | write hf ht hw hr _ _ _ hq =>
    obtain ⟨ok, rfl, hc⟩ := handleWrite_cases _ _ _ _ _ _ _ _ hq
    by_cases hplain : (∀ bs, p ≠ .pipe bs) ∧ has cl.ex.flags F_SYNC = false ∧ r.type.testBit 16 = false
    · obtain ⟨rs, h1, h2, h3, h4⟩ := hsimple w' ok (by
        rintro rfl
        rcases hc with ⟨bs, rfl, hx⟩ | ⟨bs, rfl, _⟩
        · rw [has_fua, hplain.2.2] at hx
          exact expwrite_quiet _ hplain.2.1 _ _ _ _ _ hx
        · exact absurd rfl (hplain.1 bs))
      exact ⟨rs, h1, h2, h3, fun _ _ _ => h4⟩
    · obtain ⟨rs, h1, h2, h3⟩ := hany w' ok
      refine ⟨rs, h1, h2, h3, ?_⟩
      intro _ hp hk
      exact absurd ⟨hp, by rcases hk with hk | ⟨_, hk⟩ | ⟨hk, _⟩ <;> first | exact hk | omega⟩ hplain
  | flush hf ht =>
    unfold handleFlush
    dsimp only
    by_cases htree : has cl.ex.flags F_TREEFILES = false
    · obtain ⟨rs, h1, h2, h3, h4⟩ := hsimple (expflush cl w).1 (expflush cl w).2 (by
        intro hok
        have hx : expflush cl w = ((expflush cl w).1, true) := by rw [← hok]
        unfold expflush at hx hok ⊢
        split
        · rename_i hc
          rw [if_pos hc] at hx
          exact sysFsync_quiet hx
        · rename_i hc
          rw [if_neg hc] at hx
          split
          · rename_i hc2
            rw [if_pos hc2] at hx
            exact sysFsync_quiet hx
          · rename_i hc2
            rw [if_neg hc2, htree] at hx
            rw [if_neg (by simp [htree])]
            simp only [Bool.false_eq_true, if_false] at hx
            exact flushFiles_quiet _ _ _ hx)
      exact ⟨rs, h1, h2, h3, fun _ _ _ => h4⟩
    · obtain ⟨rs, h1, h2, h3⟩ := hany (expflush cl w).1 (expflush cl w).2
      refine ⟨rs, h1, h2, h3, ?_⟩
      intro _ _ hk
      rcases hk with hk | ⟨hk, _⟩ | ⟨_, hk⟩
      · omega
      · omega
      · exact absurd hk htree
  | trim hf ht hw hr _ _ hq =>
    unfold handleTrim at hq
    split at hq
    · cases hq
    · cases hq
    · cases hq
      obtain ⟨rs, h1, h2, h3⟩ := hany w' true
      exact ⟨rs, h1, h2, h3, fun _ _ hk => by omega⟩
  | zeroes hf ht hw hr _ _ _ hq =>
    unfold handleWriteZeroes at hq
    split at hq
    · cases hq
    · cases hq
    · cases hq
      obtain ⟨rs, h1, h2, h3⟩ := hany w' _
      exact ⟨rs, h1, h2, h3, fun _ _ hk => by omega⟩

/-- **C22, every reply.** Whatever the export, whatever a client sends and whatever errno values the kernel produces (`w.orc`
is arbitrary): what the server sends is one answer per request, and every reply carries either no error or one of the error
numbers the protocol defines. -/
theorem C22_reply_errors (e : Endian) (cl : Client) (w : World) (stream : List Byte) :
    ∃ rs, (mainloop e cl w stream).sent = wire rs ∧
      Answers ((mainloop e cl w stream).handled.map (fun d => d.req.cookie)) rs ∧
      ∀ r ∈ rs, r.error = 0 ∨ r.error ∈ [1, 5, 12, 22, 28] := by
  fun_induction mainloop e cl w stream with
  | case1 => exact ⟨[], rfl, .nil, by simp⟩
  | case2 => exact ⟨[], rfl, .nil, by simp⟩
  | case3 => exact ⟨[], rfl, .nil, by simp⟩
  | case4 => exact ⟨[], rfl, .nil, by simp⟩
  | case5 => exact ⟨[], rfl, .nil, by simp⟩
  | case6 => exact ⟨[], rfl, .nil, by simp⟩
  | case7 cl w stream w1 r p rest hf cl' w' msgs hq ih =>
    obtain ⟨rs, henc, hans, herr, -⟩ := request_errors _ _ _ _ _ _ _ _ hq
    obtain ⟨rs', h1, h2, h3⟩ := ih
    refine ⟨rs ++ rs', ?_, ?_, ?_⟩
    · exact Run.cons_sent _ _ _ _ henc.wire h1
    · simp only [Run.cons, List.map_cons]
      exact .cons _ _ _ _ hans h2
    · intro x hx
      rw [List.mem_append] at hx
      rcases hx with hx | hx
      · exact herr x hx
      · exact h3 x hx

/-- **C22, failures are reported** (partial: reads, flushes, and writes that are not to be synced; exports without splicing; flushing
a tree export cannot fail). Whatever the export, copy-on-write and waiting ones included: if any system call made for the
request fails, the last reply of its answer carries one of the protocol's error numbers. Missing: FUA writes and exports with the `sync` option, for
which it is false (`C22_false_fua`); trims, whose failures are ignored; write-zeroes. -/
theorem C22_failure_reported_partial (e : Endian) (cl : Client) (w : World) (s : Sent) (hok : s.Ok)
    (hns : has cl.ex.flags F_SPLICE = false)
    (hcmd : s.req.type % 65536 = 0 ∨
      (s.req.type % 65536 = 1 ∧ has cl.ex.flags F_SYNC = false ∧ s.req.type.testBit 16 = false) ∨
      (s.req.type % 65536 = 3 ∧ has cl.ex.flags F_TREEFILES = false))
    (hend : (mainloop e cl w s.encode).ending = .gone)
    (hfail : SomeCallFailed w (mainloop e cl w s.encode).w) :
    ∃ rs err, (mainloop e cl w s.encode).sent = wire rs ∧ Answer s.req.cookie rs ∧
      rs.getLast?.map Reply.error = some err ∧ err ∈ [1, 5, 12, 22, 28] := by
  rcases fetch_sent e cl w s hok [] with ⟨_, _, hc⟩ | ⟨w1, p, hf, _, _, _, _, _, hp⟩
  · rw [hns] at hc; cases hc
  rw [List.append_nil] at hf
  have hw1 := fetch_nosplice e cl hns w w1 _ _ hf
  subst hw1
  rw [mainloop_push e cl w1 w1 _ _ _ _ hf] at hend hfail ⊢
  have hreq : (reqOf e s).type = s.req.type ∧ (reqOf e s).cookie = s.req.cookie := ⟨rfl, rfl⟩
  cases hq : handleRequest e cl w1 (reqOf e s) p with
  | ub => rw [hq] at hend; cases hend
  | exit => rw [hq] at hend; cases hend
  | val x =>
    obtain ⟨cl', w', msgs⟩ := x
    rw [hq] at hfail
    dsimp only at hfail ⊢
    obtain ⟨rs, henc, hans, herr, hquiet⟩ := request_errors _ _ _ _ _ _ _ _ hq
    rw [hreq.1] at hquiet
    rw [mainloop_nil] at hfail ⊢
    have hne : rs.getLast?.map Reply.error ≠ some 0 := by
      intro h0
      refine quiet_not_failed (hquiet hns ?_ hcmd h0) hfail
      rintro bs rfl
      have := fetch_piped e cl hns w1 w1 _ _ _ _ hf
      cases this
    obtain ⟨init, last, rfl, -, -⟩ := hans.final
    refine ⟨_, last.error, ?_, by rw [← hreq.2]; exact hans, by simp, ?_⟩
    · have := Run.cons_sent ⟨reqOf e s, p, msgs⟩ ⟨[], cl', w', .gone⟩ _ [] henc.wire rfl
      simpa using this
    · rcases herr last (by simp) with h0 | h0
      · simp [h0] at hne
      · exact h0

/-- The demo export on a kernel whose second system call fails with ENOSPC. -/
def fullDisk : World := { Demo.world with orc := fun t => if t = 1 then .err ENOSPC else .done 2 }

/-- The write that needs the second system call meets the hypotheses; the answer says "no space". -/
example : (Demo.write 3 [10, 11, 12, 13]).Ok ∧ has (Demo.client false).ex.flags F_SPLICE = false ∧
    (Demo.write 3 [10, 11, 12, 13]).req.type % 65536 = 1 ∧ has (Demo.client false).ex.flags F_SYNC = false ∧
    (mainloop .little (Demo.client false) fullDisk (Demo.write 3 [10, 11, 12, 13]).encode).ending = .gone ∧
    SomeCallFailed fullDisk (mainloop .little (Demo.client false) fullDisk (Demo.write 3 [10, 11, 12, 13]).encode).w ∧
    (mainloop .little (Demo.client false) fullDisk (Demo.write 3 [10, 11, 12, 13]).encode).sent =
      (Reply.simple 28 Demo.cookie []).encode :=
  ⟨Demo.write_ok, by decide, rfl, by decide, by decide +kernel, ⟨1, ENOSPC, by decide, by decide +kernel, rfl⟩,
    by decide +kernel⟩

/-- **C22 is false of FUA writes**: the second system call of this session, the `fdatasync`, fails with EIO, and the server
answers the write with success. -/
theorem C22_false_fua : ∃ (cl : Client) (w : World) (s : Sent), s.Ok ∧ Plain cl ∧ s.req.type = 65537 ∧
    (mainloop .little cl w s.encode).ending = .gone ∧ SomeCallFailed w (mainloop .little cl w s.encode).w ∧
    (mainloop .little cl w s.encode).sent = (Reply.simple 0 s.req.cookie []).encode := by
  refine ⟨⟨⟨0, 16, [⟨3, 0⟩], []⟩, false, [], 0, 0, 0, false, false⟩, demoBadDisk, demoFua 3 [10, 11, 12, 13],
    ⟨⟨by decide, by decide, by decide, by decide, by decide⟩, rfl, by decide, by decide⟩,
    ⟨⟨by decide, fun _ => ⟨by decide, by decide, by decide⟩⟩, by decide⟩, rfl, by decide +kernel,
    ⟨1, EIO, by decide, by decide +kernel, rfl⟩, by decide +kernel⟩

end Nbd.Props
