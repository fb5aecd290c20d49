import Verif.Props.CowFalse
/-!
# Copy-on-write exports of more than 4 GiB: what is false (C12)

The place of a saved block in the diff file is computed in 32 bits, so the block saved as number 2^20 is looked up where block 0 is.
-/

set_option autoImplicit false

namespace Nbd.Props

open Nbd.Spec

/-- A copy-on-write export of `n` blocks. -/
def cowLong (n : Nat) : Export := ⟨F_COPYONWRITE, n * 4096, [⟨3, 0⟩], []⟩

/-- A fresh session on it. -/
def cowLongClient (n : Nat) : Client := ⟨cowLong n, false, List.replicate n 4294967295, 0, 9, 0, false, false⟩

/-- The file behind it, all zeros, and an empty diff file, on a kernel that never fails. -/
def cowLongWorld (n : Nat) : World :=
  ⟨fun id => if id = .fd 3 then some (File.clean (fun _ => 0) (n * 4096)) else
    if id = .fd 9 then some (File.clean (fun _ => 0) 0) else none, fun _ => .done (2 ^ 31), 0, 0, fun _ => []⟩

/-- What is written to block `k`: 7s to the first, 8s to all others. -/
def fillOf (k : Nat) : Byte := if k = 0 then 7 else 8

/-- Write block `k`. -/
def fillBlock (k : Nat) : Sent := Demo.write (k * 4096) (List.replicate 4096 (fillOf k))

theorem fillBlock_ok (k : Nat) (h : k < 2 ^ 40) : (fillBlock k).Ok := by
  have hl : (List.replicate 4096 (fillOf k)).length = 4096 := List.length_replicate
  refine ⟨⟨(by decide : (0x25609513 : Nat) < 2 ^ 32), (by decide : (1 : Nat) < 2 ^ 32), rfl, ?_, ?_⟩, rfl, (by decide : (1 : Nat) ≠ 2), rfl⟩
  · show k * 4096 < 2 ^ 64
    omega
  · show (List.replicate 4096 (fillOf k)).length < 2 ^ 32
    rw [hl]; decide

/-- The session after the first `k` blocks were written. -/
structure Filled (n k : Nat) (cl : Client) (w : World) : Prop where
  ex : cl.ex = cowLong n
  waiting : cl.waiting = false
  structured : cl.structured = false
  map : cl.difmap = List.range k ++ List.replicate (n - k) 4294967295
  used : cl.difffilelen = k
  diff : cl.difffile = 9
  pos : cl.diffpos = k * 4096
  orc : ∀ t, w.orc t = .done (2 ^ 31)
  file : ∃ f, w.files (.fd 9) = some f ∧ k * 4096 ≤ f.size ∧ ∀ i, i < k * 4096 → f.data i = fillOf (i / 4096)

theorem filled_generous {n k : Nat} {cl : Client} {w : World} (h : Filled n k cl w) : Generous w :=
  fun t => ⟨2 ^ 31, by decide, h.orc t⟩

theorem filled_write (n k : Nat) (cl : Client) (w : World) (h : Filled n k cl w) (hk : k < n) (hn : n ≤ 2 ^ 31) (e : Endian)
    (p : Payload) (hp : p.piped = false) (hne : p ≠ .nothing) (hb : p.bytes = (fillBlock k).data) :
    ∃ cl' w', handleRequest e cl w (reqOf e (fillBlock k)) p = .val (cl', w', [simpleMsg e (reqOf e (fillBlock k)) none]) ∧
      Filled n (k + 1) cl' w' := by
  have hpl : (List.replicate 4096 (fillOf k)).length = 4096 := List.length_replicate
  have hpd : p = .data (List.replicate 4096 (fillOf k)) := by
    cases p with
    | nothing => exact absurd rfl hne
    | data bs => exact congrArg _ hb
    | pipe bs => cases hp
  subst hpd
  have hs : (reqOf e (fillBlock k)).start = k * 4096 := rfl
  have hl : (reqOf e (fillBlock k)).len = 4096 := hpl
  have ht : (reqOf e (fillBlock k)).type = 1 := rfl
  have hpg : cl.paged = true := by unfold Client.paged; rw [h.ex, h.waiting, Bool.or_false]; exact (by decide : has F_COPYONWRITE F_COPYONWRITE = true)
  have hfl : cl.ex.flags = F_COPYONWRITE := by rw [h.ex]; rfl
  have hesz : cl.ex.exportsize = n * 4096 := by rw [h.ex]; rfl
  have hbw : badWrite cl = false := by unfold badWrite; rw [hfl]; decide
  have hbr : badRange cl (reqOf e (fillBlock k)) = false := by
    unfold badRange
    rw [hs, hl, hesz]
    simp only [Bool.or_eq_false_iff, decide_eq_false_iff_not]
    omega
  have hm : cl.difmap[k]? = some 4294967295 := by
    rw [h.map, List.getElem?_append_right (by simp), List.length_range, List.getElem?_replicate, if_pos (by omega)]
  have hpc : pageCount (k * 4096) 4096 = 1 := by
    unfold pageCount lastPage
    rw [show DIFFPAGESIZE = 4096 from rfl]
    omega
  obtain ⟨f, hf, hfs, hfd⟩ := h.file
  obtain ⟨pgb, hpgb⟩ : ∃ x, x = List.replicate 4096 (fillOf k) := ⟨_, rfl⟩
  rw [← hpgb] at hpl
  have hex : ∃ w', expwrite cl w (k * 4096) pgb false =
      .val ({ cl with difmap := cl.difmap.set k k, difffilelen := (k + 1) % 2 ^ 32, diffpos := k * 4096 + 4096 }, w', true) ∧
      w'.orc = w.orc ∧ w'.files (.fd 9) = some (f.pwrite (k * 4096) pgb) := by
    unfold expwrite
    rw [hpg, if_pos rfl, hpl, hpc, show k * 4096 / DIFFPAGESIZE = k from by rw [show DIFFPAGESIZE = 4096 from rfl]; omega]
    rw [expwritePages, show DIFFPAGESIZE = 4096 from rfl, Nat.sub_self, hpl, hm,
      show pageLen 0 4096 = 4096 from by decide]
    simp only []
    rw [if_neg (by simp [NOPAGE]), hfl, show has F_COPYONWRITE F_SPARSE = false from by decide]
    simp only [Bool.false_eq_true, if_false, ne_eq, not_true_eq_false, or_self, false_and]
    have h1 : bufSet (List.replicate 4096 none) 0 (pgb.take 4096) = pgb.map some := by
      rw [List.take_of_length_le (by omega)]
      exact bufSet_all 4096 pgb hpl
    rw [h1, allInit_map]
    simp only []
    have h2 := sysPwrite_generous (filled_generous h) 9 f hf (k * 4096) pgb (by omega)
    unfold diffAppend
    simp only [h.diff, h.pos, h.used]
    rw [h2]
    simp only [hpl, if_false, not_true_eq_false, expwritePages, hfl,
      show has F_COPYONWRITE F_SYNC = false from by decide, Bool.or_self, Bool.false_eq_true]
    refine ⟨_, rfl, rfl, ?_⟩
    simp [World.set]
  obtain ⟨w', hex, ho, hf'⟩ := hex
  refine ⟨{ cl with difmap := cl.difmap.set k k, difffilelen := (k + 1) % 2 ^ 32, diffpos := k * 4096 + 4096 }, w', ?_, ?_⟩
  · unfold handleRequest
    simp only [ht]
    rw [if_neg (by decide), if_neg (by decide), if_pos (by decide), hbw, hbr]
    simp only [Bool.false_eq_true, if_false]
    unfold handleWrite
    simp only [ht, hs]
    rw [← hpgb, show has 1 CMD_FLAG_FUA = false from by decide, hex]
    rfl
  · have hmap : cl.difmap.set k k = List.range (k + 1) ++ List.replicate (n - (k + 1)) 4294967295 := by
      rw [h.map, List.set_append_right k k (by simp), List.length_range, Nat.sub_self, List.range_succ, List.append_assoc]
      congr 1
      rw [show n - k = (n - (k + 1)) + 1 from by omega, List.replicate_succ]
      rfl
    refine ⟨h.ex, h.waiting, h.structured, hmap, ?_, h.diff, ?_, fun t => by rw [ho]; exact h.orc t, _, hf', ?_, ?_⟩
    · show (k + 1) % 2 ^ 32 = k + 1
      omega
    · show k * 4096 + 4096 = (k + 1) * 4096
      omega
    · have hne : pgb ≠ [] := by
        intro hc
        have h1 := congrArg List.length hc
        rw [hpl, List.length_nil] at h1
        omega
      have h2 : (f.pwrite (k * 4096) pgb).size = max f.size (k * 4096 + pgb.length) := if_neg hne
      rw [h2, hpl, Nat.succ_mul]
      exact Nat.le_max_right _ _
    · intro i hi
      show (f.data.write (k * 4096) pgb) i = _
      by_cases h1 : i < k * 4096
      · rw [Flat.write_outside _ _ _ _ (.inl h1)]
        exact hfd i h1
      · rw [Flat.write_apply, dif_pos ⟨by omega, by omega⟩]
        have h2 : i / 4096 = k := by omega
        rw [h2]
        subst hpgb
        exact List.getElem_replicate _

theorem cowLong_filled (n : Nat) : Filled n 0 (cowLongClient n) (cowLongWorld n) :=
  ⟨rfl, rfl, rfl, by rw [List.range_zero, List.nil_append, Nat.sub_zero]; rfl, rfl, rfl, (Nat.zero_mul _).symm, fun _ => rfl,
    File.clean (fun _ => 0) 0, rfl, by rw [Nat.zero_mul]; exact Nat.zero_le _, fun i hi => by omega⟩

/-- Reading one byte of block `m` gives the byte at the start of the block that was saved as number `m` modulo 2^20. -/
theorem filled_read (n m : Nat) (cl : Client) (w : World) (h : Filled n n cl w) (hm : m < n) (hn : n ≤ 2 ^ 31) (e : Endian) :
    ∃ w' msgs, handleRequest e cl w (reqOf e (Demo.request 0 (m * 4096) 1)) .nothing = .val (cl, w', msgs) ∧
      Encodes msgs [.simple 0 Demo.cookie [fillOf (m % 2 ^ 20)]] := by
  obtain ⟨r, hr⟩ : ∃ r, r = reqOf e (Demo.request 0 (m * 4096) 1) := ⟨_, rfl⟩
  have hs : r.start = m * 4096 := by rw [hr]; rfl
  have hl : r.len = 1 := by rw [hr]; rfl
  have ht : r.type = 0 := by rw [hr]; rfl
  have hc : r.cookie = Demo.cookie := by rw [hr]; rfl
  rw [← hr]
  have hpg : cl.paged = true := by unfold Client.paged; rw [h.ex, h.waiting, Bool.or_false]; exact (by decide : has F_COPYONWRITE F_COPYONWRITE = true)
  have hfl : cl.ex.flags = F_COPYONWRITE := by rw [h.ex]; rfl
  have hesz : cl.ex.exportsize = n * 4096 := by rw [h.ex]; rfl
  have hbr : badRange cl r = false := by
    unfold badRange
    rw [hs, hl, hesz]
    simp only [Bool.or_eq_false_iff, decide_eq_false_iff_not]
    omega
  have hdm : cl.difmap[m]? = some m := by
    rw [h.map, List.getElem?_append_left (by simpa using hm), List.getElem?_range hm]
  have hpc : pageCount (m * 4096) 1 = 1 := by
    unfold pageCount lastPage
    rw [show DIFFPAGESIZE = 4096 from rfl]
    omega
  have hoff : diffOffset m 0 = (m % 2 ^ 20) * 4096 := by
    unfold diffOffset
    rw [show DIFFPAGESIZE = 4096 from rfl]
    omega
  obtain ⟨f, hf, hfs, hfd⟩ := h.file
  have hmod : m % 2 ^ 20 ≤ m := Nat.mod_le _ _
  have hpr : sysPread w (.fd 9) (diffOffset m 0) 1 = (w.step, some [fillOf (m % 2 ^ 20)]) := by
    unfold sysPread
    simp only [hf, World.next, h.orc]
    rw [hoff]
    unfold File.pread
    have h1 : min (min (2 ^ 31) MAX_RW_COUNT) (min 1 (f.size - m % 2 ^ 20 * 4096)) = 1 := by
      simp only [MAX_RW_COUNT]
      omega
    rw [h1]
    have h2 := hfd (m % 2 ^ 20 * 4096) (by omega)
    rw [show m % 2 ^ 20 * 4096 / 4096 = m % 2 ^ 20 from by omega] at h2
    simp [Flat.read, h2]
  have hex : ∃ c', expread cl w (initCtx cl r) = .val (w.step, c', true) ∧ c'.buf = [some (fillOf (m % 2 ^ 20))] ∧
      c'.structured = false ∧ c'.chunks = [] := by
    unfold expread
    rw [hpg, if_pos rfl]
    simp only [initCtx, h.structured, hl, hs, Nat.add_zero, Bool.not_false, if_true]
    rw [show m * 4096 / DIFFPAGESIZE = m from by rw [show DIFFPAGESIZE = 4096 from rfl]; omega, hpc, expreadPages,
      show DIFFPAGESIZE = 4096 from rfl, Nat.sub_self, show pageLen 0 1 = 1 from by decide, hdm]
    simp only []
    rw [if_pos (by simp only [NOPAGE]; omega), h.diff, hpr]
    simp only [ReadCtx.deliver, ReadCtx.chunked, Bool.false_and, Bool.false_eq_true, if_false, List.length_replicate,
      List.length_singleton, expreadPages]
    exact ⟨_, rfl, rfl, rfl, rfl⟩
  obtain ⟨c', hex, hb, hst, hch⟩ := hex
  have hnr : handleNormalRead e cl w r = .val (w.step, [⟨simpleHdr e 0 r.cookie, [fillOf (m % 2 ^ 20)]⟩]) := by
    unfold handleNormalRead
    rw [ht, show has 0 CMD_FLAG_DF = false from by decide]
    simp only [Bool.and_false, Bool.false_and, Bool.false_eq_true, if_false, Bool.false_or]
    unfold initCtx at hex
    rw [hex]
    simp only [if_true, completeRead, hst, hb, hch, Bool.false_eq_true, if_false]
    rfl
  refine ⟨w.step, [⟨simpleHdr e 0 r.cookie, [fillOf (m % 2 ^ 20)]⟩], ?_, ?_⟩
  · unfold handleRequest
    simp only [ht]
    rw [if_neg (by decide), if_pos (by decide), hbr]
    simp only [Bool.false_eq_true, if_false]
    unfold handleRead
    rw [hfl, show has F_COPYONWRITE F_SPLICE = false from by decide]
    simp only [Bool.false_eq_true, if_false]
    rw [hnr]
  · unfold Encodes
    simp only [List.map_cons, List.map_nil, List.cons.injEq, and_true, hc]
    exact simple_bytes_zero e _ _

/-- The session that writes blocks `k`, …, `n - 1` and then reads the first byte of block `m`. -/
theorem filled_run (n m : Nat) (hm : m < n) (hn : n ≤ 2 ^ 31) (d : Nat) : ∀ (k : Nat) (cl : Client) (w : World),
    k + d = n → Filled n k cl w →
    (cowRun cl w ((List.range' k d).map fillBlock ++ [Demo.request 0 (m * 4096) 1])).sent =
      wire (List.replicate d (.simple 0 Demo.cookie []) ++ [.simple 0 Demo.cookie [fillOf (m % 2 ^ 20)]]) := by
  induction d with
  | zero =>
    intro k cl w hk h
    obtain rfl : k = n := hk
    have hns : has cl.ex.flags F_SPLICE = false := by rw [h.ex]; exact (by decide : has F_COPYONWRITE F_SPLICE = false)
    have hok : (Demo.request 0 (m * 4096) 1).Ok :=
      ⟨⟨(by decide : (0x25609513 : Nat) < 2 ^ 32), (by decide : (0 : Nat) < 2 ^ 32), rfl,
        (by show m * 4096 < 2 ^ 64; omega), (by decide : (1 : Nat) < 2 ^ 32)⟩, rfl, (by decide : (0 : Nat) ≠ 2), rfl⟩
    unfold cowRun
    simp only [List.range'_zero, List.map_nil, List.nil_append, List.map_cons, List.flatten_cons, List.flatten_nil,
      List.replicate_zero]
    rcases fetch_sent .little cl w _ hok [] with ⟨_, _, hx⟩ | ⟨w1, p, hf, _, _, _, _, hw, _⟩
    · rw [hns] at hx; cases hx
    · have hw1 := fetch_nosplice .little cl hns w w1 _ _ hf
      subst hw1
      obtain rfl : p = .nothing := by
        rcases Classical.em (p = .nothing) with h1 | h1
        · exact h1
        · exact absurd (hw.mpr h1) (by show ¬ (0 % 65536 = 1); decide)
      obtain ⟨w', msgs, h1, h2⟩ := filled_read k m cl w1 h hm hn .little
      rw [mainloop_push _ _ _ _ _ _ _ _ hf, h1]
      simp only [mainloop_nil]
      have := Run.cons_sent ⟨reqOf .little (Demo.request 0 (m * 4096) 1), .nothing, msgs⟩ ⟨[], cl, w', .gone⟩ _ [] h2.wire rfl
      rw [List.append_nil] at this
      exact this
  | succ d ih =>
    intro k cl w hk h
    have hns : has cl.ex.flags F_SPLICE = false := by rw [h.ex]; exact (by decide : has F_COPYONWRITE F_SPLICE = false)
    unfold cowRun
    rw [List.range'_succ, List.map_cons, List.cons_append, List.map_cons, List.flatten_cons]
    rcases fetch_sent .little cl w _ (fillBlock_ok k (by omega)) _ with ⟨_, _, hx⟩ | ⟨w1, p, hf, _, _, _, hb, hw, _⟩
    · rw [hns] at hx; cases hx
    · have hw1 := fetch_nosplice .little cl hns w w1 _ _ hf
      subst hw1
      obtain ⟨cl', w', h1, h2⟩ := filled_write n k cl w1 h (by omega) hn .little p
        (fetch_piped .little cl hns _ _ _ _ _ _ hf) (hw.mp rfl) hb
      rw [mainloop_push _ _ _ _ _ _ _ _ hf, h1]
      simp only []
      have hrest := ih (k + 1) cl' w' (by omega) h2
      have := Run.cons_sent ⟨reqOf .little (fillBlock k), p, [simpleMsg .little (reqOf .little (fillBlock k)) none]⟩ _ _ _
        (simpleMsg_encodes .little (reqOf .little (fillBlock k)) none).wire hrest
      exact this

/-- **C12 is false of the code: exports of more than 4 GiB.** A session on a copy-on-write export of 2^20 + 1 blocks (4 GiB and one
block), on a kernel where no call fails, writes 7s to the first block, 8s to each of the others, one request after the other, and then
reads the first byte of the last block. All writes are acknowledged, and the read is answered with 7: the place of the block in the
diff file is computed in 32 bits, so the last block is looked up where the first is. -/
theorem C12_false_long :
    FreshCow (cowLong 1048577) (cowLongClient 1048577) (cowLongWorld 1048577) ∧ NeverFails (cowLongWorld 1048577) ∧
    (∀ k, k < 1048577 → (fillBlock k).Ok ∧ (fillBlock k).cmd = ⟨1, Demo.cookie, k * 4096, 4096, List.replicate 4096 (if k = 0 then 7 else 8)⟩) ∧
    (cowRun (cowLongClient 1048577) (cowLongWorld 1048577)
      ((List.range' 0 1048577).map fillBlock ++ [Demo.request 0 (1048576 * 4096) 1])).sent =
    wire (List.replicate 1048577 (.simple 0 Demo.cookie []) ++ [.simple 0 Demo.cookie [7]]) := by
  refine ⟨⟨rfl, ?_, rfl, rfl, rfl, ⟨File.clean (fun _ => 0) 0, rfl⟩⟩, fun t => ⟨2 ^ 31, by decide, rfl⟩, ?_, ?_⟩
  · show List.replicate 1048577 4294967295 = List.replicate (1048577 * 4096 / 4096) 4294967295
    rw [Nat.mul_div_cancel _ (by decide)]
  · intro k hk
    refine ⟨fillBlock_ok k (by omega), ?_⟩
    have hl : (List.replicate 4096 (fillOf k)).length = 4096 := List.length_replicate
    show Cmd.mk _ _ _ (List.replicate 4096 (fillOf k)).length _ = _
    rw [hl]
    rfl
  · rw [filled_run 1048577 1048576 (by omega) (by omega) 1048577 0 _ _ (by omega) (cowLong_filled _)]
    rfl

end Nbd.Props
