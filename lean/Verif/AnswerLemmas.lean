import Verif.SetupLemmas
/-! # Parsing answers; file exports never make the server exit -/

namespace Nbd

/-! ### Parsing what was sent -/

/-- Every field of a reply fits its slot on the wire (a simple reply carries `n` data bytes if it
reports success). -/
def Spec.Reply.Fits (n : Nat) : Spec.Reply → Prop
  | .simple err c data => err < 2 ^ 32 ∧ c.length = 8 ∧ (if err = 0 then n else 0) = data.length
  | .chunk fl ty c p => fl < 2 ^ 16 ∧ ty < 2 ^ 16 ∧ c.length = 8 ∧ p.length < 2 ^ 32

theorem Spec.parse_encode (n : Nat) (r : Spec.Reply) (rest : List Byte) (h : r.Fits n) :
    Spec.Reply.parse n (r.encode ++ rest) = some (r, rest) := by
  cases r with
  | simple err c data => exact Spec.Reply.parse_encode_simple _ _ _ _ _ h.1 h.2.1 h.2.2
  | chunk fl ty c p => exact Spec.Reply.parse_encode_chunk _ _ _ _ _ _ h.1 h.2.1 h.2.2.1 h.2.2.2

theorem Spec.encode_pos (n : Nat) (r : Spec.Reply) : 0 < r.encode.length := by
  cases r <;> simp [Spec.Reply.encode] <;> omega

theorem Spec.parseReplies_wire (n : Nat) (rs : List Spec.Reply) (h : ∀ r ∈ rs, r.Fits n) :
    ∀ fuel, (Spec.wire rs).length ≤ fuel → Spec.parseReplies n fuel (Spec.wire rs) = some rs := by
  induction rs with
  | nil => intro fuel _; cases fuel <;> simp [Spec.wire, Spec.parseReplies]
  | cons r rs ih =>
    intro fuel hf
    have e1 : Spec.wire (r :: rs) = r.encode ++ Spec.wire rs := by simp [Spec.wire]
    have hpos := Spec.encode_pos n r
    rw [e1] at hf ⊢
    rw [List.length_append] at hf
    cases fuel with
    | zero => omega
    | succ fuel =>
      have hne : r.encode ++ Spec.wire rs ≠ [] := by
        intro h0; have := congrArg List.length h0; simp at this; simp [this] at hpos
      unfold Spec.parseReplies
      rw [if_neg hne, Spec.parse_encode n r _ (h r (by simp))]
      simp only []
      rw [ih (fun x hx => h x (by simp [hx])) fuel (by omega)]
      rfl

theorem Spec.reassemble_tiles (cookie : List Byte) {start : Nat} {cs : List (Nat × List Byte)}
    {data : List Byte} (h : Spec.Tiles start cs data) (hs : start + data.length < 2 ^ 64)
    (last : Spec.Reply) (hl : Spec.reassemble (start + data.length) [last] = some []) :
    Spec.reassemble start (cs.map (fun x => Spec.dataChunk cookie x.1 x.2) ++ [last]) = some data := by
  induction h with
  | nil start => simpa using hl
  | cons start bs cs data hne hmax h ih =>
    rw [List.length_append] at hs hl
    simp only [List.map_cons, List.cons_append, Spec.dataChunk]
    rw [Spec.reassemble]
    have t8 : List.take 8 (toBE 8 start ++ bs) = toBE 8 start := List.take_left' (by simp)
    have d8 : List.drop 8 (toBE 8 start ++ bs) = bs := List.drop_left' (by simp)
    rw [if_neg, d8]
    · rw [List.length_append, toBE_length, Nat.add_sub_cancel_left]
      have := ih (by omega) (by rw [Nat.add_assoc]; exact hl)
      unfold Spec.dataChunk at this
      rw [this]; rfl
    · rw [t8, beVal_toBE_of_lt (by omega)]
      simp

theorem Spec.tiles_fit (cookie : List Byte) (hc : cookie.length = 8) {start : Nat}
    {cs : List (Nat × List Byte)} {data : List Byte} (h : Spec.Tiles start cs data) (n : Nat) :
    ∀ r ∈ cs.map (fun x => Spec.dataChunk cookie x.1 x.2), r.Fits n := by
  induction h with
  | nil => simp
  | cons start bs cs data hne hmax h ih =>
    intro r hr
    rw [List.map_cons, List.mem_cons] at hr
    rcases hr with rfl | hr
    · refine ⟨by decide, by decide, hc, ?_⟩
      rw [List.length_append, toBE_length]; simp only []; omega
    · exact ih r hr

/-! ### File exports never make the server exit -/

variable {ex : Export}

theorem rawexpread_noExit (hg : GoodExport ex) (ht : has ex.flags F_TREEFILES = false) (w : World)
    (a n : Nat) (ha : a < 2 ^ 63) : rawexpread ex w a n ≠ .exit := by
  obtain ⟨fi, nx, _, h⟩ := getFilepos_files ex w a ha ht (hg.files ht)
  unfold rawexpread
  rw [h]
  simp

theorem rawexpwrite_noExit (hg : GoodExport ex) (ht : has ex.flags F_TREEFILES = false) (w : World)
    (a : Nat) (bs : List Byte) (fua : Bool) (ha : a < 2 ^ 63) :
    rawexpwrite ex w a bs fua ≠ .exit := by
  obtain ⟨fi, nx, _, h⟩ := getFilepos_files ex w a ha ht (hg.files ht)
  unfold rawexpwrite
  rw [h]
  simp

theorem deliver_noExit (c : ReadCtx) (bs : List Byte) : c.deliver bs ≠ .exit := by
  unfold ReadCtx.deliver
  split
  · split <;> simp
  · split <;> simp

theorem deliver_start (c c' : ReadCtx) (bs : List Byte) (h : c.deliver bs = .val c') :
    c'.start = c.start := by
  unfold ReadCtx.deliver at h
  split at h
  · split at h <;> cases h; rfl
  · split at h <;> cases h; rfl

theorem rawexpreadFully_noExit (hg : GoodExport ex) (ht : has ex.flags F_TREEFILES = false)
    (w : World) (c : ReadCtx) (hr : c.start + c.curOff + c.curLen ≤ ex.exportsize) :
    rawexpreadFully ex w c ≠ .exit := by
  have hsz := hg.size
  fun_induction rawexpreadFully ex w c with
  | case1 => simp
  | case2 => simp
  | case3 w c h hq => exact absurd hq (rawexpread_noExit hg ht _ _ _ (by omega))
  | case4 => simp
  | case5 => simp
  | case6 => simp
  | case7 w c h w1 b bs hq hd => exact absurd hd (deliver_noExit _ _)
  | case8 w c h w1 b bs hq c1 hd ih =>
    have hsp := (rawexpread_spec ex hg w _ _ hr (by omega)).2 _ _ hq
    obtain ⟨hle, _⟩ := hsp.2 _ rfl
    apply ih
    simp only []
    rw [deliver_start _ _ _ hd]
    omega

theorem rawexpwriteFully_noExit (hg : GoodExport ex) (ht : has ex.flags F_TREEFILES = false)
    (w : World) (a : Nat) (bs : List Byte) (fua : Bool) (hr : a + bs.length ≤ ex.exportsize) :
    rawexpwriteFully ex w a bs fua ≠ .exit := by
  have hsz := hg.size
  fun_induction rawexpwriteFully ex w a bs fua with
  | case1 => simp
  | case2 => simp
  | case3 w a bs h hq => exact absurd hq (rawexpwrite_noExit hg ht _ _ _ _ (by omega))
  | case4 => simp
  | case5 => simp
  | case6 w a bs h w1 n hq ih =>
    apply ih
    have hle : n + 1 ≤ bs.length := by
      obtain ⟨fi, nx, _, hgp⟩ := getFilepos_files ex w a (by omega) ht (hg.files ht)
      unfold rawexpwrite at hq
      rw [hgp] at hq
      simp only [Out.val.injEq, Prod.mk.injEq] at hq
      have h2 := hq.2
      unfold handlePwrite sysPwrite at h2
      simp only [] at h2
      split at h2
      · cases h2
      · split at h2
        · cases h2
        · simp only [Option.some.injEq, List.length_take] at h2
          omega
    rw [List.length_drop]
    omega

theorem expspliceIn_noExit (hg : GoodExport ex) (ht : has ex.flags F_TREEFILES = false)
    (w : World) (a n : Nat) (p : List Byte) (hr : a + n ≤ ex.exportsize) :
    expspliceIn ex w a n p ≠ .exit := by
  have hsz := hg.size
  fun_induction expspliceIn ex w a n p with
  | case1 => simp
  | case2 => simp
  | case3 w a n p h hq => exact absurd hq (rawexpread_noExit hg ht _ _ _ (by omega))
  | case4 => simp
  | case5 => simp
  | case6 w a n p h w1 b bs hq ih =>
    have hsp := (rawexpread_spec ex hg w _ _ hr (by omega)).2 _ _ hq
    obtain ⟨hle, _⟩ := hsp.2 _ rfl
    exact ih (by omega)

theorem expspliceOut_noExit (hg : GoodExport ex) (ht : has ex.flags F_TREEFILES = false)
    (w : World) (a n : Nat) (p : List Byte) (fua : Bool) (hr : a + n ≤ ex.exportsize) :
    expspliceOut ex w a n p fua ≠ .exit := by
  have hsz := hg.size
  fun_induction expspliceOut ex w a n p fua with
  | case1 => simp
  | case2 => simp
  | case3 w a n p h hq => exact absurd hq (rawexpwrite_noExit hg ht _ _ _ _ (by omega))
  | case4 => simp
  | case5 => simp
  | case6 w a n p h w1 k hq ih =>
    apply ih
    have hle : k + 1 ≤ n := by
      obtain ⟨fi, nx, _, hgp⟩ := getFilepos_files ex w a (by omega) ht (hg.files ht)
      unfold rawexpwrite at hq
      rw [hgp] at hq
      simp only [Out.val.injEq, Prod.mk.injEq] at hq
      have h2 := hq.2
      unfold handlePwrite sysPwrite at h2
      simp only [] at h2
      split at h2
      · cases h2
      · split at h2
        · cases h2
        · simp only [Option.some.injEq, List.length_take] at h2
          omega
    omega

theorem expwrite_noExit {cl : Client} (hp : Plain cl) (ht : has cl.ex.flags F_TREEFILES = false)
    (w : World) (a : Nat) (bs : List Byte) (fua : Bool) (hr : a + bs.length ≤ cl.ex.exportsize) :
    expwrite cl w a bs fua ≠ .exit := by
  unfold expwrite
  rw [hp.paged]
  simp only [Bool.false_eq_true, if_false]
  have := rawexpwriteFully_noExit hp.good ht w a bs fua hr
  split <;> simp_all

theorem expwriteZeroes_noExit {cl : Client} (hp : Plain cl)
    (ht : has cl.ex.flags F_TREEFILES = false) (w : World) (a len : Nat) (fua : Bool)
    (hr : a + len ≤ cl.ex.exportsize) (hw : has cl.ex.flags F_READONLY = false) :
    expwriteZeroes cl w a len fua ≠ .exit := by
  have hz : 0 < ZEROCHUNK := by decide
  induction len using Nat.strongRecOn generalizing w with
  | _ len ih =>
    unfold expwriteZeroes
    split
    · simp
    · simp only []
      have hr' : a + (Flat.zeros (min len ZEROCHUNK)).length ≤ cl.ex.exportsize := by
        rw [Flat.zeros_length]; omega
      have h1 := expwrite_noExit hp ht w a (Flat.zeros (min len ZEROCHUNK)) fua hr'
      have h2 := expwrite_plain cl hp w a (Flat.zeros (min len ZEROCHUNK)) fua hr' hw
      split
      · simp
      · rename_i hq; exact absurd hq h1
      · simp
      · rename_i cl' w' hq
        have := (h2.2 _ _ _ hq).1
        subst this
        exact ih _ (by omega) _ (by omega)

theorem handleNormalRead_noExit {cl : Client} (hp : Plain cl)
    (ht : has cl.ex.flags F_TREEFILES = false) (e : Endian) (w : World) (r : Req)
    (hr : r.start + r.len ≤ cl.ex.exportsize) : handleNormalRead e cl w r ≠ .exit := by
  unfold handleNormalRead
  simp only []
  split
  · simp
  · have h1 : ∀ c : ReadCtx, c.start = r.start → c.curOff = 0 → c.curLen = r.len →
        expread cl w c ≠ .exit := by
      intro c hs ho hl
      unfold expread
      rw [hp.paged]
      simp only [Bool.false_eq_true, if_false]
      exact rawexpreadFully_noExit hp.good ht w _ (by rw [hs, ho, hl]; omega)
    split
    · simp
    · rename_i hq; exact absurd hq (h1 _ rfl rfl rfl)
    · have h2 : ∀ c err, completeRead e c r.cookie err ≠ .exit := by
        intro c err
        unfold completeRead
        split
        · simp only []
          split <;> simp
        · split
          · simp
          · split <;> simp
      split
      · simp
      · rename_i hq; exact absurd hq (h2 _ _)
      · simp

theorem handleRequest_noExit (e : Endian) {cl : Client} (hp : Plain cl)
    (ht : has cl.ex.flags F_TREEFILES = false) (w : World) (r : Req) (p : Payload)
    (hlen : r.len < 2 ^ 32) (hpl : p.fits r) : handleRequest e cl w r p ≠ .exit := by
  unfold handleRequest
  simp only []
  split
  · simp [errorReply]
  · split
    · split
      · simp [errorReply]
      · rename_i hr
        have hrange := inRange hp.good hlen (by simpa using hr)
        have hread : handleRead e cl w r ≠ .exit := by
          intro hc
          unfold handleRead at hc
          split at hc
          · split at hc
            · cases hc
            · rename_i hq
              unfold handleSpliceRead at hq
              split at hq
              · cases hq
              · split at hq
                · cases hq
                · rename_i w1 hm
                  have := expspliceIn_noExit hp.good ht w1 r.start r.len [] hrange
                  split at hq
                  · cases hq
                  · rename_i hq1; exact this hq1
                  · cases hq
                  · cases hq
            · cases hc
            · exact handleNormalRead_noExit hp ht _ _ _ hrange hc
          · exact handleNormalRead_noExit hp ht _ _ _ hrange hc
        split
        · simp
        · rename_i hq; exact absurd hq hread
        · simp
    · split
      · split
        · simp [errorReply]
        · split
          · simp [errorReply]
          · rename_i hr
            have hrange := inRange hp.good hlen (by simpa using hr)
            unfold handleWrite
            cases p with
            | nothing => simp
            | data bs =>
              have hl : bs.length = r.len := hpl
              have := expwrite_noExit hp ht w r.start bs (has r.type CMD_FLAG_FUA) (by omega)
              simp only []
              split
              · simp
              · rename_i hq; exact absurd hq this
              · simp
            | pipe bs =>
              have := expspliceOut_noExit hp.good ht w r.start r.len bs (has r.type CMD_FLAG_FUA)
                hrange
              simp only []
              split
              · simp
              · rename_i hq; exact absurd hq this
              · simp
      · split
        · simp
        · split
          · split
            · simp [errorReply]
            · rename_i hbw
              have hbw : badWrite cl = false := by simpa using hbw
              split
              · simp [errorReply]
              · rename_i hr
                have hrange := inRange hp.good hlen (by simpa using hr)
                have hsz := hp.good.size
                have : exptrim cl w r.start r.len ≠ .exit := by
                  unfold exptrim
                  rw [notReadonly hbw, ht]
                  simp only [Bool.false_eq_true, if_false]
                  rw [if_neg (by rw [Nat.mod_eq_of_lt (by omega)]; omega)]
                  split
                  · simp
                  · split <;> simp
                unfold handleTrim
                cases hq : exptrim cl w r.start r.len with
                | ub => simp
                | exit => exact absurd hq this
                | val w' => simp
          · split
            · split
              · simp [errorReply]
              · rename_i hbw
                have hbw : badWrite cl = false := by simpa using hbw
                split
                · simp [errorReply]
                · rename_i hr
                  have hrange := inRange hp.good hlen (by simpa using hr)
                  have := expwriteZeroes_noExit hp ht w r.start r.len (has r.type CMD_FLAG_FUA)
                    hrange (notReadonly hbw)
                  unfold handleWriteZeroes
                  split
                  · simp
                  · rename_i hq; exact absurd hq this
                  · simp
            · simp [errorReply]

/-- One request on a plain export changes no stored byte outside its own range; for every
length, so including zeroings above 64 MiB. -/
theorem handleRequest_frame (e : Endian) (cl cl' : Client) (hp : Plain cl) (w w' : World) (r : Req)
    (p : Payload) (msgs : List Msg) (hlen : r.len < 2 ^ 32) (hpl : p.fits r)
    (h : handleRequest e cl w r p = .val (cl', w', msgs)) :
    ∀ x, (∀ a, a < cl.ex.exportsize → r.start ≤ a → a < r.start + r.len → home cl.ex a ≠ some x) →
      (∃ a, a < cl.ex.exportsize ∧ home cl.ex a = some x) ∨ r.type % 65536 ≠ 4 →
      content w' x = content w x := by
  intro x hx hx4
  have hst : ∀ bs : List Byte, bs.length ≤ r.len → r.start + r.len ≤ cl.ex.exportsize →
      Stored cl.ex w w' r.start bs → content w' x = content w x := by
    intro bs hb hr hs
    exact hs.outside x (fun k hk => hx _ (by omega) (by omega) (by omega))
  cases handleRequest_handled _ _ _ _ _ _ _ _ h with
  | refused n hn why => rfl
  | read hf ht hr _ _ hq =>
    have hrange := inRange hp.good hlen hr
    exact (handleRead_plain e cl hp _ _ _ _ (has_df_of_flags (by omega)) hrange hq).1 x
  | write hf ht hw hr _ _ _ hq =>
    have hrange := inRange hp.good hlen hr
    obtain ⟨rfl, n, hn, hsto, _⟩ := handleWrite_plain e cl cl' hp w w' r p hpl msgs hrange hw hq
    exact hst _ (by rw [List.length_take]; omega) hrange hsto
  | flush hf ht => exact expflush_same cl w x
  | trim hf ht hw hr _ _ hq =>
    have hrange := inRange hp.good hlen hr
    unfold handleTrim at hq
    have hsp := exptrim_trimmed cl hp.good w r.start r.len hrange
    split at hq
    · cases hq
    · cases hq
    · rename_i w1 hq1
      cases hq
      rcases hsp.2 _ hq1 x with h1 | ⟨_, h1⟩
      · exact h1
      · rcases hx4 with ⟨a, ha, hax⟩ | h4
        · obtain ⟨h2, h3⟩ := h1 a ha hax
          exact absurd hax (hx a ha h2 h3)
        · exact absurd ht h4
  | zeroes hf ht hw hr _ _ _ hq =>
    have hrange := inRange hp.good hlen hr
    unfold handleWriteZeroes at hq
    have hsp := expwriteZeroes_plain cl hp w r.start r.len (has r.type CMD_FLAG_FUA) hrange
      (notReadonly hw)
    split at hq
    · cases hq
    · cases hq
    · rename_i cl1 w1 ok hq1
      cases hq
      obtain ⟨rfl, n, hn, hsto, hok⟩ := hsp.2 _ _ _ hq1
      exact hst _ (by rw [Flat.zeros_length]; omega) hrange hsto

end Nbd
