import Verif.SafeLemmas
/-!
# Arbitrary byte streams on exports of any size and layout

`SafeLemmas` asks for start offsets that increase strictly, distinct files and a size below 2^63.
Here only the first start offset matters: it is 0, as `setupexport` leaves it. Empty files, the
same file twice and sizes that wrap around are all allowed. A tree may be of any size; there the
only other outcome is a deliberate exit.
-/
set_option autoImplicit false

namespace Nbd

/-- A tree, or a file array as `setupexport` builds it: not empty, and the first file starts at 0. -/
def Rooted (ex : Export) : Prop :=
  has ex.flags F_TREEFILES = true ∨
  (has ex.flags F_TREEFILES = false ∧ ∃ fd rest, ex.files = ⟨fd, 0⟩ :: rest)

/-- The process exits on purpose, which only trees make it do. -/
def Quits {α : Type} (ex : Export) (o : Out α) : Prop := has ex.flags F_TREEFILES = true ∧ o = .exit

theorem bsearch_rooted (files : List FileInfo) (a : Nat) (h0 : ∀ fi, files[0]? = some fi → fi.startoff = 0)
    (start fin : Int) (hs : 0 ≤ start) (hf : 0 ≤ fin) (hn : fin < files.length) :
    ∃ e, bsearch files a start fin = some e ∧ 0 ≤ e ∧ e < files.length := by
  fun_induction bsearch files a start fin with
  | case1 start fin h mid hm => omega
  | case2 start fin h mid hm hq =>
    rw [List.getElem?_eq_none_iff] at hq
    omega
  | case3 start fin h mid hm fi hq hlt ih => exact ih (by omega) hf hn
  | case4 start fin h mid hm fi hq hlt hgt ih =>
    have hne : mid ≠ 0 := by
      intro hz
      rw [hz] at hq
      have := h0 fi hq
      omega
    exact ih hs (by omega) (by omega)
  | case5 start fin h mid hm fi hq hlt hgt => exact ⟨mid, rfl, by omega, by omega⟩
  | case6 start fin h => exact ⟨fin, rfl, hf, hn⟩

theorem getFilepos_rooted {ex : Export} (hr : Rooted ex) (w : World) (a : Nat) :
    (∃ w' r, getFilepos ex w a = .val (w', r)) ∨ Quits ex (getFilepos ex w a) := by
  unfold getFilepos
  by_cases ha : 2 ^ 63 ≤ a
  · rw [if_pos ha]; exact .inl ⟨_, _, rfl⟩
  · rw [if_neg ha]
    rcases hr with ht | ⟨ht, fd, rest, hfs⟩
    · unfold Quits
      rw [ht]
      simp only [if_true]
      have h1 := (openTreefile_spec w ex.name (!has ex.flags F_READONLY) ex.exportsize a).1
      cases hq : openTreefile w ex.name (!has ex.flags F_READONLY) ex.exportsize a with
      | ub => exact absurd hq h1
      | exit => exact .inr ⟨trivial, rfl⟩
      | val x => exact .inl ⟨_, _, rfl⟩
    · rw [ht]
      simp only [Bool.false_eq_true, if_false]
      obtain ⟨e, he, h1, h2⟩ := bsearch_rooted ex.files a (by rw [hfs]; intro fi h; simp at h; rw [← h])
        0 ((ex.files.length : Int) - 1) (by omega) (by rw [hfs]; simp) (by omega)
      rw [he]
      simp only []
      rw [if_neg (by omega)]
      obtain ⟨fi, hfi⟩ : ∃ fi, ex.files[e.toNat]? = some fi :=
        ⟨_, List.getElem?_eq_getElem (by omega)⟩
      rw [hfi]
      simp only []
      cases ex.files[e.toNat + 1]? with
      | none => exact .inl ⟨_, _, rfl⟩
      | some nx => exact .inl ⟨_, _, rfl⟩

theorem handlePread_short (w : World) (h : Handle) (off n : Nat) (bs : List Byte)
    (hq : (handlePread w h off n).2 = some bs) : bs.length ≤ n := by
  unfold handlePread at hq
  cases h with
  | file id =>
    simp only [] at hq
    unfold sysPread at hq
    split at hq
    · cases hq
    · split at hq
      · cases hq
      · cases hq
        unfold File.pread
        rw [Flat.read_length]
        omega
  | bad => cases hq
  | dummy =>
    simp only [] at hq
    split at hq
    · cases hq
    · cases hq
      unfold File.pread
      rw [Flat.read_length]
      omega

theorem clip_bound (m n : Nat) : clip m n ≤ n := by unfold clip; split <;> omega

theorem rawexpread_rooted {ex : Export} (hr : Rooted ex) (w : World) (a n : Nat) :
    (∃ w' r, rawexpread ex w a n = .val (w', r) ∧ ∀ bs, r = some bs → bs.length ≤ n) ∨
    Quits ex (rawexpread ex w a n) := by
  unfold rawexpread
  rcases getFilepos_rooted hr w a with ⟨w1, r, h⟩ | ⟨ht, h⟩
  · rw [h]
    rcases r with _ | ⟨hd, off, mb⟩
    · exact .inl ⟨_, _, rfl, by simp⟩
    · refine .inl ⟨_, _, rfl, ?_⟩
      intro bs hbs
      have hc := clip_bound mb n
      have := handlePread_short _ _ _ _ _ hbs
      omega
  · rw [h]; exact .inr ⟨ht, rfl⟩

theorem rawexpwrite_rooted {ex : Export} (hr : Rooted ex) (w : World) (a : Nat) (bs : List Byte)
    (fua : Bool) : (∃ w' r, rawexpwrite ex w a bs fua = .val (w', r)) ∨
      Quits ex (rawexpwrite ex w a bs fua) := by
  unfold rawexpwrite
  rcases getFilepos_rooted hr w a with ⟨w1, r, h⟩ | ⟨ht, h⟩
  · rw [h]
    rcases r with _ | ⟨hd, off, mb⟩ <;> exact .inl ⟨_, _, rfl⟩
  · rw [h]; exact .inr ⟨ht, rfl⟩

theorem rawexpwriteFully_rooted {ex : Export} (hr : Rooted ex) (w : World) (a : Nat) (bs : List Byte)
    (fua : Bool) : (∃ w' ok, rawexpwriteFully ex w a bs fua = .val (w', ok)) ∨
      Quits ex (rawexpwriteFully ex w a bs fua) := by
  fun_induction rawexpwriteFully ex w a bs fua with
  | case1 => exact .inl ⟨_, _, rfl⟩
  | case2 w a bs h hq =>
    rcases rawexpwrite_rooted hr w a bs fua with ⟨_, _, h1⟩ | ⟨_, h1⟩ <;> rw [h1] at hq <;> cases hq
  | case3 w a bs h hq =>
    rcases rawexpwrite_rooted hr w a bs fua with ⟨_, _, h1⟩ | ⟨ht, h1⟩
    · rw [h1] at hq; cases hq
    · exact .inr ⟨ht, rfl⟩
  | case4 => exact .inl ⟨_, _, rfl⟩
  | case5 => exact .inl ⟨_, _, rfl⟩
  | case6 w a bs h w1 n hq ih => exact ih

theorem expspliceIn_rooted {ex : Export} (hr : Rooted ex) (w : World) (a n : Nat) (p : List Byte) :
    (∃ r, expspliceIn ex w a n p = .val r) ∨ Quits ex (expspliceIn ex w a n p) := by
  fun_induction expspliceIn ex w a n p with
  | case1 => exact .inl ⟨_, rfl⟩
  | case2 w a n p h hq =>
    rcases rawexpread_rooted hr w a n with ⟨_, _, h1, _⟩ | ⟨_, h1⟩ <;> rw [h1] at hq <;> cases hq
  | case3 w a n p h hq =>
    rcases rawexpread_rooted hr w a n with ⟨_, _, h1, _⟩ | ⟨ht, h1⟩
    · rw [h1] at hq; cases hq
    · exact .inr ⟨ht, rfl⟩
  | case4 => exact .inl ⟨_, rfl⟩
  | case5 => exact .inl ⟨_, rfl⟩
  | case6 w a n p h w1 b bs hq ih => exact ih

theorem expspliceOut_rooted {ex : Export} (hr : Rooted ex) (w : World) (a n : Nat) (p : List Byte)
    (fua : Bool) : (∃ r, expspliceOut ex w a n p fua = .val r) ∨ Quits ex (expspliceOut ex w a n p fua) := by
  fun_induction expspliceOut ex w a n p fua with
  | case1 => exact .inl ⟨_, rfl⟩
  | case2 w a n p h hq =>
    rcases rawexpwrite_rooted hr w a (p.take n) fua with ⟨_, _, h1⟩ | ⟨_, h1⟩ <;> rw [h1] at hq <;> cases hq
  | case3 w a n p h hq =>
    rcases rawexpwrite_rooted hr w a (p.take n) fua with ⟨_, _, h1⟩ | ⟨ht, h1⟩
    · rw [h1] at hq; cases hq
    · exact .inr ⟨ht, rfl⟩
  | case4 => exact .inl ⟨_, rfl⟩
  | case5 => exact .inl ⟨_, rfl⟩
  | case6 w a n p h w1 k hq ih => exact ih

/-- The reply buffer while a read goes on: bytes before `curOff` are filled. -/
structure BufFilling (c : ReadCtx) (total : Nat) : Prop where
  len : c.curOff + c.curLen = total
  size : c.chunked = false → c.buf.length = total
  init : c.chunked = false → ∀ i, i < c.curOff → ∃ b, c.buf[i]? = some (some b)

theorem deliver_filling {c : ReadCtx} {total : Nat} (h : BufFilling c total) (bs : List Byte)
    (hl : bs.length ≤ c.curLen) :
    ∃ c', c.deliver bs = .val c' ∧ c'.structured = c.structured ∧ c'.df = c.df ∧
      BufFilling { c' with curOff := c.curOff + bs.length, curLen := c.curLen - bs.length } total := by
  unfold ReadCtx.deliver
  have hlen := h.len
  cases hc : c.chunked with
  | true =>
    simp only [if_true]
    rw [if_neg (by omega)]
    refine ⟨_, rfl, rfl, rfl, ⟨by simp only []; omega, ?_, ?_⟩⟩
    · intro hf; have : c.chunked = false := hf; rw [hc] at this; cases this
    · intro hf; have : c.chunked = false := hf; rw [hc] at this; cases this
  | false =>
    have hs := h.size hc
    have hi := h.init hc
    simp only [Bool.false_eq_true, if_false]
    rw [if_neg (by omega)]
    refine ⟨_, rfl, rfl, rfl, ⟨by simp only []; omega, ?_, ?_⟩⟩
    · intro _
      simp only [bufSet, List.length_append, List.length_take, List.length_map, List.length_drop]
      omega
    · intro _ i hlt
      simp only [] at hlt
      simp only [bufSet]
      by_cases h1 : i < c.curOff
      · obtain ⟨b, hb⟩ := hi i h1
        refine ⟨b, ?_⟩
        rw [List.append_assoc, List.getElem?_append_left (by simp; omega), List.getElem?_take,
          if_pos h1, hb]
      · refine ⟨bs[i - c.curOff]'(by omega), ?_⟩
        rw [List.append_assoc, List.getElem?_append_right (by simp; omega),
          List.getElem?_append_left (by simp; omega)]
        have hmin : min c.curOff c.buf.length = c.curOff := by omega
        simp only [List.length_take, hmin, List.getElem?_map]
        rw [List.getElem?_eq_getElem (by omega)]
        rfl

theorem rawexpreadFully_rooted {ex : Export} (hr : Rooted ex) (w : World) (c : ReadCtx) (total : Nat)
    (h : BufFilling c total) :
    (∃ w' c' ok, rawexpreadFully ex w c = .val (w', c', ok) ∧ c'.structured = c.structured ∧
      c'.df = c.df ∧ (ok = true → BufFilling c' total ∧ c'.curLen = 0)) ∨
    Quits ex (rawexpreadFully ex w c) := by
  fun_induction rawexpreadFully ex w c with
  | case1 w c h0 => exact .inl ⟨_, _, _, rfl, rfl, rfl, fun _ => ⟨h, h0⟩⟩
  | case2 w c h0 hq =>
    rcases rawexpread_rooted hr w (c.start + c.curOff) c.curLen with ⟨_, _, h1, _⟩ | ⟨_, h1⟩ <;>
      rw [h1] at hq <;> cases hq
  | case3 w c h0 hq =>
    rcases rawexpread_rooted hr w (c.start + c.curOff) c.curLen with ⟨_, _, h1, _⟩ | ⟨ht, h1⟩
    · rw [h1] at hq; cases hq
    · exact .inr ⟨ht, rfl⟩
  | case4 => exact .inl ⟨_, _, _, rfl, rfl, rfl, by simp⟩
  | case5 => exact .inl ⟨_, _, _, rfl, rfl, rfl, by simp⟩
  | case6 w c h0 w1 b bs hq hd =>
    rcases rawexpread_rooted hr w (c.start + c.curOff) c.curLen with ⟨_, _, h1, h2⟩ | ⟨_, h1⟩
    · rw [h1] at hq; cases hq
      obtain ⟨_, h3, _⟩ := deliver_filling h (b :: bs) (h2 _ rfl)
      rw [h3] at hd; cases hd
    · rw [h1] at hq; cases hq
  | case7 w c h0 w1 b bs hq hd => exact absurd hd (deliver_noExit _ _)
  | case8 w c h0 w1 b bs hq c1 hd ih =>
    rcases rawexpread_rooted hr w (c.start + c.curOff) c.curLen with ⟨_, _, h1, h2⟩ | ⟨_, h1⟩
    · rw [h1] at hq; cases hq
      obtain ⟨_, h3, h4, h5, h6⟩ := deliver_filling h (b :: bs) (h2 _ rfl)
      rw [h3] at hd; cases hd
      rcases ih h6 with ⟨w', c', ok, h7, h8, h9, h10⟩ | hx
      · exact .inl ⟨w', c', ok, h7, h8.trans h4, h9.trans h5, h10⟩
      · exact .inr hx
    · rw [h1] at hq; cases hq

theorem allInit_full (buf : List (Option Byte)) (h : ∀ i, i < buf.length → ∃ b, buf[i]? = some (some b)) :
    ∃ data, allInit buf = some data := by
  unfold allInit
  rw [if_pos]
  · exact ⟨_, rfl⟩
  · rw [List.all_eq_true]
    intro x hx
    obtain ⟨i, hi, rfl⟩ := List.getElem_of_mem hx
    obtain ⟨b, hb⟩ := h i hi
    rw [List.getElem?_eq_getElem hi] at hb
    have hb := Option.some.inj hb
    rw [hb]
    rfl

/-- A session without private copies. -/
structure Unpaged (cl : Client) : Prop where
  root : Rooted cl.ex
  paged : cl.paged = false

theorem handleNormalRead_rooted (e : Endian) {cl : Client} (hp : Unpaged cl) (w : World) (r : Req) :
    (∃ x, handleNormalRead e cl w r = .val x) ∨ Quits cl.ex (handleNormalRead e cl w r) := by
  unfold handleNormalRead
  simp only []
  split
  · exact .inl ⟨_, rfl⟩
  · unfold expread
    rw [hp.paged]
    simp only [Bool.false_eq_true, if_false]
    generalize hc : (ReadCtx.mk r.start r.len cl.structured (has r.type CMD_FLAG_DF)
      (if (has r.type CMD_FLAG_DF || !cl.structured) = true then List.replicate r.len none else []) 0
      r.len []) = c
    have hfill : BufFilling c r.len := by
      rw [← hc]
      refine ⟨by simp, ?_, fun _ i hi => absurd hi (Nat.not_lt_zero _)⟩
      intro h
      have h : (cl.structured && !has r.type CMD_FLAG_DF) = false := h
      simp only []
      rw [if_pos]
      · simp
      · cases h1 : cl.structured <;> cases h2 : has r.type CMD_FLAG_DF <;> simp_all
    obtain ⟨w', c', ok, h1, h2, h3, h4⟩ | ⟨ht, h1⟩ := rawexpreadFully_rooted hp.root w c r.len hfill
    rotate_left
    · rw [h1]; exact .inr ⟨ht, rfl⟩
    rw [h1]
    simp only []
    have hcr : ∃ msgs, completeRead e c' r.cookie (if ok = true then none else some (nbdErrno e w'.errno)) =
        .val msgs := by
      unfold completeRead
      cases hst : c'.structured with
      | true =>
        simp only [if_true]
        cases ok <;> exact ⟨_, rfl⟩
      | false =>
        simp only [Bool.false_eq_true, if_false]
        cases ok with
        | false => exact ⟨_, rfl⟩
        | true =>
          obtain ⟨hf, h0⟩ := h4 rfl
          have hch : c'.chunked = false := by unfold ReadCtx.chunked; rw [hst]; rfl
          have hsz := hf.size hch
          have hln := hf.len
          obtain ⟨data, hd⟩ := allInit_full c'.buf (fun i hi => hf.init hch i (by omega))
          simp only [if_true, hd]
          exact ⟨_, rfl⟩
    obtain ⟨msgs, hm⟩ := hcr
    rw [hm]
    exact .inl ⟨_, rfl⟩

theorem handleRead_rooted (e : Endian) {cl : Client} (hp : Unpaged cl) (w : World) (r : Req) :
    (∃ x, handleRead e cl w r = .val x) ∨ Quits cl.ex (handleRead e cl w r) := by
  unfold handleRead
  split
  · have : (∃ x, handleSpliceRead e cl w r = .val x) ∨ Quits cl.ex (handleSpliceRead e cl w r) := by
      unfold handleSpliceRead
      split
      · exact .inl ⟨_, rfl⟩
      · split
        · exact .inl ⟨_, rfl⟩
        · rename_i w1 _
          rcases expspliceIn_rooted hp.root w1 r.start r.len [] with ⟨⟨w2, p, ok⟩, h⟩ | ⟨ht, h⟩
          · rw [h]
            cases ok <;> exact .inl ⟨_, rfl⟩
          · rw [h]; exact .inr ⟨ht, rfl⟩
    rcases this with ⟨⟨w1, m⟩, h⟩ | ⟨ht, h⟩
    · rw [h]
      cases m with
      | none => exact handleNormalRead_rooted e hp w1 r
      | some m => exact .inl ⟨_, rfl⟩
    · rw [h]; exact .inr ⟨ht, rfl⟩
  · exact handleNormalRead_rooted e hp w r

theorem expwrite_rooted {cl : Client} (hp : Unpaged cl) (w : World) (a : Nat) (bs : List Byte)
    (fua : Bool) : (∃ w' ok, expwrite cl w a bs fua = .val (cl, w', ok)) ∨
      Quits cl.ex (expwrite cl w a bs fua) := by
  unfold expwrite
  rw [hp.paged]
  simp only [Bool.false_eq_true, if_false]
  rcases rawexpwriteFully_rooted hp.root w a bs fua with ⟨w', ok, h⟩ | ⟨ht, h⟩
  · rw [h]; exact .inl ⟨_, _, rfl⟩
  · rw [h]; exact .inr ⟨ht, rfl⟩

theorem expwriteZeroes_rooted {cl : Client} (hp : Unpaged cl) (w : World) (a len : Nat) (fua : Bool) :
    (∃ w' ok, expwriteZeroes cl w a len fua = .val (cl, w', ok)) ∨
      Quits cl.ex (expwriteZeroes cl w a len fua) := by
  have hz : 0 < ZEROCHUNK := by decide
  induction len using Nat.strongRecOn generalizing w with
  | _ len ih =>
    unfold expwriteZeroes
    split
    · exact .inl ⟨_, _, rfl⟩
    · simp only []
      rcases expwrite_rooted hp w a (Flat.zeros (min len ZEROCHUNK)) fua with ⟨w', ok, h⟩ | ⟨ht, h⟩
      · rw [h]
        cases ok with
        | false => exact .inl ⟨_, _, rfl⟩
        | true => exact ih _ (by omega) _
      · rw [h]; exact .inr ⟨ht, rfl⟩

theorem trimTree_rooted (ex : Export) (n : Nat) : ∀ (w : World) (pos : Nat), trimTree ex n w pos ≠ .ub := by
  induction n with
  | zero => intro w pos; simp [trimTree]
  | succ n ih =>
    intro w pos
    unfold trimTree
    have h1 : deleteTreefile w ex.name ex.exportsize pos ≠ .ub := by
      unfold deleteTreefile
      split
      · simp
      · split <;> simp
    cases hq : deleteTreefile w ex.name ex.exportsize pos with
    | ub => exact absurd hq h1
    | exit => simp
    | val w' => exact ih _ _

theorem exptrim_rooted {cl : Client} (hp : Unpaged cl) (w : World) (r : Req)
    (hbw : badWrite cl = false) (hr : badRange cl r = false) :
    (∃ w', exptrim cl w r.start r.len = .val w') ∨ Quits cl.ex (exptrim cl w r.start r.len) := by
  unfold badRange at hr
  simp only [Bool.or_eq_false_iff, decide_eq_false_iff_not] at hr
  unfold exptrim
  rw [notReadonly hbw]
  simp only [Bool.false_eq_true, if_false]
  rw [if_neg (by omega)]
  split
  · exact .inl ⟨_, rfl⟩
  · rcases hp.root with ht | ⟨ht, fd, rest, hfs⟩
    · rw [if_pos ht]
      cases hq : trimTree cl.ex ((r.start + r.len) / TREEPAGESIZE - (r.start + TREEPAGESIZE - 1) / TREEPAGESIZE) w
          ((r.start + TREEPAGESIZE - 1) / TREEPAGESIZE * TREEPAGESIZE) with
      | ub => exact absurd hq (trimTree_rooted _ _ _ _)
      | exit => exact .inr ⟨ht, rfl⟩
      | val w' => exact .inl ⟨_, rfl⟩
    · rw [ht, hfs]
      exact .inl ⟨_, rfl⟩

/-- Every request is answered, whatever the layout, unless a tree makes the process exit. -/
theorem handleRequest_rooted (e : Endian) {cl : Client} (hp : Unpaged cl) (w : World) (r : Req)
    (p : Payload) (hpl : p.fits r) :
    (∃ w' msgs, handleRequest e cl w r p = .val (cl, w', msgs)) ∨
    Quits cl.ex (handleRequest e cl w r p) := by
  unfold handleRequest
  simp only [errorReply]
  split
  · exact .inl ⟨_, _, rfl⟩
  · split
    · split
      · exact .inl ⟨_, _, rfl⟩
      · rcases handleRead_rooted e hp w r with ⟨⟨w', m⟩, h⟩ | ⟨ht, h⟩
        · rw [h]; exact .inl ⟨_, _, rfl⟩
        · rw [h]; exact .inr ⟨ht, rfl⟩
    · split
      · rename_i ht
        split
        · exact .inl ⟨_, _, rfl⟩
        · split
          · exact .inl ⟨_, _, rfl⟩
          · unfold handleWrite
            cases p with
            | nothing => exact absurd ht hpl
            | data bs =>
              simp only []
              rcases expwrite_rooted hp w r.start bs (has r.type CMD_FLAG_FUA) with ⟨w', ok, h⟩ | ⟨ht, h⟩
              · rw [h]; exact .inl ⟨_, _, rfl⟩
              · rw [h]; exact .inr ⟨ht, rfl⟩
            | pipe bs =>
              simp only []
              rcases expspliceOut_rooted hp.root w r.start r.len bs (has r.type CMD_FLAG_FUA) with
                ⟨⟨w', ok⟩, h⟩ | ⟨ht, h⟩
              · rw [h]; exact .inl ⟨_, _, rfl⟩
              · rw [h]; exact .inr ⟨ht, rfl⟩
      · split
        · exact .inl ⟨_, _, rfl⟩
        · split
          · split
            · exact .inl ⟨_, _, rfl⟩
            · rename_i hbw
              split
              · exact .inl ⟨_, _, rfl⟩
              · rename_i hr
                unfold handleTrim
                rcases exptrim_rooted hp w r (by simpa using hbw) (by simpa using hr) with ⟨w', h⟩ | ⟨ht, h⟩
                · rw [h]; exact .inl ⟨_, _, rfl⟩
                · rw [h]; exact .inr ⟨ht, rfl⟩
          · split
            · split
              · exact .inl ⟨_, _, rfl⟩
              · split
                · exact .inl ⟨_, _, rfl⟩
                · unfold handleWriteZeroes
                  rcases expwriteZeroes_rooted hp w r.start r.len (has r.type CMD_FLAG_FUA) with
                    ⟨w', ok, h⟩ | ⟨ht, h⟩
                  · rw [h]; exact .inl ⟨_, _, rfl⟩
                  · rw [h]; exact .inr ⟨ht, rfl⟩
            · exact .inl ⟨_, _, rfl⟩

/-- No byte stream crashes a session, whatever the layout, and none stops one on files. -/
theorem mainloop_rooted (e : Endian) (cl : Client) (w : World) (stream : List Byte) (hp : Unpaged cl)
    (hs : cl.tls = false ∨ has cl.ex.flags F_SPLICE = false) :
    (mainloop e cl w stream).ending = .gone ∨ (mainloop e cl w stream).ending = .disconnected ∨
    (has cl.ex.flags F_TREEFILES = true ∧ (mainloop e cl w stream).ending = .exit) := by
  fun_induction mainloop e cl w stream with
  | case1 cl w stream hf =>
    obtain ⟨h1, h2⟩ := (fetch_safe e cl w stream).2.1 hf
    rw [h1, h2] at hs
    simp at hs
  | case2 cl w stream hf => exact absurd hf (fetch_safe e cl w stream).1
  | case3 => exact .inl rfl
  | case4 => exact .inr (.inl rfl)
  | case5 cl w stream w1 r p rest hf hq =>
    obtain ⟨h1, h2⟩ := (fetch_safe e cl w stream).2.2 _ _ _ _ hf
    rcases handleRequest_rooted e hp w1 r p h2 with ⟨_, _, h⟩ | ⟨_, h⟩ <;> rw [h] at hq <;> cases hq
  | case6 cl w stream w1 r p rest hf hq =>
    obtain ⟨h1, h2⟩ := (fetch_safe e cl w stream).2.2 _ _ _ _ hf
    rcases handleRequest_rooted e hp w1 r p h2 with ⟨_, _, h⟩ | ⟨ht, h⟩
    · rw [h] at hq; cases hq
    · exact .inr (.inr ⟨ht, rfl⟩)
  | case7 cl w stream w1 r p rest hf cl' w' msgs hq ih =>
    obtain ⟨h1, h2⟩ := (fetch_safe e cl w stream).2.2 _ _ _ _ hf
    rcases handleRequest_rooted e hp w1 r p h2 with ⟨_, _, h⟩ | ⟨_, h⟩
    · rw [h] at hq; cases hq
      exact ih hp hs
    · rw [h] at hq; cases hq

/-! ### `setupexport` roots the array -/

theorem openLoop_rooted (multi : Bool) (expected : Nat) (ps : List ProbeFile) :
    ∀ (i flags : Nat) (acc : List FileInfo) (lso ls : Nat) (fl : Nat) (fs : List FileInfo) (a b : Nat),
      openLoop multi expected ps i flags acc lso ls = some (fl, fs, a, b) →
      ((i = 0 ∧ acc = [] ∧ lso = 0 ∧ ls = 0) ∨ ∃ fd rest, acc = ⟨fd, 0⟩ :: rest) →
      (∃ fd rest, fs = ⟨fd, 0⟩ :: rest) := by
  induction ps with
  | nil =>
    intro i flags acc lso ls fl fs a b h hi
    unfold openLoop at h
    split at h
    · rename_i hm
      cases h
      rcases hi with ⟨h0, _⟩ | hi
      · subst h0; simp at hm
      · exact hi
    · cases h
  | cons p ps ih =>
    intro i flags acc lso ls fl fs a b h hi
    have hacc : ∃ fd rest, acc ++ [⟨p.fd, (lso + ls) % 2 ^ 64⟩] = (⟨fd, 0⟩ : FileInfo) :: rest := by
      rcases hi with ⟨_, rfl, rfl, rfl⟩ | ⟨fd, rest, rfl⟩
      · exact ⟨p.fd, [], rfl⟩
      · exact ⟨fd, _, rfl⟩
    unfold openLoop at h
    simp only [] at h
    split at h
    · split at h
      · rename_i hm
        cases h
        rcases hi with ⟨h0, _⟩ | hi
        · subst h0; simp at hm
        · exact hi
      · cases h
    · split at h
      · cases h; exact hacc
      · split at h
        · cases h; exact hacc
        · exact ih _ _ _ _ _ _ _ _ _ h (.inr hacc)

theorem setupExport_rooted {flags expected : Nat} {name : List Char} {probes : List ProbeFile}
    {ex : Export} (h : setupExport flags expected name probes = some ex)
    (ht : has flags F_TREEFILES = false) (hw : has flags F_WAIT = false) :
    ∃ fd rest, ex.files = ⟨fd, 0⟩ :: rest := by
  unfold setupExport at h
  rw [ht, hw] at h
  simp only [Bool.or_self, Bool.false_eq_true, if_false] at h
  split at h
  · cases h
  · rename_i fl fs a b hq
    have := openLoop_rooted _ _ _ _ _ _ _ _ _ _ _ _ hq (.inl ⟨rfl, rfl, rfl, rfl⟩)
    split at h
    · split at h
      · cases h
      · cases h; exact this
    · cases h; exact this

end Nbd
