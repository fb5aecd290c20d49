import Verif.RequestLemmas
/-! # Requests on a plain export (no page map) refine a flat array -/

namespace Nbd

/-- A session on an export whose layout is sound and that does not use the page map. -/
structure Plain (cl : Client) : Prop where
  good : GoodExport cl.ex
  paged : cl.paged = false

/-- A request header as it comes off the wire. -/
structure Req.Wf (r : Req) : Prop where
  type : r.type < 2 ^ 32
  cookie : r.cookie.length = 8
  start : r.start < 2 ^ 64
  len : r.len < 2 ^ 32

theorem inRange {cl : Client} {r : Req} (hg : GoodExport cl.ex) (hr : r.len < 2 ^ 32)
    (h : badRange cl r = false) : r.start + r.len ≤ cl.ex.exportsize := by
  have := hg.size
  unfold badRange at h
  simp only [gt_iff_lt, Bool.or_eq_false_iff, decide_eq_false_iff_not, Nat.not_lt] at h
  omega

/-! ### Reads -/

theorem SameContent.of_step (w : World) : SameContent w w.step := fun _ => rfl
theorem SameContent.of_fail (w : World) (e : Nat) : SameContent w (w.fail e) := fun _ => rfl

theorem bufSet_all (n : Nat) (bs : List Byte) (h : bs.length = n) :
    bufSet (List.replicate n none) 0 bs = bs.map some := by
  simp [bufSet, h]

theorem Tiles_take_aux (v : Flat) (start n len : Nat) (h : n ≤ len) :
    v.read start n = (v.read start len).take n := by
  rw [Flat.read_take, Nat.min_eq_left h]

theorem tiles_offsets {start : Nat} {cs : List (Nat × List Byte)} {data : List Byte}
    (h : Spec.Tiles start cs data) : ∀ x ∈ cs, x.1 ≤ start + data.length := by
  induction h with
  | nil => simp
  | cons start bs cs data hne hmax h ih =>
    intro x hx
    rw [List.mem_cons] at hx
    rcases hx with rfl | hx
    · simp
    · have := ih x hx
      simp only [List.length_append]
      omega

theorem map_mod_id (cs : List (Nat × List Byte)) (h : ∀ x ∈ cs, x.1 < 2 ^ 64) :
    cs.map (fun x => (x.1 % 2 ^ 64, x.2)) = cs := by
  conv => rhs; rw [← List.map_id cs]
  apply List.map_congr_left
  intro x hx
  rw [Nat.mod_eq_of_lt (h x hx)]
  rfl

theorem errnoWire_toNat_mem (c : Nat) : (errnoWire c).toNat ∈ Spec.errnos := by
  have := errnoWire_mem c
  simp only [List.mem_cons, List.not_mem_nil, or_false] at this
  rcases this with h | h | h | h | h <;> rw [h] <;> decide

theorem handleNormalRead_plain (e : Endian) (cl : Client) (hp : Plain cl) (w w' : World) (r : Req)
    (msgs : List Msg) (hdf : has r.type CMD_FLAG_DF = false)
    (hrange : r.start + r.len ≤ cl.ex.exportsize)
    (h : handleNormalRead e cl w r = .val (w', msgs)) :
    SameContent w w' ∧ ∃ rs, Encodes msgs rs ∧
      (Spec.ReadAnswer r.cookie r.start ((view cl.ex w).read r.start r.len) cl.structured rs ∨
       Spec.ReadFailure r.cookie r.start ((view cl.ex w).read r.start r.len) cl.structured rs) := by
  obtain ⟨c', ok, hq, hx⟩ := handleNormalRead_replies e cl w w' r msgs hdf h
  unfold expread at hq
  rw [hp.paged] at hq
  simp only [Bool.false_eq_true, if_false] at hq
  have hsz := hp.good.size
  obtain ⟨hsame, n, hdel, hok⟩ := (rawexpreadFully_spec cl.ex hp.good w (initCtx cl r)
    (by simp [initCtx]; omega)
    (by intro hc; simp [initCtx, ReadCtx.chunked] at hc ⊢; simp [hc])).2 w' c' ok hq
  refine ⟨hsame, ?_⟩
  have hnle := hdel.le
  obtain ⟨cs, k1, k2, k3⟩ := hdel.chunks
  simp only [initCtx, List.nil_append, Nat.add_zero] at k1 k2 k3 hnle
  cases ok with
  | true =>
    have hn : n = r.len := hok rfl
    subst hn
    rw [if_pos rfl] at hx
    rcases hx with ⟨hst, hx⟩ | ⟨hst, data, hi, hl, hx⟩
    · have htile := k3 (by simp [ReadCtx.chunked, hst])
      refine ⟨_, hx, .inl ?_⟩
      rw [hst, map_mod_chunks, k1, map_mod_id]
      · exact .structured cs htile
      · intro x hxm
        have := tiles_offsets htile x hxm
        rw [Flat.read_length] at this
        omega
    · refine ⟨_, hx, .inl ?_⟩
      have hb := hdel.buf (by simp [ReadCtx.chunked, initCtx, hst])
      simp only [initCtx, hst, Nat.add_zero, Bool.not_false, if_true] at hb
      rw [bufSet_all _ _ (by simp)] at hb
      rw [hb, allInit_map] at hi
      cases hi
      rw [hst]
      exact .simple
  | false =>
    rw [if_neg (by simp)] at hx
    rcases hx with ⟨hst, hx⟩ | ⟨hst, hx⟩
    · have htile := k3 (by simp [ReadCtx.chunked, hst])
      refine ⟨_, hx, .inr ?_⟩
      rw [hst, map_mod_chunks, k1, map_mod_id]
      · rw [Tiles_take_aux _ _ _ _ hnle] at htile
        exact .structured n _ cs htile (errnoWire_toNat_mem _) _ (by simp [readFailed, store16_length])
      · intro x hxm
        have := tiles_offsets htile x hxm
        rw [Flat.read_length] at this
        omega
    · refine ⟨_, hx, .inr ?_⟩
      rw [hst]
      exact .simple _ (errnoWire_toNat_mem _)

theorem mkpipe_same (w : World) (len : Nat) : SameContent w (mkpipe w len).1 := by
  unfold mkpipe
  split
  · exact .refl w
  · split
    · exact .of_fail w _
    · exact .of_step w

theorem expspliceIn_spec (ex : Export) (hg : GoodExport ex) (w : World) (a len : Nat)
    (pipe : List Byte) (hr : a + len ≤ ex.exportsize) :
    expspliceIn ex w a len pipe ≠ .ub ∧
    ∀ w' out ok, expspliceIn ex w a len pipe = .val (w', out, ok) →
      SameContent w w' ∧ (ok = true → out = pipe ++ (view ex w).read a len) := by
  fun_induction expspliceIn ex w a len pipe with
  | case1 w a pipe =>
    refine ⟨by simp, ?_⟩
    intro w' out ok h
    cases h
    exact ⟨.refl _, by simp⟩
  | case2 w a len pipe hl hq => exact absurd hq (rawexpread_spec ex hg w a len hr (by omega)).1
  | case3 => simp
  | case4 w a len pipe hl w1 hq =>
    refine ⟨by simp, ?_⟩
    intro w' out ok h
    cases h
    exact ⟨((rawexpread_spec ex hg w a len hr (by omega)).2 _ _ hq).1, by simp⟩
  | case5 w a len pipe hl w1 hq =>
    refine ⟨by simp, ?_⟩
    intro w' out ok h
    cases h
    exact ⟨((rawexpread_spec ex hg w a len hr (by omega)).2 _ _ hq).1, by simp⟩
  | case6 w a len pipe hl w1 b bs hq ih =>
    obtain ⟨hs, hb⟩ := (rawexpread_spec ex hg w a len hr (by omega)).2 _ _ hq
    obtain ⟨hle, hbs⟩ := hb _ rfl
    obtain ⟨hub, hih⟩ := ih (by omega)
    refine ⟨hub, ?_⟩
    intro w' out ok h
    obtain ⟨h1, h2⟩ := hih w' out ok h
    refine ⟨hs.trans h1, fun hok => ?_⟩
    rw [h2 hok, hs.view ex, List.append_assoc]
    congr 1
    generalize b :: bs = xs at *
    rw [hbs, Flat.read_length, ← Flat.read_add]
    congr 1
    omega

theorem handleSpliceRead_same (e : Endian) (cl : Client) (hg : GoodExport cl.ex) (w w' : World)
    (r : Req) (o : Option (List Msg)) (hrange : r.start + r.len ≤ cl.ex.exportsize)
    (h : handleSpliceRead e cl w r = .val (w', o)) :
    SameContent w w' ∧
    ∀ msgs, o = some msgs →
      Encodes msgs [.simple 0 r.cookie ((view cl.ex w).read r.start r.len)] := by
  unfold handleSpliceRead at h
  split at h
  · cases h; exact ⟨.refl _, by simp⟩
  · have hm := mkpipe_same w r.len
    split at h
    · rename_i w1 hm1
      cases h
      rw [hm1] at hm
      exact ⟨hm, by simp⟩
    · rename_i w1 hm1
      rw [hm1] at hm
      simp only at hm
      have hsp := (expspliceIn_spec cl.ex hg w1 r.start r.len [] hrange).2
      split at h
      · cases h
      · cases h
      · rename_i hq
        cases h
        exact ⟨hm.trans (hsp _ _ _ hq).1, by simp⟩
      · rename_i hq
        cases h
        obtain ⟨h1, h2⟩ := hsp _ _ _ hq
        refine ⟨hm.trans h1, ?_⟩
        intro msgs hms
        cases hms
        rw [h2 rfl, hm.view cl.ex]
        unfold Encodes
        simp [simple_bytes_zero]

/-- Reads never change anything stored, and answer with the export's bytes. A spliced read is
answered with a simple reply even in structured mode; on an encrypted session nothing is spliced. -/
theorem handleRead_plain (e : Endian) (cl : Client) (hp : Plain cl) (w w' : World) (r : Req)
    (msgs : List Msg) (hdf : has r.type CMD_FLAG_DF = false)
    (hrange : r.start + r.len ≤ cl.ex.exportsize)
    (h : handleRead e cl w r = .val (w', msgs)) :
    SameContent w w' ∧ ∃ rs, Encodes msgs rs ∧
      ((Spec.ReadAnswer r.cookie r.start ((view cl.ex w).read r.start r.len) cl.structured rs ∨
        Spec.ReadFailure r.cookie r.start ((view cl.ex w).read r.start r.len) cl.structured rs) ∨
       (has cl.ex.flags F_SPLICE = true ∧ cl.tls = false ∧ cl.structured = true ∧
        Spec.ReadAnswer r.cookie r.start ((view cl.ex w).read r.start r.len) false rs)) := by
  rcases handleRead_cases _ _ _ _ _ _ h with ⟨w1, hn, hc⟩ | ⟨hs, hs2⟩
  · have hsame : SameContent w w1 := by
      rcases hc with ⟨_, rfl⟩ | ⟨_, hs⟩
      · exact .refl _
      · exact (handleSpliceRead_same e cl hp.good _ _ r _ hrange hs).1
    obtain ⟨h1, rs, h2, h3⟩ := handleNormalRead_plain e cl hp w1 w' r msgs hdf hrange hn
    rw [hsame.view cl.ex] at h3
    exact ⟨hsame.trans h1, rs, h2, .inl h3⟩
  · obtain ⟨h1, h2⟩ := handleSpliceRead_same e cl hp.good _ _ r _ hrange hs2
    refine ⟨h1, _, h2 _ rfl, ?_⟩
    cases hst : cl.structured with
    | false => left; left; exact .simple
    | true => right; exact ⟨hs, (handleSpliceRead_cases _ _ _ _ _ _ hs2).1, rfl, .simple⟩

/-! ### Writes -/

theorem expspliceOut_spec (ex : Export) (hg : GoodExport ex) (w : World) (a len : Nat)
    (pipe : List Byte) (fua : Bool) (hl : pipe.length = len) (hr : a + len ≤ ex.exportsize)
    (hw : has ex.flags F_READONLY = false) :
    expspliceOut ex w a len pipe fua ≠ .ub ∧
    ∀ w' ok, expspliceOut ex w a len pipe fua = .val (w', ok) →
      ∃ n, n ≤ len ∧ Stored ex w w' a (pipe.take n) ∧ (ok = true → n = len) := by
  fun_induction expspliceOut ex w a len pipe fua with
  | case1 w a pipe =>
    refine ⟨by simp, ?_⟩
    intro w' ok h
    cases h
    exact ⟨0, by omega, by simpa using Stored.nil (SameContent.refl w) a, by simp⟩
  | case2 w a len pipe h hq =>
    have htl : (pipe.take len).length = len := by rw [List.length_take]; omega
    exact absurd hq (rawexpwrite_spec ex hg w a (pipe.take len) fua (by omega) (by omega) hw).1
  | case3 => simp
  | case4 w a len pipe h w1 hq =>
    have htl : (pipe.take len).length = len := by rw [List.length_take]; omega
    have hsp := (rawexpwrite_spec ex hg w a (pipe.take len) fua (by omega) (by omega) hw).2 _ _ hq
    refine ⟨by simp, ?_⟩
    intro w' ok heq
    cases heq
    exact ⟨0, by omega, by simpa using Stored.nil (hsp.1 rfl) a, by simp⟩
  | case5 w a len pipe h w1 hq =>
    have htl : (pipe.take len).length = len := by rw [List.length_take]; omega
    have hsp := (rawexpwrite_spec ex hg w a (pipe.take len) fua (by omega) (by omega) hw).2 _ _ hq
    refine ⟨by simp, ?_⟩
    intro w' ok heq
    cases heq
    exact ⟨0, by omega, by simpa using (hsp.2 0 rfl).2, by simp⟩
  | case6 w a len pipe h w1 n hq ih =>
    have htl : (pipe.take len).length = len := by rw [List.length_take]; omega
    have hsp := (rawexpwrite_spec ex hg w a (pipe.take len) fua (by omega) (by omega) hw).2 _ _ hq
    obtain ⟨hle, hst⟩ := hsp.2 (n + 1) rfl
    have hdl : (pipe.drop (n + 1)).length = len - (n + 1) := by rw [List.length_drop, hl]
    obtain ⟨hub, hih⟩ := ih hdl (by omega)
    refine ⟨hub, ?_⟩
    intro w' ok heq
    obtain ⟨m, hm, hst2, hok⟩ := hih w' ok heq
    refine ⟨n + 1 + m, by omega, ?_, fun h => by have := hok h; omega⟩
    have h1 : (pipe.take len).take (n + 1) = pipe.take (n + 1) := by
      rw [List.take_take]; congr 1; omega
    rw [h1] at hst
    have htl2 : (pipe.take (n + 1)).length = n + 1 := by rw [List.length_take]; omega
    have hdm : ((pipe.drop (n + 1)).take m).length = m := by rw [List.length_take]; omega
    have hst3 : Stored ex w1 w' (a + (pipe.take (n + 1)).length) ((pipe.drop (n + 1)).take m) := by
      rw [htl2]; exact hst2
    have := Stored.append hg (by rw [htl2, hdm]; omega) hst hst3
    rwa [← List.take_add] at this

/-- The payload that belongs to a request. -/
def Payload.fits (r : Req) : Payload → Prop
  | .nothing => r.type % 65536 ≠ 1
  | .data bs => bs.length = r.len
  | .pipe bs => bs.length = r.len

/-- The payload bytes. -/
def Payload.bytes : Payload → List Byte
  | .nothing => []
  | .data bs => bs
  | .pipe bs => bs

theorem notReadonly {cl : Client} (h : badWrite cl = false) : has cl.ex.flags F_READONLY = false := by
  unfold badWrite at h
  rw [Bool.or_eq_false_iff] at h
  exact h.1

theorem expwrite_plain (cl : Client) (hp : Plain cl) (w : World) (a : Nat) (bs : List Byte)
    (fua : Bool) (hr : a + bs.length ≤ cl.ex.exportsize) (hw : has cl.ex.flags F_READONLY = false) :
    expwrite cl w a bs fua ≠ .ub ∧
    ∀ cl' w' ok, expwrite cl w a bs fua = .val (cl', w', ok) → cl' = cl ∧
      ∃ n, n ≤ bs.length ∧ Stored cl.ex w w' a (bs.take n) ∧ (ok = true → n = bs.length) := by
  obtain ⟨h1, h2⟩ := rawexpwriteFully_spec cl.ex hp.good w a bs fua hr hw
  unfold expwrite
  rw [hp.paged]
  simp only [Bool.false_eq_true, if_false]
  cases hq : rawexpwriteFully cl.ex w a bs fua with
  | ub => exact absurd hq h1
  | exit => simp
  | val p =>
    obtain ⟨w1, ok1⟩ := p
    simp only []
    refine ⟨by simp, ?_⟩
    intro cl' w' ok h
    cases h
    exact ⟨rfl, h2 _ _ hq⟩

theorem handleWrite_plain (e : Endian) (cl cl' : Client) (hp : Plain cl) (w w' : World) (r : Req)
    (p : Payload) (hpl : p.fits r) (msgs : List Msg) (hrange : r.start + r.len ≤ cl.ex.exportsize)
    (hw : badWrite cl = false) (h : handleWrite e cl w r p = .val (cl', w', msgs)) :
    cl' = cl ∧ ∃ n, n ≤ r.len ∧ Stored cl.ex w w' r.start (p.bytes.take n) ∧
      ((n = r.len ∧ Encodes msgs [.simple 0 r.cookie []]) ∨
       (∃ err ∈ Spec.errnos, Encodes msgs [.simple err r.cookie []])) := by
  have hro := notReadonly hw
  obtain ⟨ok, rfl, hc⟩ := handleWrite_cases _ _ _ _ _ _ _ _ h
  have key : ∀ n, (ok = true → n = r.len) →
      ((n = r.len ∧ Encodes [simpleMsg e r (resultOf e w' ok)] [.simple 0 r.cookie []]) ∨
       (∃ err ∈ Spec.errnos,
        Encodes [simpleMsg e r (resultOf e w' ok)] [.simple err r.cookie []])) := by
    intro n hn
    rw [resultOf_eq]
    cases ok with
    | true => left; exact ⟨hn rfl, simpleMsg_encodes e r none⟩
    | false =>
      right
      exact ⟨_, errnoWire_toNat_mem w'.errno, simpleMsg_encodes e r (some _)⟩
  rcases hc with ⟨bs, rfl, hq⟩ | ⟨bs, rfl, rfl, hq⟩
  · have hl : bs.length = r.len := hpl
    obtain ⟨rfl, n, hn, hst, hok⟩ := (expwrite_plain cl hp w r.start bs _ (by omega) hro).2 _ _ _ hq
    refine ⟨rfl, n, by omega, hst, key n (fun h => by have := hok h; omega)⟩
  · have hl : bs.length = r.len := hpl
    obtain ⟨n, hn, hst, hok⟩ :=
      (expspliceOut_spec cl'.ex hp.good w r.start r.len bs _ hl hrange hro).2 _ _ hq
    exact ⟨rfl, n, hn, hst, key n hok⟩

/-! ### Zeroes -/

theorem Stored.overwrite {ex : Export} (hg : GoodExport ex) {w w1 w2 : World} {a : Nat}
    {xs ys : List Byte} (hx : a + xs.length ≤ ex.exportsize) (hy : a + ys.length ≤ ex.exportsize)
    (hle : ys.length ≤ xs.length) (heq : ys = xs.take ys.length)
    (h1 : Stored ex w w1 a xs) (h2 : Stored ex w1 w2 a ys) : Stored ex w w2 a xs := by
  constructor
  · intro k hk
    obtain ⟨x, hx1, hx2⟩ := h1.inside k hk
    refine ⟨x, hx1, ?_⟩
    by_cases hky : k < ys.length
    · obtain ⟨y, hy1, hy2⟩ := h2.inside k hky
      rw [hx1] at hy1
      cases hy1
      rw [hy2]
      have : ys[k]? = (xs.take ys.length)[k]? := by rw [← heq]
      rw [List.getElem?_take_of_lt hky, List.getElem?_eq_getElem hk,
        List.getElem?_eq_getElem hky] at this
      exact Option.some.inj this
    · rw [h2.outside x, hx2]
      intro j hj hjx
      have := home_inj ex hg _ _ (by omega) (by omega) x hx1 hjx
      omega
  · intro x hx'
    rw [h2.outside x, h1.outside x hx']
    intro k hk
    exact hx' k (by omega)

theorem zeros_take (n k : Nat) : (Flat.zeros n).take k = Flat.zeros (min k n) := by
  simp [Flat.zeros]

/-- `expwrite_zeroes` on a plain export: on success exactly the first `min len 64MiB` bytes of
the range are zero; on failure a prefix of them is. -/
theorem expwriteZeroes_plain (cl : Client) (hp : Plain cl) (w : World) (a len : Nat) (fua : Bool)
    (hr : a + len ≤ cl.ex.exportsize) (hw : has cl.ex.flags F_READONLY = false) :
    expwriteZeroes cl w a len fua ≠ .ub ∧
    ∀ cl' w' ok, expwriteZeroes cl w a len fua = .val (cl', w', ok) → cl' = cl ∧
      ∃ n, n ≤ min len ZEROCHUNK ∧ Stored cl.ex w w' a (Flat.zeros n) ∧
        (ok = true → n = min len ZEROCHUNK) := by
  have hz : 0 < ZEROCHUNK := by decide
  induction len using Nat.strongRecOn generalizing w with
  | _ len ih =>
  unfold expwriteZeroes
  split
  · rename_i h0
    refine ⟨by simp, ?_⟩
    intro cl' w' ok h
    cases h
    exact ⟨rfl, 0, by omega, Stored.nil (.refl _) a, by omega⟩
  · rename_i h0
    simp only []
    obtain ⟨h1, h2⟩ := expwrite_plain cl hp w a (Flat.zeros (min len ZEROCHUNK)) fua
      (by simp only [Flat.zeros_length]; omega) hw
    cases hq : expwrite cl w a (Flat.zeros (min len ZEROCHUNK)) fua with
    | ub => exact absurd hq h1
    | exit => simp
    | val p =>
      obtain ⟨cl1, w1, ok1⟩ := p
      obtain ⟨rfl, n, hn, hst, hok⟩ := h2 _ _ _ hq
      rw [zeros_take] at hst
      simp only [Flat.zeros_length] at hn hok
      cases ok1 with
      | false =>
        simp only []
        refine ⟨by simp, ?_⟩
        intro cl' w' ok h
        cases h
        exact ⟨rfl, _, by omega, hst, by simp⟩
      | true =>
        simp only []
        have hn' := hok rfl
        subst hn'
        rw [Nat.min_self] at hst
        obtain ⟨h3, h4⟩ := ih (len - min len ZEROCHUNK) (by omega) w1 (by omega)
        refine ⟨h3, ?_⟩
        intro cl' w' ok h
        obtain ⟨rfl, m, hm, hst2, hok2⟩ := h4 _ _ _ h
        refine ⟨rfl, min len ZEROCHUNK, Nat.le_refl _, ?_, fun _ => rfl⟩
        apply Stored.overwrite hp.good _ _ _ _ hst hst2
        · simp only [Flat.zeros_length]; omega
        · simp only [Flat.zeros_length]; omega
        · simp only [Flat.zeros_length]; omega
        · rw [zeros_take, Flat.zeros_length]
          congr 1
          omega

/-! ### Flush -/

theorem sysFsync_same (w : World) (id : FileId) : SameContent w (sysFsync w id).1 :=
  handleSyncIgnored_content w (.file id)

theorem flushFiles_same (fs : List FileInfo) (w : World) : SameContent w (flushFiles fs w).1 := by
  induction fs generalizing w with
  | nil => exact .refl _
  | cons f fs ih =>
    unfold flushFiles
    have := sysFsync_same w (.fd f.fhandle)
    split
    · rename_i hq; rw [hq] at this; exact this
    · rename_i hq; rw [hq] at this; exact this.trans (ih _)

theorem expflush_same (cl : Client) (w : World) : SameContent w (expflush cl w).1 := by
  unfold expflush
  split
  · exact sysFsync_same _ _
  · split
    · exact sysFsync_same _ _
    · split
      · split
        · exact .refl _
        · intro x
          simp only [content]
          cases w.files x.1 with
          | none => rfl
          | some f => rfl
      · exact flushFiles_same _ _

/-! ### Trim -/

/-- What a trim may do: every stored byte keeps its value, or becomes zero and then, if it is a
byte of the export at all, lies inside the range. -/
def Trimmed (ex : Export) (start len : Nat) (w w' : World) : Prop :=
  ∀ x, content w' x = content w x ∨
    (content w' x = 0 ∧ ∀ a, a < ex.exportsize → home ex a = some x → start ≤ a ∧ a < start + len)

theorem Trimmed.refl (ex : Export) (start len : Nat) (w : World) : Trimmed ex start len w w :=
  fun _ => .inl rfl

theorem Trimmed.trans {ex : Export} {start len : Nat} {w1 w2 w3 : World}
    (h1 : Trimmed ex start len w1 w2) (h2 : Trimmed ex start len w2 w3) :
    Trimmed ex start len w1 w3 := by
  intro x
  rcases h2 x with h | h
  · rcases h1 x with h' | h'
    · left; rw [h, h']
    · right; rw [h]; exact h'
  · right; exact h

theorem punchHole_trimmed (ex : Export) (hd : ex.files.Pairwise (fun f g => f.fhandle ≠ g.fhandle))
    (ht : has ex.flags F_TREEFILES = false) (w : World) (fi : FileInfo) (hfi : fi ∈ ex.files)
    (start len : Nat) (reqlen : Int) (hs : fi.startoff ≤ start) (hl : reqlen ≤ len) :
    Trimmed ex start len w (punchHole w (.fd fi.fhandle) ((start : Int) - fi.startoff) reqlen) := by
  unfold punchHole
  split
  · exact fun _ => .inl rfl
  · rename_i hneg
    split
    · exact fun _ => .inl rfl
    · rename_i f hf
      split
      · exact fun _ => .inl rfl
      · intro x
        obtain ⟨id, o⟩ := x
        simp only []
        rw [content_set]
        split
        · rename_i hid
          simp only at hid
          subst hid
          simp only [File.pwrite, Flat.write_apply, Flat.zeros_length]
          split
          · rename_i hin
            right
            refine ⟨by simp [Flat.zeros], ?_⟩
            intro a ha hhome
            unfold home at hhome
            rw [ht] at hhome
            simp only [Bool.false_eq_true, if_false, Option.map_eq_some_iff, Prod.mk.injEq,
              FileId.fd.injEq, Prod.exists] at hhome
            obtain ⟨fj, nx, hloc, hfd, ho⟩ := hhome
            obtain ⟨j, hj, hle, _, _⟩ := locate_index _ _ _ _ hloc
            have hjeq : fj = fi := by
              rw [List.mem_iff_getElem?] at hfi
              obtain ⟨i, hi⟩ := hfi
              rcases Nat.lt_trichotomy i j with hij | hij | hij
              · have := pairwise_getElem? hd hij hi hj
                exact absurd hfd.symm this
              · subst hij
                rw [hi] at hj
                cases hj; rfl
              · have := pairwise_getElem? hd hij hj hi
                exact absurd hfd this
            subst hjeq
            obtain ⟨h1, h2⟩ := hin
            omega
          · left
            simp [content, hf]
        · left
          rfl

theorem trimFiles_trimmed (ex : Export) (hd : ex.files.Pairwise (fun f g => f.fhandle ≠ g.fhandle))
    (ht : has ex.flags F_TREEFILES = false) (start len : Nat) (n : Nat) (w : World)
    (cur : FileInfo) (hcur : cur ∈ ex.files) (i : Nat) :
    Trimmed ex start len w (trimFiles ex.files ex.exportsize start len n w cur i) := by
  induction n generalizing w cur i with
  | zero => exact .refl _ _ _ _
  | succ n ih =>
    have hstep : Trimmed ex start len w (trimOne ex.files ex.exportsize start len w cur i) := by
      unfold trimOne
      simp only []
      split <;> split
      all_goals first
        | exact .refl _ _ _ _
        | (rename_i hc
           apply punchHole_trimmed ex hd ht w cur hcur start len _ hc.1
           split <;> omega)
    unfold trimFiles
    split
    · exact hstep
    · rename_i nx hnx
      split
      · exact hstep.trans (ih _ _ (List.mem_of_getElem? hnx) _)
      · exact hstep

theorem content_remove (w : World) (p : List Char) (x : FileId × Nat) :
    content (w.remove p) x = if x.1 = .path p then 0 else content w x := by
  unfold content World.remove
  by_cases h : x.1 = .path p <;> simp [h]

theorem trimTree_trimmed (ex : Export) (ht : has ex.flags F_TREEFILES = true) (start len : Nat)
    (n : Nat) (w : World) (pos : Nat) (hpos : pos % TREEPAGESIZE = 0) (hs : start ≤ pos)
    (hend : n = 0 ∨ pos + n * TREEPAGESIZE ≤ start + len) (hsz : start + len ≤ ex.exportsize) :
    trimTree ex n w pos ≠ .ub ∧
    ∀ w', trimTree ex n w pos = .val w' → Trimmed ex start len w w' := by
  induction n generalizing w pos with
  | zero =>
    refine ⟨by simp [trimTree], ?_⟩
    intro w' h
    cases h
    exact .refl _ _ _ _
  | succ n ih =>
    have hend' : pos + (n + 1) * TREEPAGESIZE ≤ start + len := by
      rcases hend with h | h
      · omega
      · exact h
    simp only [TREEPAGESIZE] at hend' hpos
    unfold trimTree
    unfold deleteTreefile
    cases htf : treeFilename ex.name ex.exportsize pos with
    | none => simp
    | some p =>
      have hstep : ∀ w1 : World, SameContent w w1 →
          Trimmed ex start len w (w1.remove p) := by
        intro w1 hs1 x
        rw [content_remove]
        split
        · rename_i hid
          right
          refine ⟨rfl, ?_⟩
          intro a ha hhome
          unfold home at hhome
          rw [ht] at hhome
          simp only [if_true, Option.map_eq_some_iff] at hhome
          obtain ⟨q, hq, hx⟩ := hhome
          rw [← hx] at hid
          cases hid
          have := (treeFilename_eq_iff ex.name ex.exportsize pos a (by omega) ha p htf).mp hq
          omega
        · left
          exact hs1 x
      have hih := fun w1 => ih w1 (pos + TREEPAGESIZE) (by simp only [TREEPAGESIZE]; omega)
        (by simp only [TREEPAGESIZE]; omega) (by right; simp only [TREEPAGESIZE]; omega)
      simp only []
      cases hn : w.next with
      | err e =>
        simp only []
        obtain ⟨h1, h2⟩ := hih (w.fail e)
        refine ⟨h1, ?_⟩
        intro w' h
        exact h2 w' h
      | done k =>
        simp only []
        obtain ⟨h1, h2⟩ := hih (w.step.remove p)
        refine ⟨h1, ?_⟩
        intro w' h
        exact (hstep w.step (.of_step w)).trans (h2 w' h)

/-- A trim that is carried out, whatever the layout. -/
theorem exptrim_val_trimmed (cl : Client) (hd : has cl.ex.flags F_TREEFILES = false → cl.ex.files.Pairwise (fun f g => f.fhandle ≠ g.fhandle))
    (w : World) (start len : Nat) (hr : start + len ≤ cl.ex.exportsize) :
    ∀ w', exptrim cl w start len = .val w' → Trimmed cl.ex start len w w' := by
  unfold exptrim
  split
  · simp
  · split
    · simp
    · split
      · intro w' h; cases h; exact .refl _ _ _ _
      · split
        · rename_i ht
          simp only []
          refine (trimTree_trimmed cl.ex ht start len _ _ _ ?_ ?_ ?_ ?_).2
          · simp [TREEPAGESIZE]
          · simp only [TREEPAGESIZE]; omega
          · simp only [TREEPAGESIZE]; omega
          · exact hr
        · rename_i ht
          have ht' : has cl.ex.flags F_TREEFILES = false := by simpa using ht
          split
          · simp
          · rename_i cur rest hcons
            intro w' h
            cases h
            exact trimFiles_trimmed cl.ex (hd ht') ht' start len _ w cur (by rw [hcons]; simp) 1

theorem exptrim_trimmed (cl : Client) (hg : GoodExport cl.ex) (w : World) (start len : Nat)
    (hr : start + len ≤ cl.ex.exportsize) :
    exptrim cl w start len ≠ .ub ∧
    ∀ w', exptrim cl w start len = .val w' → Trimmed cl.ex start len w w' := by
  refine ⟨?_, exptrim_val_trimmed cl (fun ht => (hg.files ht).distinct) w start len hr⟩
  unfold exptrim
  split
  · simp
  · split
    · simp
    · split
      · simp
      · split
        · rename_i ht
          simp only []
          refine (trimTree_trimmed cl.ex ht start len _ _ _ ?_ ?_ ?_ ?_).1
          · simp [TREEPAGESIZE]
          · simp only [TREEPAGESIZE]; omega
          · simp only [TREEPAGESIZE]; omega
          · exact hr
        · rename_i ht
          have ht' : has cl.ex.flags F_TREEFILES = false := by simpa using ht
          have hf := (hg.files ht').first
          split
          · rename_i hnil
            rw [hnil] at hf
            simp at hf
          · simp

theorem Trimmed.view {ex : Export} {start len : Nat} {w w' : World} (h : Trimmed ex start len w w') :
    (∀ i, start ≤ i → i < start + len → Nbd.view ex w' i = Nbd.view ex w i ∨ Nbd.view ex w' i = 0) ∧
    (∀ i, i < start ∨ start + len ≤ i → Nbd.view ex w' i = Nbd.view ex w i) := by
  constructor
  · intro i _ _
    unfold Nbd.view
    split
    · split
      · rename_i x hx
        rcases h x with h' | h'
        · left; exact h'
        · right; exact h'.1
      · left; rfl
    · left; rfl
  · intro i hi
    unfold Nbd.view
    split
    · rename_i hlt
      split
      · rename_i x hx
        rcases h x with h' | h'
        · exact h'
        · have := h'.2 i hlt hx
          omega
      · rfl
    · rfl

end Nbd
