import Verif.TrLogLemmas
/-!
# nbd-trplay writes the blocks of the logged requests
-/

set_option autoImplicit false

namespace Nbd

namespace Spec

/-- Cut `n` blocks of size `bsz` off `data`, the first for offset `off`. -/
def blocks (bsz : Nat) : Nat → Nat → List Byte → List (Nat × List Byte)
  | 0, _, _ => []
  | n + 1, off, data => (off, data.take bsz) :: blocks bsz n (off + bsz) (data.drop bsz)

/-- The blocks of size `bsz` a request writes, in order. -/
def Request.pieces (bsz : Nat) (r : Request) (data : List Byte) : List (Nat × List Byte) :=
  if r.type % 65536 = 1 then blocks bsz (r.len / bsz) r.start data
  else if r.type % 65536 = 6 then blocks bsz (r.len / bsz) r.start (Flat.zeros r.len)
  else []

/-- Write blocks to an array, one after the other. -/
def applyBlocks (f : Flat) (bs : List (Nat × List Byte)) : Flat :=
  bs.foldl (fun f b => f.write b.1 b.2) f

theorem blocks_length (bsz n off : Nat) (data : List Byte) :
    (blocks bsz n off data).length = n := by
  induction n generalizing off data with
  | zero => rfl
  | succ n ih => simp [blocks, ih]

theorem applyBlocks_append (f : Flat) (a b : List (Nat × List Byte)) :
    applyBlocks f (a ++ b) = applyBlocks (applyBlocks f a) b := by
  unfold applyBlocks; rw [List.foldl_append]

theorem applyBlocks_blocks (bsz n : Nat) : ∀ (off : Nat) (data : List Byte) (f : Flat),
    n * bsz ≤ data.length →
    applyBlocks f (blocks bsz n off data) = f.write off (data.take (n * bsz)) := by
  induction n with
  | zero => intro off data f _; simp [blocks, applyBlocks]
  | succ n ih =>
    intro off data f h
    rw [Nat.succ_mul] at h
    have hb : bsz ≤ data.length := by
      have : 0 ≤ n * bsz := Nat.zero_le _
      omega
    show applyBlocks (f.write off (data.take bsz)) (blocks bsz n (off + bsz) (data.drop bsz)) = _
    rw [ih _ _ _ (by rw [List.length_drop]; omega)]
    have hl : (data.take bsz).length = bsz := by rw [List.length_take]; omega
    have := Flat.write_append f off (data.take bsz) ((data.drop bsz).take (n * bsz))
    rw [hl] at this
    rw [← this, Nat.succ_mul, Nat.add_comm (n * bsz) bsz, List.take_add]

end Spec

open Spec (blocks applyBlocks)

/-- The image: the file holds `f`. -/
def Holds (w : World) (id : FileId) (f : Flat) : Prop := ∃ x, w.files id = some x ∧ x.data = f

/-- No call of `pwrite` transfers nothing. -/
def Moves (orc : Nat → Kr) : Prop := ∀ t, orc t ≠ .done 0

/-- Some system call fails. -/
def Fails (orc : Nat → Kr) : Prop := ∃ t n, orc t = .err n

theorem writeImage_holds (w : World) (id : FileId) (bs : List Byte) (off : Nat) (f : Flat)
    (h : Holds w id f) (hm : Moves w.orc) (hoff : off + bs.length ≤ 2 ^ 63) (w' : World)
    (c : Option Nat) (hw : writeImage w id bs off = (w', c)) :
    w'.orc = w.orc ∧
      ((c = none ∧ Holds w' id (f.write off bs)) ∨ (c = some 1 ∧ Fails w.orc)) := by
  fun_induction writeImage w id bs off generalizing f with
  | case1 w off => cases hw; exact ⟨rfl, .inl ⟨rfl, by simpa using h⟩⟩
  | case2 w bs off hne hbig =>
    have := List.length_pos_iff.mpr hne
    omega
  | case3 w bs off hne _ w1 hp =>
    cases hw
    obtain ⟨x, hx, hd⟩ := h
    unfold sysPwrite at hp
    rw [hx] at hp
    simp only [] at hp
    split at hp
    · rename_i n hn
      cases hp
      exact ⟨rfl, .inr ⟨rfl, _, n, hn⟩⟩
    · cases hp
  | case4 w bs off hne _ w1 hp =>
    exfalso
    obtain ⟨x, hx, hd⟩ := h
    unfold sysPwrite at hp
    rw [hx] at hp
    simp only [] at hp
    split at hp
    · cases hp
    · rename_i n hn
      simp only [Prod.mk.injEq, Option.some.injEq] at hp
      have hpos := List.length_pos_iff.mpr hne
      have h0 : n = 0 := by have := hp.2; omega
      rw [h0] at hn
      exact hm _ hn
  | case5 w bs off hne _ w1 n hp ih =>
    obtain ⟨x, hx, hd⟩ := h
    have hle := sysPwrite_le hp
    unfold sysPwrite at hp
    rw [hx] at hp
    simp only [] at hp
    split at hp
    · cases hp
    · rename_i m hn
      simp only [Prod.mk.injEq, Option.some.injEq] at hp
      obtain ⟨rfl, hmin⟩ := hp
      have htk : bs.take m = bs.take (n + 1) := by
        by_cases hml : m ≤ bs.length
        · have : m = n + 1 := by omega
          rw [this]
        · have : n + 1 = bs.length := by omega
          rw [this, List.take_length, List.take_of_length_le (by omega)]
      have hh : Holds ((w.step).set id (x.pwrite off (bs.take m))) id (f.write off (bs.take (n + 1))) :=
        ⟨_, World.set_files_same _ _ _, by rw [htk, ← hd]; rfl⟩
      obtain ⟨i1, i2⟩ := ih _ hh hm (by rw [List.length_drop]; omega) hw
      refine ⟨by simpa using i1, ?_⟩
      rcases i2 with ⟨hc, h2⟩ | ⟨hc, h2⟩
      · left
        refine ⟨hc, ?_⟩
        have hl : (bs.take (n + 1)).length = n + 1 := by simp; omega
        have := Flat.write_append f off (bs.take (n + 1)) (bs.drop (n + 1))
        rw [hl, List.take_append_drop] at this
        rw [this]; exact h2
      · right
        exact ⟨hc, by simpa using h2⟩

/-- How far a replay of some blocks got: it went on, it stopped at the limit, or the image could
not be written. -/
inductive Replayed (bs : List (Nat × List Byte)) (max : Nat) (id : FileId) (w : World) (cur : Nat)
    (f : Flat) : Sum Played (World × Nat) → Prop where
  | on (w' : World) (horc : w'.orc = w.orc) (hcur : cur + bs.length < max)
      (h : Holds w' id (applyBlocks f bs)) : Replayed bs max id w cur f (.inr (w', cur + bs.length))
  | limit (w' : World) (horc : w'.orc = w.orc) (hcur : max ≤ cur + bs.length)
      (h : Holds w' id (applyBlocks f (bs.take (max - cur)))) :
      Replayed bs max id w cur f (.inl ⟨w', max, 0⟩)
  | failed (w' : World) (n : Nat) (h : Fails w.orc) : Replayed bs max id w cur f (.inl ⟨w', n, 1⟩)

/-- One block. -/
theorem Replayed.cons {bs : List (Nat × List Byte)} {max : Nat} {id : FileId} {w w1 : World}
    {cur : Nat} {f : Flat} {b : Nat × List Byte} {x : Sum Played (World × Nat)} (horc : w1.orc = w.orc)
    (hcur : cur + 1 < max)
    (h : Replayed bs max id w1 (cur + 1) (f.write b.1 b.2) x) : Replayed (b :: bs) max id w cur f x := by
  have happ : ∀ l, applyBlocks f (b :: l) = applyBlocks (f.write b.1 b.2) l := fun _ => rfl
  cases h with
  | on w' ho hc hh =>
    have e1 : cur + 1 + bs.length = cur + (b :: bs).length := by simp; omega
    rw [e1]
    exact .on w' (ho.trans horc) (by omega) (by rw [happ]; exact hh)
  | limit w' ho hc hh =>
    refine .limit w' (ho.trans horc) (by simp; omega) ?_
    have : max - cur = (max - (cur + 1)) + 1 := by omega
    rw [this, List.take_succ_cons, happ]
    exact hh
  | failed w' n hf => exact .failed w' n (horc ▸ hf)

theorem Replayed.last {bs : List (Nat × List Byte)} {max : Nat} {id : FileId} {w w1 : World}
    {cur : Nat} {f : Flat} {b : Nat × List Byte} (horc : w1.orc = w.orc) (hcur : cur + 1 = max)
    (h : Holds w1 id (f.write b.1 b.2)) :
    Replayed (b :: bs) max id w cur f (.inl ⟨w1, cur + 1, 0⟩) := by
  rw [hcur]
  refine .limit w1 horc (by simp; omega) ?_
  have : max - cur = 0 + 1 := by omega
  rw [this, List.take_succ_cons, List.take_zero]
  exact h

/-- Forget what is left of the log. -/
def dropLog : Sum Played (World × Nat × List Byte) → Sum Played (World × Nat)
  | .inl p => .inl p
  | .inr (w, cur, _) => .inr (w, cur)

theorem playWrites_replayed (bsz max : Nat) (hb : 0 < bsz) (id : FileId) (n : Nat) :
    ∀ (off : Nat) (data rest : List Byte) (w : World) (cur : Nat) (f : Flat),
      data.length = n * bsz → off + n * bsz ≤ 2 ^ 63 → cur < max → Holds w id f → Moves w.orc →
      Replayed (blocks bsz n off data) max id w cur f
        (dropLog (playWrites bsz max id n off (data ++ rest) w cur)) ∧
      ∀ w' cur' rest', playWrites bsz max id n off (data ++ rest) w cur = .inr (w', cur', rest') →
        rest' = rest := by
  induction n with
  | zero =>
    intro off data rest w cur f hd hoff hcur hh hm
    have : data = [] := List.length_eq_zero_iff.mp (by simpa using hd)
    subst this
    refine ⟨?_, ?_⟩
    · exact .on (bs := []) w rfl hcur hh
    · intro w' cur' rest' h
      cases h; rfl
  | succ n ih =>
    intro off data rest w cur f hd hoff hcur hh hm
    rw [Nat.succ_mul] at hd hoff
    have hbl : bsz ≤ data.length := by
      have : 0 ≤ n * bsz := Nat.zero_le _
      omega
    have ht : (data ++ rest).take bsz = data.take bsz := List.take_append_of_le_length hbl
    have hdr : (data ++ rest).drop bsz = data.drop bsz ++ rest := List.drop_append_of_le_length hbl
    have htl : (data.take bsz).length = bsz := by rw [List.length_take]; omega
    rw [playWrites, if_neg (by rw [List.length_append]; omega), ht, hdr]
    obtain ⟨w1, c, hwi⟩ : ∃ w1 c, writeImage w id (data.take bsz) off = (w1, c) := ⟨_, _, rfl⟩
    rw [hwi]
    obtain ⟨ho, hres⟩ := writeImage_holds w id _ off f hh hm (by
      have : 0 ≤ n * bsz := Nat.zero_le _
      omega) w1 c hwi
    rcases hres with ⟨rfl, hh1⟩ | ⟨rfl, hfail⟩
    · dsimp only
      by_cases hlim : cur + 1 = max
      · rw [if_pos hlim]
        exact ⟨.last (b := (off, data.take bsz)) ho hlim hh1, by intro _ _ _ h; cases h⟩
      · rw [if_neg hlim]
        obtain ⟨i1, i2⟩ := ih (off + bsz) (data.drop bsz) rest w1 (cur + 1) _
          (by rw [List.length_drop]; omega) (by omega) (by omega) hh1 (by rw [ho]; exact hm)
        exact ⟨.cons (b := (off, data.take bsz)) ho (by omega) i1, i2⟩
    · dsimp only
      exact ⟨.failed _ _ hfail, by intro _ _ _ h; cases h⟩

theorem zeros_drop' (n k : Nat) : (Flat.zeros n).drop k = Flat.zeros (n - k) := by
  simp [Flat.zeros]

theorem playZeros_replayed (bsz max : Nat) (hb : 0 < bsz) (id : FileId) (n : Nat) :
    ∀ (off len : Nat) (w : World) (cur : Nat) (f : Flat),
      len = n * bsz → off + n * bsz ≤ 2 ^ 63 → cur < max → Holds w id f → Moves w.orc →
      Replayed (blocks bsz n off (Flat.zeros len)) max id w cur f
        (playZeros bsz max id n off w cur) := by
  induction n with
  | zero =>
    intro off len w cur f hl hoff hcur hh hm
    exact .on (bs := []) w rfl hcur hh
  | succ n ih =>
    intro off len w cur f hl hoff hcur hh hm
    rw [Nat.succ_mul] at hl hoff
    have hbl : bsz ≤ len := by
      have : 0 ≤ n * bsz := Nat.zero_le _
      omega
    have ht : (Flat.zeros len).take bsz = List.replicate bsz 0 := by
      rw [zeros_take, Nat.min_eq_left hbl]; rfl
    have hbs : blocks bsz (n + 1) off (Flat.zeros len) =
        (off, List.replicate bsz 0) :: blocks bsz n (off + bsz) (Flat.zeros (len - bsz)) := by
      rw [blocks, ht, zeros_drop']
    rw [playZeros, hbs]
    obtain ⟨w1, c, hwi⟩ : ∃ w1 c, writeImage w id (List.replicate bsz 0) off = (w1, c) := ⟨_, _, rfl⟩
    rw [hwi]
    obtain ⟨ho, hres⟩ := writeImage_holds w id _ off f hh hm (by
      have : 0 ≤ n * bsz := Nat.zero_le _
      rw [List.length_replicate]; omega) w1 c hwi
    rcases hres with ⟨rfl, hh1⟩ | ⟨rfl, hfail⟩
    · dsimp only
      by_cases hlim : cur + 1 = max
      · rw [if_pos hlim]
        exact .last (b := (off, List.replicate bsz 0)) ho hlim hh1
      · rw [if_neg hlim]
        exact .cons (b := (off, List.replicate bsz 0)) ho (by omega)
          (ih (off + bsz) (len - bsz) w1 (cur + 1) _ (by omega) (by omega) (by omega) hh1
            (by rw [ho]; exact hm))
    · exact .failed _ _ hfail

/-- A request whose replay with this block size is possible. -/
structure Spec.Request.Aligned (bsz : Nat) (r : Spec.Request) : Prop where
  start : r.start % bsz = 0
  len : r.len % bsz = 0
  code : r.type % 65536 ∈ [0, 1, 2, 3, 6]
  size : r.type % 65536 = 1 ∨ r.type % 65536 = 6 → r.start + r.len ≤ 2 ^ 63

/-- A record whose replay with this block size is possible. -/
def Spec.Record.Playable (bsz : Nat) : Spec.Record → Prop
  | .dataOn => False
  | .request r _ => r.Aligned bsz
  | .reply _ _ => True
  | .chunk .. => False

/-- The blocks of a record. -/
def Spec.Record.pieces (bsz : Nat) : Spec.Record → List (Nat × List Byte)
  | .request r data => r.pieces bsz data
  | _ => []

theorem processCommand_replayed (e : Endian) (bsz max : Nat) (hb : 0 < bsz) (id : FileId)
    (r : Spec.Request) (hfit : r.Fits) (ha : r.Aligned bsz) (data rest : List Byte)
    (hdata : data.length = if r.type % 65536 = 1 then r.len else 0)
    (w : World) (cur : Nat) (f : Flat) (hcur : cur < max) (hh : Holds w id f) (hm : Moves w.orc) :
    Replayed (r.pieces bsz data) max id w cur f
      (dropLog (processCommand bsz max id (loadReq e r.encode) true (data ++ rest) w cur)) ∧
    ∀ w' cur' rest', processCommand bsz max id (loadReq e r.encode) true (data ++ rest) w cur
      = .inr (w', cur', rest') → rest' = rest := by
  obtain ⟨h1, _, h3, h4, _⟩ := loadReq_fields e r hfit
  unfold processCommand
  rw [h1, h3, h4, if_neg (by simpa using ha.start), if_neg (by simpa using ha.len)]
  have hlen : r.len = r.len / bsz * bsz := by
    have := Nat.div_add_mod r.len bsz
    rw [ha.len, Nat.mul_comm] at this
    omega
  have hsz := ha.size
  have hcode := ha.code
  simp only [List.mem_cons, List.not_mem_nil, or_false] at hcode
  rcases hcode with hc | hc | hc | hc | hc
  · have hd : data = [] := List.length_eq_zero_iff.mp (by rw [hdata, hc]; rfl)
    subst hd
    have hp : r.pieces bsz [] = [] := by unfold Spec.Request.pieces; rw [hc]; rfl
    rw [hp, hc, if_pos (.inl rfl)]
    exact ⟨.on (bs := []) w rfl hcur hh, by intro _ _ _ h; cases h; rfl⟩
  · have hp : r.pieces bsz data = blocks bsz (r.len / bsz) r.start data := by
      unfold Spec.Request.pieces; rw [if_pos hc]
    rw [hp, hc, if_neg (by decide), if_pos rfl, if_pos (by decide)]
    rw [hc, if_pos rfl] at hdata
    exact playWrites_replayed bsz max hb id _ _ _ _ _ _ _ (by omega)
      (by have := hsz (.inl hc); omega) hcur hh hm
  · have hd : data = [] := List.length_eq_zero_iff.mp (by rw [hdata, hc]; rfl)
    subst hd
    have hp : r.pieces bsz [] = [] := by unfold Spec.Request.pieces; rw [hc]; rfl
    rw [hp, hc, if_pos (.inr (.inl rfl))]
    exact ⟨.on (bs := []) w rfl hcur hh, by intro _ _ _ h; cases h; rfl⟩
  · have hd : data = [] := List.length_eq_zero_iff.mp (by rw [hdata, hc]; rfl)
    subst hd
    have hp : r.pieces bsz [] = [] := by unfold Spec.Request.pieces; rw [hc]; rfl
    rw [hp, hc, if_pos (.inr (.inr rfl))]
    exact ⟨.on (bs := []) w rfl hcur hh, by intro _ _ _ h; cases h; rfl⟩
  · have hd : data = [] := List.length_eq_zero_iff.mp (by rw [hdata, hc]; rfl)
    subst hd
    have hp : r.pieces bsz [] = blocks bsz (r.len / bsz) r.start (Flat.zeros r.len) := by
      unfold Spec.Request.pieces; rw [hc]; rfl
    rw [hp, hc, if_neg (by decide), if_neg (by decide), if_pos (.inr rfl)]
    have := playZeros_replayed bsz max hb id (r.len / bsz) r.start r.len w cur f hlen
      (by have := hsz (.inr hc); omega) hcur hh hm
    revert this
    rcases playZeros bsz max id (r.len / bsz) r.start w cur with p | ⟨w', cur'⟩
    · intro h; exact ⟨h, by intro _ _ _ h; cases h⟩
    · intro h; exact ⟨h, by intro _ _ _ h; cases h; rfl⟩

/-- The result of a whole replay. -/
structure Replay (bs : List (Nat × List Byte)) (max : Nat) (id : FileId) (w : World) (cur : Nat)
    (f : Flat) (p : Played) : Prop where
  code : p.code = 0 ∨ (p.code = 1 ∧ Fails w.orc)
  image : p.code = 0 → Holds p.w id (applyBlocks f (bs.take (max - cur)))
  count : p.code = 0 → p.blocks = min max (cur + bs.length)

theorem Replay.join {bs bs' : List (Nat × List Byte)} {max : Nat} {id : FileId} {w w' : World}
    {cur : Nat} {f : Flat} {p : Played} (ho : w'.orc = w.orc) (hc : cur + bs.length < max)
    (h : Replay bs' max id w' (cur + bs.length) (applyBlocks f bs) p) :
    Replay (bs ++ bs') max id w cur f p := by
  refine ⟨?_, ?_, ?_⟩
  · rcases h.code with h | ⟨h, hf⟩
    · exact .inl h
    · exact .inr ⟨h, ho ▸ hf⟩
  · intro h0
    have := h.image h0
    rw [← Spec.applyBlocks_append] at this
    rw [List.take_append, List.take_of_length_le (by omega)]
    rw [show max - cur - bs.length = max - (cur + bs.length) by omega]
    exact this
  · intro h0
    rw [h.count h0, List.length_append]; congr 1; omega

theorem Replay.stop {bs bs' : List (Nat × List Byte)} {max : Nat} {id : FileId} {w w' : World}
    {cur : Nat} {f : Flat} (hc : max ≤ cur + bs.length)
    (h : Holds w' id (applyBlocks f (bs.take (max - cur)))) :
    Replay (bs ++ bs') max id w cur f ⟨w', max, 0⟩ := by
  refine ⟨.inl rfl, ?_, ?_⟩
  · intro _
    rw [List.take_append_of_le_length (by omega)]
    exact h
  · intro _
    simp; omega

/-- Replaying records, followed by something that changes nothing. -/
theorem trplay_records_tail (e : Endian) (bsz max : Nat) (hb : 0 < bsz) (id : FileId)
    (recs : List Spec.Record) (hok : ∀ x ∈ recs, x.Ok true) (hp : ∀ x ∈ recs, x.Playable bsz)
    (tail : List Byte) (htail : ∀ w cur, trplay e bsz max id tail true w cur = ⟨w, cur, 0⟩) :
    ∀ (w : World) (cur : Nat) (f : Flat), cur < max → Holds w id f → Moves w.orc →
      Replay (recs.flatMap (Spec.Record.pieces bsz)) max id w cur f
        (trplay e bsz max id (recs.flatMap Spec.Record.encode ++ tail) true w cur) := by
  induction recs with
  | nil =>
    intro w cur f hc hh hm
    show Replay [] max id w cur f (trplay e bsz max id ([] ++ tail) true w cur)
    rw [List.nil_append, htail]
    exact ⟨.inl rfl, fun _ => by simpa [applyBlocks] using hh, fun _ => by simp; omega⟩
  | cons x recs ih =>
    intro w cur f hc hh hm
    have hx := hok x (by simp)
    have hpx := hp x (by simp)
    have ih := ih (fun y hy => hok y (by simp [hy])) (fun y hy => hp y (by simp [hy]))
    rw [List.flatMap_cons, List.flatMap_cons, List.append_assoc]
    cases x with
    | dataOn => exact hx.elim
    | chunk => exact hpx.elim
    | reply err cookie =>
      have hlen : (Spec.Record.reply err cookie).encode.length = 16 := by
        simp [Spec.Record.encode, hx.2]
      have hmag : ∀ rest : List Byte, ntohl e (load32 e (((Spec.Record.reply err cookie).encode ++ rest).take 4))
          = REPLY_MAGIC := by
        intro rest
        rw [Spec.Record.encode, List.append_assoc, List.append_assoc]
        exact magic_head e REPLY_MAGIC 0x67446698 (by decide) _
      rw [trplay.eq_def, if_neg (by simp [hlen]; omega)]
      dsimp only
      rw [hmag, if_neg (by decide), if_pos rfl, if_neg (by simp [hlen]), List.drop_left' hlen]
      exact ih w cur f hc hh hm
    | request r data =>
      obtain ⟨hfit, hm1, hd⟩ := hx
      have hdata : data.length = if r.type % 65536 = 1 then r.len else 0 := by simpa using hd
      have hlen : r.encode.length = 28 := Spec.Request.encode_len r hfit.cookie
      have hlen' : ((Spec.Record.request r data).encode ++ (recs.flatMap Spec.Record.encode ++ tail)).length ≥ 28 := by
        simp [Spec.Record.encode, hlen]
      have ht : ((Spec.Record.request r data).encode ++ (recs.flatMap Spec.Record.encode ++ tail)).take 28 = r.encode := by
        rw [Spec.Record.encode, List.append_assoc]; exact List.take_left' hlen
      have hdr : ((Spec.Record.request r data).encode ++ (recs.flatMap Spec.Record.encode ++ tail)).drop 28
          = data ++ (recs.flatMap Spec.Record.encode ++ tail) := by
        rw [Spec.Record.encode, List.append_assoc]; exact List.drop_left' hlen
      have hmag : ntohl e (load32 e (((Spec.Record.request r data).encode ++
          (recs.flatMap Spec.Record.encode ++ tail)).take 4)) = REQUEST_MAGIC := by
        have h4 : ((Spec.Record.request r data).encode ++ (recs.flatMap Spec.Record.encode ++ tail)).take 4
            = r.encode.take 4 := by
          rw [Spec.Record.encode, List.append_assoc, List.take_append_of_le_length (by omega)]
        rw [h4]
        apply UInt32.toNat_inj.mp
        rw [(loadReq_fields e r hfit).2.2.2.2, hm1]
        decide
      obtain ⟨p1, p2⟩ := processCommand_replayed e bsz max hb id r hfit hpx data
        (recs.flatMap Spec.Record.encode ++ tail) hdata w cur f hc hh hm
      rw [trplay.eq_def, if_neg (by omega)]
      dsimp only
      rw [hmag, if_pos rfl, if_neg (by omega)]
      split
      · rename_i p hq
        rw [ht, hdr] at hq
        rw [hq] at p1
        simp only [dropLog] at p1
        cases p1 with
        | limit w' ho hcc hhh => exact Replay.stop hcc hhh
        | failed w' n hf => exact ⟨.inr ⟨rfl, hf⟩, by simp, by simp⟩
      · rename_i w' cur' rest' hq
        rw [ht, hdr] at hq
        have := p2 _ _ _ hq
        subst this
        rw [hq] at p1
        simp only [dropLog] at p1
        cases p1 with
        | on w'' ho hcc hhh =>
          exact Replay.join ho hcc (ih _ _ _ hcc hhh (by rw [ho]; exact hm))

theorem trplay_records (e : Endian) (bsz max : Nat) (hb : 0 < bsz) (id : FileId)
    (recs : List Spec.Record) (hok : ∀ x ∈ recs, x.Ok true) (hp : ∀ x ∈ recs, x.Playable bsz) :
    ∀ (w : World) (cur : Nat) (f : Flat), cur < max → Holds w id f → Moves w.orc →
      Replay (recs.flatMap (Spec.Record.pieces bsz)) max id w cur f
        (trplay e bsz max id (recs.flatMap Spec.Record.encode) true w cur) := by
  have := trplay_records_tail e bsz max hb id recs hok hp [] (fun w cur => by rw [trplay.eq_def, if_pos (by decide)])
  simpa using this

/-- A write request whose data is not in the log. -/
theorem trplay_header (e : Endian) (bsz max : Nat) (hb : 0 < bsz) (id : FileId) (r : Spec.Request) (hfit : r.Fits)
    (hm1 : r.magic = 0x25609513) (ha : r.Aligned bsz) (h1 : r.type % 65536 = 1) (w : World) (cur : Nat) :
    trplay e bsz max id r.encode true w cur = ⟨w, cur, 0⟩ := by
  have hlen : r.encode.length = 28 := Spec.Request.encode_len r hfit.cookie
  have hmag : ntohl e (load32 e (r.encode.take 4)) = REQUEST_MAGIC := by
    apply UInt32.toNat_inj.mp
    rw [(loadReq_fields e r hfit).2.2.2.2, hm1]
    decide
  obtain ⟨f1, _, f3, f4, _⟩ := loadReq_fields e r hfit
  have hp : processCommand bsz max id (loadReq e r.encode) true [] w cur =
      playWrites bsz max id (r.len / bsz) r.start [] w cur := by
    unfold processCommand
    rw [f1, f3, f4, if_neg (by simpa using ha.start), if_neg (by simpa using ha.len), h1]
    simp [CMD_READ, CMD_DISC, CMD_FLUSH, CMD_WRITE]
  rw [trplay.eq_def, if_neg (by omega)]
  dsimp only
  rw [hmag, if_pos rfl, if_neg (by omega)]
  have ht : r.encode.take 28 = r.encode := List.take_of_length_le (by omega)
  have hd : r.encode.drop 28 = [] := List.drop_of_length_le (by omega)
  split
  · rename_i p hq
    rw [ht, hd, hp] at hq
    cases hn : r.len / bsz with
    | zero => rw [hn, playWrites] at hq; cases hq
    | succ n => rw [hn, playWrites, if_pos (by simpa using hb)] at hq; cases hq; rfl
  · rename_i w' cur' rest' hq
    rw [ht, hd, hp] at hq
    cases hn : r.len / bsz with
    | zero =>
      rw [hn, playWrites] at hq
      cases hq
      rw [trplay.eq_def, if_pos (by decide)]
    | succ n => rw [hn, playWrites, if_pos (by simpa using hb)] at hq; cases hq

theorem trplay_dataOn (e : Endian) (bsz max : Nat) (id : FileId) (rest : List Byte) (b : Bool)
    (w : World) (cur : Nat) :
    trplay e bsz max id (Spec.Record.dataOn.encode ++ rest) b w cur =
      trplay e bsz max id rest true w cur := by
  have hlen := Spec.dataOn_len
  have hmag : ntohl e (load32 e ((Spec.Record.dataOn.encode ++ rest).take 4)) = TRACELOG_MAGIC := by
    rw [Spec.Record.encode, Spec.Request.encode, List.append_assoc, List.append_assoc,
      List.append_assoc, List.append_assoc]
    exact magic_head e TRACELOG_MAGIC 0x25609514 (by decide) _
  conv => lhs; rw [trplay.eq_def]
  rw [if_neg (by simp [hlen]; omega)]
  dsimp only
  rw [hmag, if_neg (by decide), if_neg (by decide), if_pos rfl, if_neg (by simp [hlen]),
    List.drop_left' hlen, List.take_left' hlen]
  have : (traceOption (loadReq e Spec.Record.dataOn.encode).type
      (loadReq e Spec.Record.dataOn.encode).start (loadReq e Spec.Record.dataOn.encode).len b).1
      = true := by
    cases e <;> cases b <;> decide +kernel
  rw [this]

end Nbd
