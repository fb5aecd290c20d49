import Verif.SchedPlain
/-! # From histories of byte accesses to what clients can tell -/

set_option autoImplicit false

namespace Nbd

namespace Spec

/-- May this command change byte `i`? -/
def Touches (c : Cmd) (i : Nat) : Prop :=
  c.code ∈ [1, 4, 6] ∧ c.start ≤ i ∧ i < c.start + c.len

/-- Does this command, when it succeeds, store `b` at byte `i`? (A write, or a write-zeroes, of which only the
first 64 MiB count: see C09.) -/
def Stores (c : Cmd) (i : Nat) (b : Byte) : Prop :=
  (c.code = 1 ∧ c.start ≤ i ∧ c.data[i - c.start]? = some b) ∨
  (c.code = 6 ∧ i < c.start + 2 ^ 26 ∧ c.start ≤ i ∧ i < c.start + c.len ∧ b = 0)

/-- May this command store `b` at byte `i`? -/
def MayStore (c : Cmd) (i : Nat) (b : Byte) : Prop :=
  Touches c i ∧ (c.code = 1 → c.data[i - c.start]? = some b) ∧ (c.code ≠ 1 → b = 0)

/-- Does a message, as an answer to the read `c`, tell the client that byte `i` is `b`? -/
def Delivers (c : Cmd) (m : List Byte) (i : Nat) (b : Byte) : Prop :=
  (∃ bs, m = (Reply.simple 0 c.cookie bs).encode ∧ c.start ≤ i ∧ bs[i - c.start]? = some b) ∨
  (∃ off bs, m = (dataChunk c.cookie off bs).encode ∧ off < 2 ^ 64 ∧ off ≤ i ∧
    bs[i - off]? = some b)

/-- Is this the encoding of the last message of an answer? -/
def Finishes (m : List Byte) : Prop := ∃ r : Reply, m = r.encode ∧ r.final = true

end Spec

open Spec

/-! ### Encodings -/

theorem encode_magic (a : Nat) (c d : List Byte) (f t : Nat) (c' p : List Byte) :
    (Reply.simple a c d).encode ≠ (Reply.chunk f t c' p).encode := by
  intro h
  simp only [Reply.encode, List.append_assoc] at h
  have := List.append_inj_left h (by simp)
  revert this
  decide

theorem encode_simple {a b : Nat} {c d d' : List Byte} (ha : a < 2 ^ 32) (hb : b < 2 ^ 32)
    (h : (Reply.simple a c d).encode = (Reply.simple b c d').encode) : a = b ∧ d = d' := by
  simp only [Reply.encode, List.append_assoc] at h
  have h1 := List.append_inj_right h (by simp)
  have h2 := List.append_inj_left h1 (by simp)
  have h3 := List.append_inj_right h1 (by simp)
  have := congrArg beVal h2
  rw [beVal_toBE_of_lt ha, beVal_toBE_of_lt hb] at this
  exact ⟨this, List.append_cancel_left h3⟩

theorem encode_flags {f f' t t' : Nat} {c c' p p' : List Byte}
    (h : (Reply.chunk f t c p).encode = (Reply.chunk f' t' c' p').encode) :
    f % 65536 = f' % 65536 := by
  simp only [Reply.encode, List.append_assoc] at h
  have h1 := List.append_inj_right h (by simp)
  have h2 := List.append_inj_left h1 (by simp)
  have := congrArg beVal h2
  rwa [beVal_toBE, beVal_toBE] at this

theorem encode_dataChunk {o o' : Nat} {c d d' : List Byte} (ho : o < 2 ^ 64) (ho' : o' < 2 ^ 64)
    (h : (dataChunk c o d).encode = (dataChunk c o' d').encode) : o = o' ∧ d = d' := by
  simp only [dataChunk, Reply.encode, List.append_assoc] at h
  have h1 := List.append_inj_right h (by simp)
  have h2 := List.append_inj_right h1 (by simp)
  have h3 := List.append_inj_right h2 (by simp)
  have h4 := List.append_cancel_left h3
  have h5 := List.append_inj_right h4 (by simp)
  have h6 := List.append_inj_left h5 (by simp)
  have := congrArg beVal h6
  rw [beVal_toBE_of_lt ho, beVal_toBE_of_lt ho'] at this
  exact ⟨this, List.append_inj_right h5 (by simp)⟩

theorem not_finishes (c : List Byte) (o : Nat) (d : List Byte) :
    ¬ Finishes (dataChunk c o d).encode := by
  rintro ⟨r, h, hf⟩
  cases r with
  | simple e c' d' => exact encode_magic _ _ _ _ _ _ _ h.symm
  | chunk f t c' p =>
    have := encode_flags h
    simp only [Reply.final, beq_iff_eq] at hf
    omega

/-! ### One request -/

theorem mem_gets {x : Act} {a : Nat} {bs : List Byte} (h : x ∈ gets a bs) :
    ∃ k b, x = .get (a + k) b ∧ bs[k]? = some b := by
  induction bs generalizing a with
  | nil => cases h
  | cons y bs ih =>
    simp only [gets, List.mem_cons] at h
    rcases h with rfl | h
    · exact ⟨0, y, rfl, rfl⟩
    · obtain ⟨k, b, rfl, h'⟩ := ih h
      exact ⟨k + 1, b, by congr 1; omega, h'⟩

theorem mem_puts {x : Act} {a : Nat} {bs : List Byte} (h : x ∈ puts a bs) :
    ∃ k b, x = .put (a + k) b ∧ bs[k]? = some b := by
  induction bs generalizing a with
  | nil => cases h
  | cons y bs ih =>
    simp only [puts, List.mem_cons] at h
    rcases h with rfl | h
    · exact ⟨0, y, rfl, rfl⟩
    · obtain ⟨k, b, rfl, h'⟩ := ih h
      exact ⟨k + 1, b, by congr 1; omega, h'⟩

theorem gets_mem {a k : Nat} {bs : List Byte} {b : Byte} (h : bs[k]? = some b) :
    .get (a + k) b ∈ gets a bs := by
  induction bs generalizing a k with
  | nil => cases h
  | cons y bs ih =>
    simp only [gets, List.mem_cons]
    cases k with
    | zero => cases h; exact .inl rfl
    | succ k =>
      right
      have := ih (a := a + 1) (k := k) h
      rwa [show a + 1 + k = a + (k + 1) by omega] at this

theorem puts_mem {a k : Nat} {bs : List Byte} {b : Byte} (h : bs[k]? = some b) :
    .put (a + k) b ∈ puts a bs := by
  induction bs generalizing a k with
  | nil => cases h
  | cons y bs ih =>
    simp only [puts, List.mem_cons]
    cases k with
    | zero => cases h; exact .inl rfl
    | succ k =>
      right
      have := ih (a := a + 1) (k := k) h
      rwa [show a + 1 + k = a + (k + 1) by omega] at this

/-- Only commands that may change a byte store there. -/
theorem Does.mayStore {size : Nat} {ro : Bool} {fr : List Bool} {c : Cmd} {l : List Act}
    {rs : List Reply} (hd : Does size ro fr c l rs) (hlen : c.code = 1 → c.data.length = c.len)
    {i : Nat} {b : Byte} (h : .put i b ∈ l) : MayStore c i b := by
  have hz : ∀ {l : List Act}, c.code ∈ [4, 6] → Zeroing c.start c.len l → .put i b ∈ l →
      MayStore c i b := by
    intro l hc hz h
    obtain ⟨i', h1, h2, h3⟩ := hz _ h
    cases h1
    simp only [List.mem_cons, List.not_mem_nil, or_false] at hc
    refine ⟨⟨?_, h2, h3⟩, by omega, fun _ => rfl⟩
    rcases hc with hc | hc <;> simp [hc]
  cases hd with
  | read data rs hc hr hl m hm h' =>
    obtain ⟨k, b', h1, _⟩ := mem_gets h
    cases h1
  | readFails data rs hc hr hl m hm h' =>
    obtain ⟨k, b', h1, _⟩ := mem_gets h
    cases h1
  | write hc hw hr =>
    obtain ⟨k, b', h1, h2⟩ := mem_puts h
    cases h1
    have := (List.getElem?_eq_some_iff.mp h2).1
    rw [hlen hc] at this
    refine ⟨⟨by simp [hc], by omega, by omega⟩, fun _ => ?_, fun hn => absurd hc hn⟩
    rwa [show c.start + k - c.start = k by omega]
  | writeFails hc hw hr err n he =>
    obtain ⟨k, b', h1, h2⟩ := mem_puts h
    cases h1
    have := (List.getElem?_eq_some_iff.mp h2).1
    rw [List.length_take, hlen hc] at this
    refine ⟨⟨by simp [hc], by omega, by omega⟩, fun _ => ?_, fun hn => absurd hc hn⟩
    rw [List.getElem?_take_of_lt (by omega)] at h2
    rwa [show c.start + k - c.start = k by omega]
  | zeroes hc hw hr hl =>
    obtain ⟨k, b', h1, h2⟩ := mem_puts h
    cases h1
    have := (List.getElem?_eq_some_iff.mp h2).1
    rw [Flat.zeros_length] at this
    refine ⟨⟨by simp [hc], by omega, by omega⟩, by omega, fun _ => ?_⟩
    unfold Flat.zeros at h2
    rw [List.getElem?_replicate, if_pos this] at h2
    exact (Option.some.inj h2).symm
  | zeroesFails hc hw hr err l hz' he => exact hz (by simp [hc]) hz' h
  | zeroesBig hc hw hr hl l hz' hf => exact hz (by simp [hc]) hz' h
  | flush hc err he => cases h
  | trim hc hw hr l hz' => exact hz (by simp [hc]) hz' h
  | refused err he why => cases h

theorem Does.touches {size : Nat} {ro : Bool} {fr : List Bool} {c : Cmd} {l : List Act}
    {rs : List Reply} (hd : Does size ro fr c l rs) (hlen : c.code = 1 → c.data.length = c.len)
    {i : Nat} {b : Byte} (h : .put i b ∈ l) : Touches c i := (Does.mayStore hd hlen h).1

/-- Everything but a read is answered by one message. -/
theorem Does.single {size : Nat} {ro : Bool} {fr : List Bool} {c : Cmd} {l : List Act}
    {rs : List Reply} (hd : Does size ro fr c l rs) (hc0 : c.code ≠ 0) :
    ∃ err, rs = [.simple err c.cookie []] ∧ (err = 0 ∨ err ∈ errnos) := by
  cases hd with
  | read data rs hc hr hl m hm h' => exact absurd hc hc0
  | readFails data rs hc hr hl m hm h' => exact absurd hc hc0
  | write hc hw hr => exact ⟨0, rfl, .inl rfl⟩
  | writeFails hc hw hr err n he => exact ⟨err, rfl, .inr he⟩
  | zeroes hc hw hr hl => exact ⟨0, rfl, .inl rfl⟩
  | zeroesFails hc hw hr err l hz' he => exact ⟨err, rfl, .inr he⟩
  | zeroesBig hc hw hr hl l hz' hf => exact ⟨0, rfl, .inl rfl⟩
  | flush hc err he => exact ⟨err, rfl, he⟩
  | trim hc hw hr l hz' => exact ⟨0, rfl, .inl rfl⟩
  | refused err he why => exact ⟨err, rfl, .inr he⟩

theorem zero_notin_errnos : 0 ∉ errnos := by decide

/-- A success that stores `b` at `i` has done so, and stored nothing else there. -/
theorem Does.stores {size : Nat} {ro : Bool} {fr : List Bool} {c : Cmd} {l : List Act}
    {i : Nat} {b : Byte} (hd : Does size ro fr c l [.simple 0 c.cookie []]) (hs : Stores c i b) :
    .put i b ∈ l ∧ ∀ b', .put i b' ∈ l → b' = b := by
  generalize hrs : [Reply.simple 0 c.cookie []] = rs at hd
  have hc16 : c.code = 1 ∨ c.code = 6 := by
    rcases hs with ⟨h, _⟩ | ⟨h, _⟩
    · exact .inl h
    · exact .inr h
  have hputs : ∀ bs : List Byte, c.start ≤ i → bs[i - c.start]? = some b →
      .put i b ∈ puts c.start bs ∧ ∀ b', .put i b' ∈ puts c.start bs → b' = b := by
    intro bs h1 h2
    constructor
    · have := puts_mem (a := c.start) h2
      rwa [show c.start + (i - c.start) = i by omega] at this
    · intro b' h3
      obtain ⟨k, b2, h4, h5⟩ := mem_puts h3
      cases h4
      rw [show c.start + k - c.start = k by omega, h5] at h2
      exact Option.some.inj h2
  cases hd with
  | read data rs hc hr hl m hm h' => omega
  | readFails data rs hc hr hl m hm h' => omega
  | write hc hw hr =>
    rcases hs with ⟨_, h1, h2⟩ | ⟨h, _⟩
    · exact hputs _ h1 h2
    · omega
  | writeFails hc hw hr err n he =>
    simp only [List.cons.injEq, Reply.simple.injEq, and_true] at hrs
    rw [← hrs] at he
    exact absurd he zero_notin_errnos
  | zeroes hc hw hr hl =>
    rcases hs with ⟨h, _⟩ | ⟨_, _, h1, h2, rfl⟩
    · omega
    · refine hputs _ h1 ?_
      unfold Flat.zeros
      rw [List.getElem?_replicate, if_pos (by omega)]
  | zeroesFails hc hw hr err l hz' he =>
    simp only [List.cons.injEq, Reply.simple.injEq, and_true] at hrs
    rw [← hrs] at he
    exact absurd he zero_notin_errnos
  | zeroesBig hc hw hr hl l hz' hf =>
    rcases hs with ⟨h, _⟩ | ⟨_, h, h1, _, rfl⟩
    · omega
    · refine ⟨hf i h1 h, fun b' hb => ?_⟩
      obtain ⟨j, hj, _⟩ := hz' _ hb
      cases hj
      rfl
  | flush hc err he => omega
  | trim hc hw hr l hz' => omega
  | refused err he why =>
    simp only [List.cons.injEq, Reply.simple.injEq, and_true] at hrs
    rw [← hrs] at he
    exact absurd he zero_notin_errnos

theorem Tiles.mem {start : Nat} {cs : List (Nat × List Byte)} {data : List Byte}
    (h : Tiles start cs data) : ∀ x ∈ cs, ∃ k, x.1 = start + k ∧ k + x.2.length ≤ data.length ∧
      x.2 = (data.drop k).take x.2.length := by
  induction h with
  | nil => intro x hx; cases hx
  | cons start bs cs data hne hmax h ih =>
    intro x hx
    rcases List.mem_cons.mp hx with rfl | hx
    · exact ⟨0, rfl, by simp, by simp⟩
    · obtain ⟨k, h1, h2, h3⟩ := ih x hx
      refine ⟨bs.length + k, by omega, by rw [List.length_append]; omega, ?_⟩
      rw [List.drop_append, List.drop_eq_nil_of_le (by omega), List.nil_append,
        show bs.length + k - bs.length = k by omega]
      exact h3

/-- What a message of an answer to a read tells the client is what has been seen. -/
theorem Does.delivers {size : Nat} {ro : Bool} {fr : List Bool} {c : Cmd} {l : List Act}
    {rs : List Reply} (hd : Does size ro fr c l rs) (hc0 : c.code = 0) (hsize : size ≤ 2 ^ 63)
    {r : Reply} (hr : r ∈ rs) {i : Nat} {b : Byte} (h : Delivers c r.encode i b) :
    .get i b ∈ l ∧ ∀ b', .get i b' ∈ l → b' = b := by
  have hgets : ∀ bs : List Byte, c.start ≤ i → bs[i - c.start]? = some b →
      .get i b ∈ gets c.start bs ∧ ∀ b', .get i b' ∈ gets c.start bs → b' = b := by
    intro bs h1 h2
    constructor
    · have := gets_mem (a := c.start) h2
      rwa [show c.start + (i - c.start) = i by omega] at this
    · intro b' h3
      obtain ⟨k, b2, h4, h5⟩ := mem_gets h3
      cases h4
      rw [show c.start + k - c.start = k by omega, h5] at h2
      exact Option.some.inj h2
  have hchunk : ∀ (data pre : List Byte) (cs : List (Nat × List Byte)) (x : Nat × List Byte),
      c.start + data.length ≤ 2 ^ 63 → (∃ n, pre = data.take n) → Tiles c.start cs pre →
      x ∈ cs → Delivers c (dataChunk c.cookie x.1 x.2).encode i b →
      c.start ≤ i ∧ data[i - c.start]? = some b := by
    rintro data pre cs x hb ⟨n, rfl⟩ ht hx hdel
    obtain ⟨k, k1, k2, k3⟩ := Tiles.mem ht x hx
    rw [List.length_take] at k2
    rcases hdel with ⟨bs, h1, _⟩ | ⟨off, bs, h1, h2, h3, h4⟩
    · exact absurd h1.symm (encode_magic _ _ _ _ _ _ _)
    · obtain ⟨e1, e2⟩ := encode_dataChunk (by omega) h2 h1
      subst e2
      have hlt := (List.getElem?_eq_some_iff.mp h4).1
      refine ⟨by omega, ?_⟩
      rw [k3, List.getElem?_take_of_lt hlt, List.getElem?_drop,
        List.getElem?_take_of_lt (by omega)] at h4
      rwa [show k + (i - off) = i - c.start by omega] at h4
  have hdone : ∀ f t p, f = 1 → ¬ Delivers c (Reply.chunk f t c.cookie p).encode i b := by
    rintro f t p rfl hdel
    rcases hdel with ⟨bs, h1, _⟩ | ⟨off, bs, h1, _⟩
    · exact encode_magic _ _ _ _ _ _ _ h1.symm
    · have := encode_flags h1
      omega
  have hsimple : ∀ err d, err < 2 ^ 32 → Delivers c (Reply.simple err c.cookie d).encode i b →
      err = 0 ∧ c.start ≤ i ∧ d[i - c.start]? = some b := by
    intro err d he hdel
    rcases hdel with ⟨bs, h1, h2, h3⟩ | ⟨off, bs, h1, _⟩
    · obtain ⟨e1, rfl⟩ := encode_simple he (by decide) h1
      exact ⟨e1, h2, h3⟩
    · exact absurd h1 (encode_magic _ _ _ _ _ _ _)
  have herr : ∀ err ∈ errnos, err < 2 ^ 32 ∧ err ≠ 0 := by decide
  cases hd with
  | read data rs hc hrr hl m hm h' =>
    cases h' with
    | simple =>
      rw [List.mem_singleton] at hr
      subst hr
      obtain ⟨_, h1, h2⟩ := hsimple _ _ (by decide) h
      exact hgets _ h1 h2
    | structured cs ht =>
      rcases List.mem_append.mp hr with hr | hr
      · obtain ⟨x, hx, rfl⟩ := List.mem_map.mp hr
        obtain ⟨h1, h2⟩ := hchunk data data cs x (by omega) ⟨data.length, by simp⟩ ht hx h
        exact hgets _ h1 h2
      · rw [List.mem_singleton] at hr
        subst hr
        exact absurd h (hdone _ _ _ rfl)
  | readFails data rs hc hrr hl m hm h' =>
    cases h' with
    | simple err he =>
      rw [List.mem_singleton] at hr
      subst hr
      obtain ⟨h1, _⟩ := hsimple _ _ (herr _ he).1 h
      exact absurd h1 (herr _ he).2
    | structured n err cs ht he msg hmsg =>
      rcases List.mem_append.mp hr with hr | hr
      · obtain ⟨x, hx, rfl⟩ := List.mem_map.mp hr
        obtain ⟨h1, h2⟩ := hchunk data _ cs x (by omega) ⟨n, rfl⟩ ht hx h
        exact hgets _ h1 h2
      · rw [List.mem_singleton] at hr
        subst hr
        exact absurd h (hdone _ _ _ rfl)
  | write hc hw hrr => omega
  | writeFails hc hw hrr err n he => omega
  | zeroes hc hw hrr hl => omega
  | zeroesFails hc hw hrr err l hz' he => omega
  | zeroesBig hc hw hrr hl l hz' hf => omega
  | flush hc err he => omega
  | trim hc hw hrr l hz' => omega
  | refused err he why =>
    rw [List.mem_singleton] at hr
    subst hr
    obtain ⟨h1, _⟩ := hsimple _ _ (herr _ he).1 h
    exact absurd h1 (herr _ he).2

/-- Only the last message finishes an answer. -/
theorem Does.finishes {size : Nat} {ro : Bool} {fr : List Bool} {c : Cmd} {l : List Act}
    {rs : List Reply} (hd : Does size ro fr c l rs) {xs ys : List Reply} {r : Reply}
    (hrs : rs = xs ++ r :: ys) (h : Finishes r.encode) : ys = [] := by
  have hone : ∀ {x : Reply}, [x] = xs ++ r :: ys → ys = [] := by
    intro x h
    cases xs with
    | nil => cases h; rfl
    | cons a xs => simp at h
  have hmany : ∀ {cs : List (Nat × List Byte)} {x : Reply},
      cs.map (fun x => dataChunk c.cookie x.1 x.2) ++ [x] = xs ++ r :: ys → ys = [] := by
    intro cs x hh
    rcases List.eq_nil_or_concat ys with rfl | ⟨zs, z, rfl⟩
    · rfl
    · exfalso
      rw [List.concat_eq_append, show xs ++ r :: (zs ++ [z]) = (xs ++ r :: zs) ++ [z] by simp] at hh
      have h1 := (List.append_inj' hh rfl).1
      have hmem : r ∈ cs.map (fun x => dataChunk c.cookie x.1 x.2) := by rw [h1]; simp
      obtain ⟨y, _, rfl⟩ := List.mem_map.mp hmem
      exact not_finishes _ _ _ h
  cases hd with
  | read data rs hc hr hl m hm h' =>
    cases h' with
    | simple => exact hone hrs
    | structured cs ht => exact hmany hrs
  | readFails data rs hc hr hl m hm h' =>
    cases h' with
    | simple err he => exact hone hrs
    | structured n err cs ht he msg hmsg => exact hmany hrs
  | write hc hw hr => exact hone hrs
  | writeFails hc hw hr err n he => exact hone hrs
  | zeroes hc hw hr hl => exact hone hrs
  | zeroesFails hc hw hr err l hz' he => exact hone hrs
  | zeroesBig hc hw hr hl l hz' hf => exact hone hrs
  | flush hc err he => exact hone hrs
  | trim hc hw hr l hz' => exact hone hrs
  | refused err he why => exact hone hrs

theorem mem_accesses_get {i : Nat} {b : Byte} {l : List Act} :
    .get i b ∈ Act.accesses l ↔ .get i b ∈ l := by
  fun_induction Act.accesses l <;> simp_all

theorem mem_accesses_put {i : Nat} {b : Byte} {l : List Act} :
    .put i b ∈ Act.accesses l ↔ .put i b ∈ l := by
  fun_induction Act.accesses l <;> simp_all

theorem mem_msgs {m : Msg} {l : List Act} : m ∈ Act.msgs l ↔ .msg m ∈ l := by
  fun_induction Act.msgs l <;> simp_all

/-- Nothing comes after the message that finishes an answer. -/
theorem Complete.finished {size : Nat} {ro : Bool} {fr : List Bool} {c : Cmd} {l u t : List Act}
    {m : Msg} (hc : Complete size ro fr c l) (hl : l = u ++ .msg m :: t)
    (hm : Finishes m.bytes) : t = [] := by
  obtain ⟨rs, h1, h2, init, last, h3⟩ := hc
  rw [hl, msgs_append] at h1
  simp only [Act.msgs, List.map_append, List.map_cons] at h1
  obtain ⟨xs, rest, rfl, h4, h5⟩ := List.map_eq_append_iff.mp h1.symm
  obtain ⟨r, ys, rfl, h6, h7⟩ := List.map_eq_cons_iff.mp h5
  have hys := Does.finishes h2 rfl (by rw [h6]; exact hm)
  subst hys
  have hmt : Act.msgs t = [] := List.map_eq_nil_iff.mp h7.symm
  rcases List.eq_nil_or_concat t with rfl | ⟨zs, z, rfl⟩
  · rfl
  · exfalso
    rw [List.concat_eq_append] at *
    rw [h3, show u ++ .msg m :: (zs ++ [z]) = (u ++ .msg m :: zs) ++ [z] by simp] at hl
    have := (List.append_inj' hl rfl).2
    simp only [List.cons.injEq, and_true] at this
    rw [msgs_append, ← this] at hmt
    simp [Act.msgs] at hmt

/-- A message for anything but a read finishes its answer. -/
theorem Complete.finishes {size : Nat} {ro : Bool} {fr : List Bool} {c : Cmd} {l : List Act}
    {m : Msg} (hc : Complete size ro fr c l) (h0 : c.code ≠ 0) (hm : .msg m ∈ l) :
    Finishes m.bytes := by
  obtain ⟨rs, h1, h2, _⟩ := hc
  obtain ⟨err, rfl, he⟩ := Does.single h2 h0
  have hmem : m.bytes ∈ (Act.msgs l).map Msg.bytes := List.mem_map_of_mem (mem_msgs.mpr hm)
  rw [h1] at hmem
  simp only [List.map_cons, List.map_nil, List.mem_singleton] at hmem
  exact ⟨_, hmem, rfl⟩

/-- A successful write has stored its bytes. -/
theorem Complete.stores {size : Nat} {ro : Bool} {fr : List Bool} {c : Cmd} {l : List Act}
    {m : Msg} {i : Nat} {b : Byte} (hc : Complete size ro fr c l) (hs : Stores c i b)
    (hm : .msg m ∈ l) (hok : m.bytes = (Reply.simple 0 c.cookie []).encode) :
    .put i b ∈ l ∧ ∀ b', .put i b' ∈ l → b' = b := by
  have h0 : c.code ≠ 0 := by rcases hs with ⟨h, _⟩ | ⟨h, _⟩ <;> omega
  obtain ⟨rs, h1, h2, _⟩ := hc
  obtain ⟨err, rfl, he⟩ := Does.single h2 h0
  have hmem : m.bytes ∈ (Act.msgs l).map Msg.bytes := List.mem_map_of_mem (mem_msgs.mpr hm)
  rw [h1] at hmem
  simp only [List.map_cons, List.map_nil, List.mem_singleton] at hmem
  rw [hok] at hmem
  have hlt : err < 2 ^ 32 := by
    rcases he with rfl | he
    · decide
    · exact (show ∀ err ∈ errnos, err < 2 ^ 32 by decide) _ he
  have := (encode_simple (by decide) hlt hmem).1
  subst this
  obtain ⟨p1, p2⟩ := Does.stores h2 hs
  exact ⟨mem_accesses_put.mp p1, fun b' h => p2 b' (mem_accesses_put.mpr h)⟩

/-- What the arguments about histories need to know of the accesses and messages of one command, as far as the bytes in `good` are
concerned. -/
structure Law (good : Nat → Prop) (C : Cmd → List Act → Prop) : Prop where
  finished : ∀ {c l u t m}, C c l → l = u ++ .msg m :: t → Finishes m.bytes → t = []
  finishes : ∀ {c l m}, C c l → c.code ≠ 0 → .msg m ∈ l → Finishes m.bytes
  stores : ∀ {c l m i b}, good i → C c l → Stores c i b → .msg m ∈ l →
    m.bytes = (Reply.simple 0 c.cookie []).encode → .put i b ∈ l ∧ ∀ b', .put i b' ∈ l → b' = b
  puts : ∀ {c l i b}, C c l → (c.code = 1 → c.data.length = c.len) → .put i b ∈ l → MayStore c i b ∨ (¬ good i ∧ b = 0)
  delivers : ∀ {c l m i b}, C c l → c.code = 0 → .msg m ∈ l → Delivers c m.bytes i b → .get i b ∈ l

theorem Law.mayStore {good : Nat → Prop} {C : Cmd → List Act → Prop} (law : Law good C) {c : Cmd} {l : List Act} {i : Nat} {b : Byte}
    (hg : good i) (hc : C c l) (hd : c.code = 1 → c.data.length = c.len) (hp : .put i b ∈ l) : MayStore c i b :=
  (law.puts hc hd hp).resolve_right (fun h => h.1 hg)

theorem Complete.law {size : Nat} (hsize : size ≤ 2 ^ 63) (ro : Bool) (fr : List Bool) :
    Law (fun _ => True) (Complete size ro fr) where
  finished := Complete.finished
  finishes := Complete.finishes
  stores := fun _ => Complete.stores
  puts := by
    rintro c l i b ⟨rs, h1, h2, _⟩ hd hp
    exact .inl (Does.mayStore h2 hd (mem_accesses_put.mpr hp))
  delivers := by
    rintro c l m i b ⟨rs, h1, h2, _⟩ h0 hm hb
    have hmem : m.bytes ∈ (Act.msgs l).map Msg.bytes := List.mem_map_of_mem (mem_msgs.mpr hm)
    rw [h1] at hmem
    obtain ⟨r, hr, hrm⟩ := List.mem_map.mp hmem
    rw [← hrm] at hb
    exact mem_accesses_get.mp (Does.delivers h2 h0 hsize hr hb).1

/-! ### Histories -/

theorem Legal.split {f g : Flat} {l m : List Act} (h : Legal f (l ++ m) g) :
    ∃ k, Legal f l k ∧ Legal k m g := by
  induction l generalizing f with
  | nil => exact ⟨f, .nil f, h⟩
  | cons x l ih =>
    rw [List.cons_append] at h
    cases h with
    | get _ _ i b _ hb h => obtain ⟨k, h1, h2⟩ := ih h; exact ⟨k, .get _ _ _ _ _ hb h1, h2⟩
    | put _ _ i b _ h => obtain ⟨k, h1, h2⟩ := ih h; exact ⟨k, .put _ _ _ _ _ h1, h2⟩
    | msg _ _ m _ h => obtain ⟨k, h1, h2⟩ := ih h; exact ⟨k, .msg _ _ _ _ h1, h2⟩

theorem write_one (f : Flat) (j i : Nat) (b : Byte) :
    f.write j [b] i = if i = j then b else f i := by
  rw [Flat.write_apply]
  split
  · rename_i h
    have : i = j := by simp at h; omega
    subst this
    simp
  · rename_i h
    rw [if_neg]
    intro hh
    subst hh
    exact h (by simp)

/-- If only `x` is stored at `i`, and it is there at first or is stored, it is there at the end. -/
theorem legal_value {f g : Flat} {l : List Act} {i : Nat} {x : Byte} (h : Legal f l g)
    (hall : ∀ y, .put i y ∈ l → y = x) (hsome : f i = x ∨ ∃ y, .put i y ∈ l) : g i = x := by
  induction h with
  | nil f =>
    rcases hsome with h | ⟨y, h⟩
    · exact h
    · cases h
  | get f g j b l hb h ih =>
    refine ih (fun y hy => hall y (List.mem_cons_of_mem _ hy)) ?_
    rcases hsome with h | ⟨y, h⟩
    · exact .inl h
    · rcases List.mem_cons.mp h with h | h
      · cases h
      · exact .inr ⟨y, h⟩
  | msg f g m l h ih =>
    refine ih (fun y hy => hall y (List.mem_cons_of_mem _ hy)) ?_
    rcases hsome with h | ⟨y, h⟩
    · exact .inl h
    · rcases List.mem_cons.mp h with h | h
      · cases h
      · exact .inr ⟨y, h⟩
  | put f g j b l h ih =>
    refine ih (fun y hy => hall y (List.mem_cons_of_mem _ hy)) ?_
    rw [write_one]
    split
    · rename_i hij
      subst hij
      exact .inl (hall b List.mem_cons_self)
    · rename_i hij
      rcases hsome with h | ⟨y, h⟩
      · exact .inl h
      · rcases List.mem_cons.mp h with h | h
        · cases h; exact absurd rfl hij
        · exact .inr ⟨y, h⟩

/-- What is at `i` at the end was there at first, or has been stored. -/
theorem legal_origin {f g : Flat} {l : List Act} {i : Nat} (h : Legal f l g) :
    g i = f i ∨ .put i (g i) ∈ l := by
  induction h with
  | nil f => exact .inl rfl
  | get f g j b l hb h ih => exact ih.imp_right (List.mem_cons_of_mem _)
  | msg f g m l h ih => exact ih.imp_right (List.mem_cons_of_mem _)
  | put f g j b l h ih =>
    rcases ih with h1 | h1
    · rw [write_one] at h1
      split at h1
      · rename_i hij
        subst hij
        rw [h1]
        exact .inr List.mem_cons_self
      · exact .inl h1
    · exact .inr (List.mem_cons_of_mem _ h1)

theorem visible_split {h : List Ev} {x z : List (Nat × Ext)} {y : Nat × Ext}
    (hv : visible h = x ++ y :: z) :
    ∃ h1 ev h2, h = h1 ++ ev :: h2 ∧ visible h1 = x ∧ visible [ev] = [y] ∧ visible h2 = z := by
  induction h generalizing x with
  | nil => simp [visible] at hv
  | cons ev h ih =>
    have hc : visible (ev :: h) = visible [ev] ++ visible h := visible_append [ev] h
    have hcase : visible [ev] = [] ∨ ∃ y', visible [ev] = [y'] := by
      cases ev with
      | recv s j => exact .inr ⟨_, rfl⟩
      | act s j a =>
        cases a with
        | get i b => exact .inl rfl
        | put i b => exact .inl rfl
        | msg m => exact .inr ⟨_, rfl⟩
    rcases hcase with h0 | ⟨y', h1⟩
    · rw [hc, h0, List.nil_append] at hv
      obtain ⟨h1, ev', h2, rfl, a1, a2, a3⟩ := ih hv
      refine ⟨ev :: h1, ev', h2, rfl, ?_, a2, a3⟩
      rw [show ev :: h1 = [ev] ++ h1 from rfl, visible_append, h0, a1, List.nil_append]
    · rw [hc, h1] at hv
      cases x with
      | nil =>
        simp only [List.nil_append, List.cons_append, List.cons.injEq] at hv
        exact ⟨[], ev, h, rfl, rfl, by rw [h1, hv.1], hv.2⟩
      | cons x0 x =>
        simp only [List.nil_append, List.cons_append, List.cons.injEq] at hv
        obtain ⟨b1, ev', b2, rfl, a1, a2, a3⟩ := ih hv.2
        refine ⟨ev :: b1, ev', b2, rfl, ?_, a2, a3⟩
        rw [show ev :: b1 = [ev] ++ b1 from rfl, visible_append, h1, a1, hv.1, List.singleton_append]

theorem visible_recv {ev : Ev} {s : Nat} {j : Job} (h : visible [ev] = [(s, .recv j)]) :
    ev = .recv s j := by
  cases ev with
  | recv s' j' => simp [visible] at h; rw [h.1, h.2]
  | act s' j' a => cases a <;> simp [visible] at h

theorem visible_sent {ev : Ev} {s jid : Nat} {m : Msg} (h : visible [ev] = [(s, .sent jid m)]) :
    ev = .act s jid (.msg m) := by
  cases ev with
  | recv s' j' => simp [visible] at h
  | act s' j' a =>
    cases a with
    | get i b => simp [visible] at h
    | put i b => simp [visible] at h
    | msg m' => simp [visible] at h; rw [h.1, h.2.1, h.2.2]

theorem mem_visible_recv {s : Nat} {j : Job} {h : List Ev} :
    (s, .recv j) ∈ visible h ↔ .recv s j ∈ h := by
  fun_induction visible h <;> simp_all

theorem mem_visible_sent {s jid : Nat} {m : Msg} {h : List Ev} :
    (s, .sent jid m) ∈ visible h ↔ .act s jid (.msg m) ∈ h := by
  fun_induction visible h <;> simp_all

theorem mem_recvs {s : Nat} {j : Job} {h : List Ev} : j ∈ recvs s h ↔ .recv s j ∈ h := by
  fun_induction recvs s h <;> simp_all
  intro hh; exact absurd hh.symm ‹_›

theorem mem_mine {s jid : Nat} {x : Act} {h : List Ev} : x ∈ mine s jid h ↔ .act s jid x ∈ h := by
  fun_induction mine s jid h <;> simp_all
  rename_i hne _
  intro h1 h2
  exact absurd h2.symm (hne h1.symm)

theorem mem_acts {x : Act} {h : List Ev} : x ∈ acts h ↔ ∃ s jid, .act s jid x ∈ h := by
  induction h with
  | nil => simp [acts]
  | cons ev h ih =>
    cases ev with
    | recv s j => simp [acts, ih]
    | act s j a =>
      simp only [acts, List.mem_cons, ih, Ev.act.injEq]
      constructor
      · rintro (rfl | ⟨s', j', h⟩)
        · exact ⟨s, j, .inl ⟨rfl, rfl, rfl⟩⟩
        · exact ⟨s', j', .inr h⟩
      · rintro ⟨s', j', ⟨_, _, rfl⟩ | h⟩
        · exact .inl rfl
        · exact .inr ⟨s', j', h⟩

/-- What is known of a history: commands are `cmd`; every request read has been carried out, or
could still be. -/
structure Hist (C : Nat → Cmd → List Act → Prop) (cmd : Job → Cmd)
    (f g : Flat) (h : List Ev) : Prop where
  causal : Causal h
  legal : Legal f (acts h) g
  ids : ∀ sid, ((recvs sid h).map Job.id).Nodup
  does : ∀ sid, ∀ j ∈ recvs sid h, ∃ more, C sid (cmd j) (mine sid j.id h ++ more)
  data : ∀ sid, ∀ j ∈ recvs sid h, (cmd j).code = 1 → (cmd j).data.length = (cmd j).len

section
variable {C : Nat → Cmd → List Act → Prop} {good : Nat → Prop} {cmd : Job → Cmd} {f g : Flat}
  {h : List Ev}

theorem eq_of_ids {l : List Job} (hn : (l.map Job.id).Nodup) {a b : Job} (ha : a ∈ l) (hb : b ∈ l)
    (hid : a.id = b.id) : a = b := by
  obtain ⟨i, hi, rfl⟩ := List.getElem_of_mem ha
  obtain ⟨k, hk, rfl⟩ := List.getElem_of_mem hb
  have : i = k := by
    refine (List.getElem_inj (h₀ := by simpa using hi) (h₁ := by simpa using hk) hn).mp ?_
    simpa using hid
  subst this
  rfl

/-- Nothing is done for a request before it is read. -/
theorem Hist.before (hh : Hist C cmd f g h) {h1 h2 : List Ev} {sid : Nat} {j : Job}
    (hs : h = h1 ++ .recv sid j :: h2) : mine sid j.id h1 = [] := by
  cases hm : mine sid j.id h1 with
  | nil => rfl
  | cons x xs =>
    exfalso
    have hx : .act sid j.id x ∈ h1 := mem_mine.mp (by rw [hm]; exact List.mem_cons_self)
    obtain ⟨p, q, rfl⟩ := List.append_of_mem hx
    obtain ⟨j', hj', hid⟩ := hh.causal p sid j.id x (q ++ .recv sid j :: h2) (by rw [hs]; simp)
    have hn := hh.ids sid
    rw [hs, recvs_append, recvs_append, List.map_append, List.map_append, List.append_assoc,
      List.nodup_append] at hn
    refine hn.2.2 j'.id (List.mem_map_of_mem hj') j.id ?_ hid
    refine List.mem_append_right _ ?_
    simp [recvs]

/-- Nothing is done for a request after its answer. -/
theorem Hist.after (hh : Hist C cmd f g h) (law : ∀ sid, Law good (C sid)) {h1 h2 : List Ev} {sid : Nat} {j : Job}
    (hj : j ∈ recvs sid h) (hs : h = h1 ++ h2) {m : Msg} (hm : .act sid j.id (.msg m) ∈ h1)
    (hf : (cmd j).code ≠ 0 ∨ Finishes m.bytes) : mine sid j.id h2 = [] := by
  obtain ⟨more, hc⟩ := hh.does sid j hj
  have hm1 : .msg m ∈ mine sid j.id h1 := mem_mine.mpr hm
  obtain ⟨u, t, hu⟩ := List.append_of_mem hm1
  rw [hs, mine_append, hu] at hc
  have hfin : Finishes m.bytes := by
    rcases hf with h0 | h0
    · exact (law sid).finishes hc h0 (by simp)
    · exact h0
  have := (law sid).finished hc (u := u) (m := m) (t := t ++ mine sid j.id h2 ++ more) (by simp) hfin
  simp only [List.append_eq_nil_iff] at this
  exact this.1.2

/-- A byte that a finished read delivers was seen there, after the read was received. -/
theorem Hist.seen (hh : Hist C cmd f g h) (law : ∀ sid, Law good (C sid)) {h1 h2 h3 : List Ev}
    {sid : Nat} {R : Job} {last m : Msg} (hs : h = h1 ++ .recv sid R :: (h2 ++ .act sid R.id (.msg last) :: h3))
    (hc0 : (cmd R).code = 0) (hlast : Finishes last.bytes) {i : Nat} {b : Byte}
    (hm : .act sid R.id (.msg m) ∈ h) (hb : Delivers (cmd R) m.bytes i b) :
    .act sid R.id (.get i b) ∈ h2 := by
  have hR : R ∈ recvs sid h := mem_recvs.mpr (by rw [hs]; simp)
  obtain ⟨more, hc⟩ := hh.does sid R hR
  have hg := (law sid).delivers hc hc0 (List.mem_append_left _ (mem_mine.mpr hm)) hb
  have hbefore := hh.before hs
  have hsplit : mine sid R.id h = mine sid R.id h2 ++ .msg last :: mine sid R.id h3 := by
    rw [hs, mine_append, hbefore]
    simp [mine, mine_append]
  rw [hsplit] at hc hg
  have hnil := (law sid).finished hc (u := mine sid R.id h2) (m := last)
    (t := mine sid R.id h3 ++ more) (by simp) hlast
  rw [List.append_assoc, List.cons_append, hnil] at hg
  rcases List.mem_append.mp hg with hg | hg
  · exact mem_mine.mp hg
  · simp at hg

/-- After an acknowledged write, and as long as nothing else may store there, the byte is there. -/
theorem Hist.holds (hh : Hist C cmd f g h) (law : ∀ sid, Law good (C sid)) {ha hb hc hd : List Ev} {s1 : Nat} {W : Job}
    {ok : Msg} {i : Nat} {x : Byte} {k : Flat} (hgood : good i)
    (hs : h = (ha ++ .recv s1 W :: (hb ++ .act s1 W.id (.msg ok) :: hc)) ++ hd)
    (hW : Stores (cmd W) i x) (hok : ok.bytes = (Reply.simple 0 (cmd W).cookie []).encode)
    (hothers : ∀ sid j, .recv sid j ∈ ha ++ hb ++ hc → Touches (cmd j) i →
      ∃ m, .act sid j.id (.msg m) ∈ ha)
    (hk : Legal f (acts (ha ++ .recv s1 W :: (hb ++ .act s1 W.id (.msg ok) :: hc))) k) :
    k i = x := by
  have hsW : h = ha ++ .recv s1 W :: (hb ++ .act s1 W.id (.msg ok) :: (hc ++ hd)) := by
    rw [hs]; simp
  -- everything since the receipt of the write
  obtain ⟨E, hE⟩ : ∃ E, E = hb ++ .act s1 W.id (.msg ok) :: hc := ⟨_, rfl⟩
  have hs3 : h = (ha ++ [.recv s1 W]) ++ (E ++ hd) := by rw [hs, hE]; simp
  rw [← hE, show ha ++ .recv s1 W :: E = (ha ++ [.recv s1 W]) ++ E by simp, acts_append] at hk
  obtain ⟨k1, _, hE1⟩ := Legal.split hk
  have hWmem : W ∈ recvs s1 h := mem_recvs.mpr (by rw [hs]; simp)
  -- the write has stored x in E
  have hsw : h = (ha ++ .recv s1 W :: (hb ++ [.act s1 W.id (.msg ok)])) ++ (hc ++ hd) := by
    rw [hs]; simp
  have hWc : (cmd W).code ≠ 0 := by rcases hW with ⟨h, _⟩ | ⟨h, _⟩ <;> omega
  have hafter := hh.after law hWmem hsw (m := ok) (by simp) (.inl hWc)
  obtain ⟨more, hcomp⟩ := hh.does s1 W hWmem
  have hmine : mine s1 W.id h = mine s1 W.id hb ++ [.msg ok] := by
    rw [hsw, mine_append, hafter, List.append_nil, mine_append, hh.before hsW]
    simp [mine, mine_append]
  have hmore : more = [] := by
    rw [hmine] at hcomp
    exact (law s1).finished hcomp (u := mine s1 W.id hb) (m := ok) (t := more) (by simp)
      ((law s1).finishes hcomp hWc (by simp))
  rw [hmore, List.append_nil] at hcomp
  obtain ⟨p1, p2⟩ := (law s1).stores hgood hcomp hW (m := ok) (by rw [hmine]; simp) hok
  have p1' : .act s1 W.id (.put i x) ∈ hb := by
    rw [hmine] at p1
    rcases List.mem_append.mp p1 with p1 | p1
    · exact mem_mine.mp p1
    · simp at p1
  have hsome : ∃ z, .put i z ∈ acts E :=
    ⟨x, mem_acts.mpr ⟨s1, W.id, by rw [hE]; exact List.mem_append_left _ p1'⟩⟩
  refine legal_value hE1 ?_ (.inr hsome)
  -- nothing else has
  intro z hz
  obtain ⟨sid, jid, hz⟩ := mem_acts.mp hz
  have hzh : .act sid jid (.put i z) ∈ h := by
    rw [hs3]; exact List.mem_append_right _ (List.mem_append_left _ hz)
  by_cases hisW : sid = s1 ∧ jid = W.id
  · obtain ⟨rfl, rfl⟩ := hisW
    exact p2 z (mem_mine.mpr hzh)
  · exfalso
    obtain ⟨e1, e2, he⟩ := List.append_of_mem hz
    obtain ⟨j, hj, hid⟩ := hh.causal (ha ++ [.recv s1 W] ++ e1) sid jid (.put i z) (e2 ++ hd)
      (by rw [hs3, he]; simp)
    subst hid
    have hjE : .recv sid j ∈ ha ++ [.recv s1 W] ++ e1 := mem_recvs.mp hj
    have hjh : j ∈ recvs sid h := by
      refine mem_recvs.mpr ?_
      rw [hs3, he]
      simp only [List.mem_append] at hjE ⊢
      rcases hjE with hjE | hjE
      · exact .inl hjE
      · exact .inr (.inl (.inl hjE))
    obtain ⟨more', hcj⟩ := hh.does sid j hjh
    have hput : .put i z ∈ mine sid j.id h ++ more' :=
      List.mem_append_left _ (mem_mine.mpr hzh)
    have htouch := ((law sid).mayStore hgood hcj (hh.data sid j hjh) hput).1
    have hj0 : (cmd j).code ≠ 0 := by
      intro h0
      have := htouch.1
      rw [h0] at this
      revert this; decide
    have hjrecv : .recv sid j ∈ ha ++ hb ++ hc := by
      have hin : .recv sid j ∈ ha ++ [.recv s1 W] ++ E := by
        rw [he]
        simp only [List.mem_append] at hjE ⊢
        rcases hjE with hjE | hjE
        · exact .inl hjE
        · exact .inr (.inl hjE)
      rw [hE] at hin
      simp only [List.mem_append, List.mem_cons, List.not_mem_nil, or_false, Ev.recv.injEq,
        reduceCtorEq, false_or] at hin
      rcases hin with (hin | ⟨h1, h2⟩) | hin | hin
      · simp [hin]
      · exact absurd ⟨h1, by rw [h2]⟩ hisW
      · simp [hin]
      · simp [hin]
    obtain ⟨m', hm'⟩ := hothers sid j hjrecv htouch
    have := hh.after law hjh hs3 (m := m') (List.mem_append_left _ hm') (.inl hj0)
    have hzE : .put i z ∈ mine sid j.id (E ++ hd) := mem_mine.mpr (List.mem_append_left _ hz)
    rw [this] at hzE
    cases hzE

/-- The latest write. -/
theorem Hist.latest (hh : Hist C cmd f g h) (law : ∀ sid, Law good (C sid))
    {ha hb hb' hc hd : List Ev} {s1 s2 : Nat} {W R : Job} {ok last m : Msg} {i : Nat} {x y : Byte}
    (hgood : good i)
    (hs : h = ha ++ .recv s1 W :: (hb ++ .act s1 W.id (.msg ok) :: (hb' ++ .recv s2 R ::
      (hc ++ .act s2 R.id (.msg last) :: hd))))
    (hW : Stores (cmd W) i x) (hok : ok.bytes = (Reply.simple 0 (cmd W).cookie []).encode)
    (hR : (cmd R).code = 0) (hlast : Finishes last.bytes)
    (hothers : ∀ sid j, .recv sid j ∈ ha ++ hb ++ hb' ++ hc → Touches (cmd j) i →
      ∃ m, .act sid j.id (.msg m) ∈ ha)
    (hm : .act s2 R.id (.msg m) ∈ h) (hy : Delivers (cmd R) m.bytes i y) : y = x := by
  have hs2 : h = (ha ++ .recv s1 W :: (hb ++ .act s1 W.id (.msg ok) :: hb')) ++ .recv s2 R ::
      (hc ++ .act s2 R.id (.msg last) :: hd) := by rw [hs]; simp
  have hget := hh.seen law hs2 hR hlast hm hy
  obtain ⟨c1, c2, rfl⟩ := List.append_of_mem hget
  have hs3 : h = (ha ++ .recv s1 W :: (hb ++ .act s1 W.id (.msg ok) :: (hb' ++ .recv s2 R :: c1)))
      ++ .act s2 R.id (.get i y) :: (c2 ++ .act s2 R.id (.msg last) :: hd) := by rw [hs]; simp
  have hleg := hh.legal
  rw [hs3, acts_append] at hleg
  obtain ⟨k, hk, hleg⟩ := Legal.split hleg
  have hval : k i = y := by
    simp only [acts] at hleg
    cases hleg with
    | get _ _ _ _ _ hb _ => exact hb
  rw [← hval]
  refine hh.holds law hgood hs3 hW hok ?_ hk
  intro sid j hj ht
  refine hothers sid j ?_ ht
  simp only [List.mem_append, List.mem_cons, Ev.recv.injEq] at hj ⊢
  rcases hj with (hj | hj) | hj | ⟨rfl, rfl⟩ | hj
  · simp [hj]
  · simp [hj]
  · simp [hj]
  · have := ht.1
    rw [hR] at this
    exact absurd this (by decide)
  · simp [hj]

/-- Where a byte seen by a read comes from. -/
theorem Hist.origin (hh : Hist C cmd f g h) (law : ∀ sid, Law good (C sid))
    {h1 h2 h3 : List Ev} {sid : Nat} {R : Job} {last m : Msg} {i : Nat} {y : Byte}
    (hs : h = h1 ++ .recv sid R :: (h2 ++ .act sid R.id (.msg last) :: h3))
    (hR : (cmd R).code = 0) (hlast : Finishes last.bytes)
    (hm : .act sid R.id (.msg m) ∈ h) (hy : Delivers (cmd R) m.bytes i y) :
    y = f i ∨ (∃ s j, .recv s j ∈ h1 ++ h2 ∧ MayStore (cmd j) i y) ∨ (¬ good i ∧ y = 0) := by
  have hget := hh.seen law hs hR hlast hm hy
  obtain ⟨c1, c2, rfl⟩ := List.append_of_mem hget
  have hs3 : h = (h1 ++ .recv sid R :: c1)
      ++ .act sid R.id (.get i y) :: (c2 ++ .act sid R.id (.msg last) :: h3) := by rw [hs]; simp
  have hleg := hh.legal
  rw [hs3, acts_append] at hleg
  obtain ⟨k, hk, hleg⟩ := Legal.split hleg
  have hval : k i = y := by
    simp only [acts] at hleg
    cases hleg with
    | get _ _ _ _ _ hb _ => exact hb
  rcases legal_origin (i := i) hk with h0 | h0
  · left; rw [← hval, h0]
  · right
    rw [hval] at h0
    obtain ⟨s, jid, h0⟩ := mem_acts.mp h0
    obtain ⟨e1, e2, he⟩ := List.append_of_mem h0
    obtain ⟨j, hj, hid⟩ := hh.causal e1 s jid (.put i y) (e2 ++
      .act sid R.id (.get i y) :: (c2 ++ .act sid R.id (.msg last) :: h3)) (by rw [hs3, he]; simp)
    subst hid
    have hjh : j ∈ recvs s h := by
      rw [hs3, he, List.append_assoc, recvs_append]
      exact List.mem_append_left _ hj
    obtain ⟨more', hcj⟩ := hh.does s j hjh
    have hput : .put i y ∈ mine s j.id h ++ more' :=
      List.mem_append_left _ (mem_mine.mpr (by rw [hs3]; exact List.mem_append_left _ h0))
    rcases (law s).puts hcj (hh.data s j hjh) hput with hmay | hmay
    case inr => exact .inr hmay
    refine .inl ⟨s, j, ?_, hmay⟩
    have hin : .recv s j ∈ h1 ++ .recv sid R :: c1 := by
      rw [he]; exact List.mem_append_left _ (mem_recvs.mp hj)
    simp only [List.mem_append, List.mem_cons, Ev.recv.injEq] at hin ⊢
    rcases hin with hin | ⟨_, rfl⟩ | hin
    · simp [hin]
    · have := hmay.1.1
      rw [hR] at this
      exact absurd this (by decide)
    · simp [hin]

end

end Nbd
