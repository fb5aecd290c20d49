import Verif.SchedRun
import Verif.PlainLemmas
import Verif.SetupLemmas
/-! # What the program of one request does to the array, step by step -/

set_option autoImplicit false

namespace Nbd

namespace Spec

/-- Seeing the bytes `bs` at `a`, one after the other. -/
def gets : Nat → List Byte → List Act
  | _, [] => []
  | a, b :: bs => .get a b :: gets (a + 1) bs

/-- Storing the bytes `bs` at `a`, one after the other. -/
def puts : Nat → List Byte → List Act
  | _, [] => []
  | a, b :: bs => .put a b :: puts (a + 1) bs

/-- The accesses to the array, without the messages. -/
def Act.accesses : List Act → List Act
  | [] => []
  | .msg _ :: l => accesses l
  | .get i b :: l => .get i b :: accesses l
  | .put i b :: l => .put i b :: accesses l

/-- Zero bytes stored in a range, in any order, any number of times. -/
def Zeroing (start len : Nat) (l : List Act) : Prop :=
  ∀ x ∈ l, ∃ i, x = .put i 0 ∧ start ≤ i ∧ i < start + len

/-- The byte accesses and the replies of one command on an array of `size` bytes. A read that
succeeds sees each byte of its range once, in order, and sends these bytes; a write that succeeds
stores each byte of its data once, in order; one that fails has stored a prefix. A flush or a
refused command accesses nothing. -/
inductive Does (size : Nat) (ro : Bool) (framing : List Bool) (c : Cmd) :
    List Act → List Reply → Prop where
  | read (data : List Byte) (rs : List Reply) (hc : c.code = 0) (hr : c.start + c.len ≤ size)
      (hl : data.length = c.len) (m : Bool) (hm : m ∈ framing)
      (h : ReadAnswer c.cookie c.start data m rs) :
      Does size ro framing c (gets c.start data) rs
  | readFails (data : List Byte) (rs : List Reply) (hc : c.code = 0) (hr : c.start + c.len ≤ size)
      (hl : data.length ≤ c.len) (m : Bool) (hm : m ∈ framing)
      (h : ReadFailure c.cookie c.start data m rs) :
      Does size ro framing c (gets c.start data) rs
  | write (hc : c.code = 1) (hw : ro = false) (hr : c.start + c.len ≤ size) :
      Does size ro framing c (puts c.start c.data) [.simple 0 c.cookie []]
  | writeFails (hc : c.code = 1) (hw : ro = false) (hr : c.start + c.len ≤ size) (err n : Nat)
      (he : err ∈ errnos) :
      Does size ro framing c (puts c.start (c.data.take n)) [.simple err c.cookie []]
  | zeroes (hc : c.code = 6) (hw : ro = false) (hr : c.start + c.len ≤ size)
      (hl : c.len ≤ 2 ^ 26) :
      Does size ro framing c (puts c.start (Flat.zeros c.len)) [.simple 0 c.cookie []]
  | zeroesFails (hc : c.code = 6) (hw : ro = false) (hr : c.start + c.len ≤ size) (err : Nat)
      (l : List Act) (hz : Zeroing c.start c.len l) (he : err ∈ errnos) :
      Does size ro framing c l [.simple err c.cookie []]
  /-- more than 64 MiB: only the first 64 MiB are sure to be written (see C09) -/
  | zeroesBig (hc : c.code = 6) (hw : ro = false) (hr : c.start + c.len ≤ size)
      (hl : 2 ^ 26 < c.len) (l : List Act) (hz : Zeroing c.start c.len l)
      (hf : ∀ i, c.start ≤ i → i < c.start + 2 ^ 26 → .put i 0 ∈ l) :
      Does size ro framing c l [.simple 0 c.cookie []]
  | flush (hc : c.code = 3) (err : Nat) (he : err = 0 ∨ err ∈ errnos) :
      Does size ro framing c [] [.simple err c.cookie []]
  | trim (hc : c.code = 4) (hw : ro = false) (hr : c.start + c.len ≤ size) (l : List Act)
      (hz : Zeroing c.start c.len l) :
      Does size ro framing c l [.simple 0 c.cookie []]
  | refused (err : Nat) (he : err ∈ errnos)
      (why : c.code ∉ [0, 1, 3, 4, 6] ∨ (c.code ∈ [1, 4, 6] ∧ ro = true) ∨
        (c.code ∈ [0, 1, 4, 6] ∧ size < c.start + c.len)) :
      Does size ro framing c [] [.simple err c.cookie []]

/-- `l` is everything done for command `c`: accesses and messages as in `Does`, ending with the
last message (so a final reply is sent only after every access). -/
def Complete (size : Nat) (ro : Bool) (framing : List Bool) (c : Cmd) (l : List Act) : Prop :=
  ∃ rs, (Act.msgs l).map Msg.bytes = rs.map Reply.encode ∧
    Does size ro framing c (Act.accesses l) rs ∧ ∃ init m, l = init ++ [.msg m]

end Spec

open Spec

/-! ### Lists of accesses -/

theorem accesses_append (l m : List Act) :
    Act.accesses (l ++ m) = Act.accesses l ++ Act.accesses m := by
  fun_induction Act.accesses l <;> simp_all [Act.accesses]

theorem gets_append (a : Nat) (xs ys : List Byte) :
    gets a (xs ++ ys) = gets a xs ++ gets (a + xs.length) ys := by
  induction xs generalizing a with
  | nil => rfl
  | cons x xs ih => simp [gets, ih, Nat.add_comm, Nat.add_left_comm]

theorem puts_append (a : Nat) (xs ys : List Byte) :
    puts a (xs ++ ys) = puts a xs ++ puts (a + xs.length) ys := by
  induction xs generalizing a with
  | nil => rfl
  | cons x xs ih => simp [puts, ih, Nat.add_comm, Nat.add_left_comm]

theorem gets_quiet (a : Nat) (bs : List Byte) : Quiet (gets a bs) := by
  induction bs generalizing a with
  | nil => intro x hx; cases hx
  | cons b bs ih =>
    intro x hx
    simp only [gets, List.mem_cons] at hx
    rcases hx with rfl | hx
    · intro m hm; cases hm
    · exact ih _ x hx

theorem puts_quiet (a : Nat) (bs : List Byte) : Quiet (puts a bs) := by
  induction bs generalizing a with
  | nil => intro x hx; cases hx
  | cons b bs ih =>
    intro x hx
    simp only [puts, List.mem_cons] at hx
    rcases hx with rfl | hx
    · intro m hm; cases hm
    · exact ih _ x hx

theorem accesses_quiet {l : List Act} (h : Quiet l) : Act.accesses l = l := by
  induction l with
  | nil => rfl
  | cons x l ih =>
    have ih := ih (fun y hy => h y (List.mem_cons_of_mem _ hy))
    cases x with
    | get i b => simp [Act.accesses, ih]
    | put i b => simp [Act.accesses, ih]
    | msg m => exact absurd rfl (h _ List.mem_cons_self m)

theorem legal_gets (f : Flat) (a : Nat) (bs : List Byte) (h : bs = f.read a bs.length) :
    Legal f (gets a bs) f := by
  induction bs generalizing a with
  | nil => exact .nil f
  | cons b bs ih =>
    have h' : b :: bs = f a :: f.read (a + 1) bs.length := by
      rw [h]
      simp [Flat.read, List.range_succ_eq_map, Function.comp_def, Nat.add_comm, Nat.add_left_comm]
    simp only [List.cons.injEq] at h'
    exact .get _ _ _ _ _ h'.1.symm (ih _ h'.2)

theorem legal_puts (f : Flat) (a : Nat) (bs : List Byte) : Legal f (puts a bs) (f.write a bs) := by
  induction bs generalizing f a with
  | nil =>
    have : f.write a [] = f := by funext i; simp [Flat.write_apply]
    rw [this]; exact .nil f
  | cons b bs ih =>
    have := ih (f.write a [b]) (a + 1)
    have h2 : (f.write a [b]).write (a + 1) bs = f.write a (b :: bs) := by
      have := Flat.write_append f a [b] bs
      simpa using this.symm
    rw [h2] at this
    exact .put _ _ _ _ _ this

theorem zeroing_puts (start len a n : Nat) (h1 : start ≤ a) (h2 : a + n ≤ start + len) :
    Zeroing start len (puts a (Flat.zeros n)) := by
  induction n generalizing a with
  | zero => intro x hx; cases hx
  | succ n ih =>
    intro x hx
    simp only [Flat.zeros, List.replicate_succ, puts, List.mem_cons] at hx
    rcases hx with rfl | hx
    · exact ⟨a, rfl, h1, by omega⟩
    · exact ih (a + 1) (by omega) (by omega) x hx

theorem Zeroing.append {start len : Nat} {l m : List Act} (h1 : Zeroing start len l)
    (h2 : Zeroing start len m) : Zeroing start len (l ++ m) := by
  intro x hx
  rw [List.mem_append] at hx
  exact hx.elim (h1 x) (h2 x)

theorem Zeroing.quiet {start len : Nat} {l : List Act} (h : Zeroing start len l) : Quiet l := by
  intro x hx m hm
  obtain ⟨i, rfl, _⟩ := h x hx
  cases hm

/-- Any change that only zeroes bytes of a range is a list of such accesses. -/
theorem legal_zeroing (start len : Nat) (f g : Flat)
    (hin : ∀ i, start ≤ i → i < start + len → g i = f i ∨ g i = 0)
    (hout : ∀ i, i < start ∨ start + len ≤ i → g i = f i) :
    ∃ l, Zeroing start len l ∧ Legal f l g := by
  induction len generalizing f with
  | zero =>
    have : g = f := by funext i; exact hout i (by omega)
    subst this
    exact ⟨[], (by intro x hx; cases hx), .nil _⟩
  | succ n ih =>
    have hlast := hin (start + n) (by omega) (by omega)
    by_cases hz : g (start + n) = 0
    · obtain ⟨l, h1, h2⟩ := ih (f.write (start + n) [0]) (by
          intro i h1 h2
          have : (f.write (start + n) [0]) i = f i := by
            rw [Flat.write_apply, dif_neg (by simp only [List.length_singleton]; omega)]
          rw [this]
          exact hin i h1 (by omega)) (by
          intro i hi
          by_cases he : i = start + n
          · subst he
            rw [Flat.write_apply]
            simp [hz]
          · rw [Flat.write_apply, dif_neg (by simp only [List.length_singleton]; omega)]
            exact hout i (by omega))
      refine ⟨.put (start + n) 0 :: l, ?_, .put _ _ _ _ _ h2⟩
      intro x hx
      rw [List.mem_cons] at hx
      rcases hx with rfl | hx
      · exact ⟨_, rfl, by omega, by omega⟩
      · obtain ⟨i, q1, q2, q3⟩ := h1 x hx
        exact ⟨i, q1, q2, by omega⟩
    · have he : g (start + n) = f (start + n) := hlast.resolve_right hz
      obtain ⟨l, h1, h2⟩ := ih f (fun i h1 h2 => hin i h1 (by omega)) (by
          intro i hi
          by_cases hq : i = start + n
          · rw [hq]; exact he
          · exact hout i (by omega))
      refine ⟨l, ?_, h2⟩
      intro x hx
      obtain ⟨i, q1, q2, q3⟩ := h1 x hx
      exact ⟨i, q1, q2, by omega⟩

/-! ### System calls -/

/-- `Good` for a call that accesses the array as `R` says. -/
theorem call_good {α : Type} {ex : Export} {P Q : List Act → Prop} {f : World → Out (World × α)}
    {en : Nat} {k : α → Nat → Prog World} {l : List Act} (hq : Q l)
    (h : ∀ w w' a, f w = .val (w', a) → ∃ es, Quiet es ∧ Legal (view ex w) es (view ex w') ∧
      ∀ en', (k a en').Good (view ex) P Q (l ++ es)) :
    (call f en k).Good (view ex) P Q l := by
  refine ⟨hq, ?_⟩
  intro s s' a hf
  dsimp only at hf
  split at hf
  · cases hf
  · cases hf
  · rename_i w' b hb
    cases hf
    obtain ⟨es, h1, h2, h3⟩ := h _ _ _ hb
    exact ⟨es, h1, h2, h3 _⟩

/-- `Good` for a call that changes nothing in the array. -/
theorem call_same {α : Type} {ex : Export} {P Q : List Act → Prop} {f : World → Out (World × α)}
    {en : Nat} {k : α → Nat → Prog World} {l : List Act} (hq : Q l)
    (h : ∀ w w' a, f w = .val (w', a) → SameContent w w' ∧
      ∀ en', (k a en').Good (view ex) P Q l) :
    (call f en k).Good (view ex) P Q l := by
  refine call_good hq ?_
  intro w w' a hf
  obtain ⟨h1, h2⟩ := h w w' a hf
  refine ⟨[], (by intro x hx; cases hx), by rw [h1.view ex]; exact .nil _, ?_⟩
  rw [List.append_nil]
  exact h2

theorem sendReplyP_good {ex : Export} {P Q : List Act → Prop} {lg : Bool} {m : Msg} {en : Nat}
    {l : List Act} (hq : Q l) (hp : P (l ++ [.msg m])) :
    (sendReplyP lg m (.done en)).Good (view ex) P Q l := by
  unfold sendReplyP
  split
  · exact ⟨hq, hq, hp⟩
  · exact ⟨hq, hp⟩

theorem rawPwrite_spec (ex : Export) (hg : GoodExport ex) (w : World) (a : Nat)
    (buf : List Byte) (hr : a + buf.length ≤ ex.exportsize) (hlen : 0 < buf.length)
    (hw : has ex.flags F_READONLY = false) :
    rawPwrite ex a buf w ≠ .ub ∧
    ∀ w' r, rawPwrite ex a buf w = .val (w', r) →
      (r = none → SameContent w w') ∧
      (∀ h, r = some (h, none) → SameContent w w') ∧
      ∀ h n, r = some (h, some n) → n ≤ buf.length ∧ Stored ex w w' a (buf.take n) := by
  obtain ⟨hub, hsp⟩ := rawexpwrite_spec ex hg w a buf false hr hlen hw
  unfold rawPwrite
  unfold rawexpwrite at hub hsp
  cases hq : getFilepos ex w a with
  | ub => rw [hq] at hub; exact absurd rfl hub
  | exit => simp
  | val p =>
    obtain ⟨w1, r1⟩ := p
    rw [hq] at hsp
    cases r1 with
    | none =>
      refine ⟨by simp, ?_⟩
      intro w' r heq
      cases heq
      exact ⟨fun _ => (hsp w1 none rfl).1 rfl, by simp, by simp⟩
    | some x =>
      obtain ⟨h, off, mb⟩ := x
      dsimp only at hsp ⊢
      refine ⟨by simp, ?_⟩
      intro w' r heq
      cases heq
      have hs2 : SameContent (handlePwrite w1 h off (buf.take (clip mb buf.length))).1
          (if (has ex.flags F_SYNC || false) = true then
            handleSyncIgnored (handlePwrite w1 h off (buf.take (clip mb buf.length))).1 h
           else (handlePwrite w1 h off (buf.take (clip mb buf.length))).1) := by
        split
        · exact handleSyncIgnored_content _ h
        · exact SameContent.refl _
      have := hsp _ _ rfl
      refine ⟨by simp, ?_, ?_⟩
      · intro h' hh
        simp only [Option.some.injEq, Prod.mk.injEq] at hh
        intro x
        rw [← hs2 x]
        exact this.1 hh.2 x
      · intro h' n hh
        simp only [Option.some.injEq, Prod.mk.injEq] at hh
        obtain ⟨q1, q2⟩ := this.2 n hh.2
        refine ⟨q1, ?_, ?_⟩
        · intro k hk
          obtain ⟨x, x1, x2⟩ := q2.inside k hk
          exact ⟨x, x1, by rw [← x2, hs2 x]⟩
        · intro x hx
          rw [← q2.outside x hx, hs2 x]

/-! ### Writes -/

theorem writeFullyP_good {ex : Export} (hg : GoodExport ex)
    (hw : has ex.flags F_READONLY = false) {P Q : List Act → Prop} (fua : Bool)
    (k : Bool → Nat → Prog World) (a0 : Nat) (full : List Byte) (l0 : List Act)
    (hr : a0 + full.length ≤ ex.exportsize)
    (hQ : ∀ d rest, d ++ rest = full → Q (l0 ++ puts a0 d))
    (hk : ∀ ok en d rest, d ++ rest = full → (ok = true → rest = []) →
      (k ok en).Good (view ex) P Q (l0 ++ puts a0 d))
    (n : Nat) : ∀ (d buf : List Byte) (en : Nat), buf.length = n → d ++ buf = full →
      (writeFullyP ex fua k (a0 + d.length) buf en).Good (view ex) P Q (l0 ++ puts a0 d) := by
  induction n using Nat.strongRecOn with
  | _ n ih =>
    intro d buf en hn hd
    unfold writeFullyP
    split
    · rename_i h0
      exact hk _ _ d buf hd (fun _ => List.eq_nil_of_length_eq_zero h0)
    · rename_i h0
      have hlen : d.length + buf.length = full.length := by rw [← hd, List.length_append]
      refine call_good (hQ d buf hd) ?_
      intro w w' r hf
      obtain ⟨s1, s2, s3⟩ := (rawPwrite_spec ex hg w (a0 + d.length) buf (by omega) (by omega) hw).2 _ _ hf
      have hsync : ∀ (h : Handle) (l : List Act) (next : Nat → Prog World), Q l →
          (∀ en, (next en).Good (view ex) P Q l) →
          ∀ en, (if has ex.flags F_SYNC || fua then
            call (fun w => .val (handleSyncIgnored w h, ())) en fun _ en => next en
            else next en).Good (view ex) P Q l := by
        intro h l next hq hn en
        split
        · refine call_same hq ?_
          intro w w' a hh
          cases hh
          exact ⟨handleSyncIgnored_content w h, hn⟩
        · exact hn en
      have none' : ∀ {r : Option (Handle × Option Nat)}, SameContent w w' →
          (∀ en', Prog.Good (view ex) P Q (match r with
            | none => k false en'
            | some (h, x) =>
              let next := fun en =>
                match x with
                | none => k false en
                | some 0 => k false en
                | some (n + 1) => writeFullyP ex fua k (a0 + d.length + (n + 1)) (buf.drop (n + 1)) en
              if has ex.flags F_SYNC || fua then
                call (fun w => .val (handleSyncIgnored w h, ())) en' fun _ en => next en
              else next en') (l0 ++ puts a0 d)) →
          ∃ es, Quiet es ∧ Legal (view ex w) es (view ex w') ∧
          ∀ en', Prog.Good (view ex) P Q (match r with
            | none => k false en'
            | some (h, x) =>
              let next := fun en =>
                match x with
                | none => k false en
                | some 0 => k false en
                | some (n + 1) => writeFullyP ex fua k (a0 + d.length + (n + 1)) (buf.drop (n + 1)) en
              if has ex.flags F_SYNC || fua then
                call (fun w => .val (handleSyncIgnored w h, ())) en' fun _ en => next en
              else next en') (l0 ++ puts a0 d ++ es) := by
        intro r hs hgd
        refine ⟨[], (by intro x hx; cases hx), by rw [hs.view ex]; exact .nil _, ?_⟩
        rw [List.append_nil]
        exact hgd
      cases r with
      | none => exact none' (r := none) (s1 rfl) (fun en' => hk _ _ d buf hd (by simp))
      | some x =>
        obtain ⟨h, x⟩ := x
        cases x with
        | none =>
          refine none' (r := some (h, none)) (s2 h rfl) (fun en' => ?_)
          exact hsync h _ (fun en => k false en) (hQ d buf hd) (fun en => hk _ _ d buf hd (by simp)) en'
        | some m =>
          obtain ⟨t1, t2⟩ := s3 h m rfl
          have hview := t2.view hg (by rw [List.length_take]; omega)
          cases m with
          | zero =>
            refine ⟨[], (by intro x hx; cases hx), ?_, ?_⟩
            · rw [hview]
              have : (view ex w).write (a0 + d.length) (buf.take 0) = view ex w := by
                funext i; simp [Flat.write_apply]
              rw [this]; exact .nil _
            · intro en'
              rw [List.append_nil]
              exact hsync h _ (fun en => k false en) (hQ d buf hd) (fun en => hk _ _ d buf hd (by simp)) en'
          | succ m =>
            refine ⟨puts (a0 + d.length) (buf.take (m + 1)), puts_quiet _ _, ?_, ?_⟩
            · rw [hview]; exact legal_puts _ _ _
            · intro en'
              rw [List.append_assoc, ← puts_append]
              have hsplit : (d ++ buf.take (m + 1)) ++ buf.drop (m + 1) = full := by
                rw [List.append_assoc, List.take_append_drop, hd]
              have hlt : (d ++ buf.take (m + 1)).length = d.length + (m + 1) := by
                rw [List.length_append, List.length_take, Nat.min_eq_left t1]
              refine hsync h _ (fun en => writeFullyP ex fua k (a0 + d.length + (m + 1)) (buf.drop (m + 1)) en)
                (hQ _ _ hsplit) (fun en => ?_) en'
              have := ih (buf.drop (m + 1)).length (by rw [List.length_drop]; omega)
                (d ++ buf.take (m + 1)) (buf.drop (m + 1)) en rfl hsplit
              rw [hlt, ← Nat.add_assoc] at this
              exact this

/-! ### Write-zeroes -/

theorem puts_zeros_mem (a n k : Nat) (h : k < n) : .put (a + k) 0 ∈ puts a (Flat.zeros n) := by
  induction n generalizing a k with
  | zero => omega
  | succ n ih =>
    show _ ∈ puts a (0 :: Flat.zeros n)
    rw [puts, List.mem_cons]
    cases k with
    | zero => exact .inl rfl
    | succ k =>
      right
      have := ih (a + 1) k (by omega)
      rwa [show a + 1 + k = a + (k + 1) by omega] at this

theorem zeroes_first {start len i : Nat} {l : List Act} (h : puts start (Flat.zeros (min len ZEROCHUNK)) <+: l)
    (hl : ZEROCHUNK < len) (h1 : start ≤ i) (h2 : i < start + ZEROCHUNK) : .put i 0 ∈ l := by
  have := puts_zeros_mem start (min len ZEROCHUNK) (i - start) (by omega)
  rw [show start + (i - start) = i by omega] at this
  exact h.subset this

theorem writeZeroesP_good {ex : Export} (hg : GoodExport ex)
    (hw : has ex.flags F_READONLY = false) {P Q : List Act → Prop} (fua : Bool)
    (k : Bool → Nat → Prog World) (start len : Nat) (hr : start + len ≤ ex.exportsize)
    (hQ : ∀ l, Zeroing start len l → Q l)
    (hk : ∀ ok en l, Zeroing start len l →
      (ok = true → puts start (Flat.zeros (min len ZEROCHUNK)) <+: l ∧
        (len ≤ ZEROCHUNK → l = puts start (Flat.zeros len))) →
      (k ok en).Good (view ex) P Q l)
    (n : Nat) : ∀ (l0 : List Act) (en : Nat), n ≤ len → Zeroing start len l0 →
      (n = len ∧ l0 = []) ∨ (puts start (Flat.zeros (min len ZEROCHUNK)) <+: l0 ∧
        (len ≤ ZEROCHUNK → n = 0 ∧ l0 = puts start (Flat.zeros len))) →
      (writeZeroesP ex fua k start n en).Good (view ex) P Q l0 := by
  induction n using Nat.strongRecOn with
  | _ n ih =>
    intro l0 en hn hz hl0
    unfold writeZeroesP
    split
    · rename_i h0
      refine hk _ _ _ hz ?_
      intro _
      rcases hl0 with ⟨h1, h2⟩ | ⟨h1, h2⟩
      · subst h2
        have : len = 0 := by omega
        subst this
        exact ⟨List.prefix_refl _, fun _ => rfl⟩
      · exact ⟨h1, fun hsm => (h2 hsm).2⟩
    · rename_i h0
      have hzl : (Flat.zeros (min n ZEROCHUNK)).length = min n ZEROCHUNK := by simp [Flat.zeros]
      have hpre : ∀ d rest, d ++ rest = Flat.zeros (min n ZEROCHUNK) →
          d = Flat.zeros d.length ∧ d.length ≤ len := by
        intro d rest hd
        have hlen := congrArg List.length hd
        rw [hzl, List.length_append] at hlen
        refine ⟨?_, by omega⟩
        unfold Flat.zeros at hd ⊢
        apply List.eq_replicate_iff.mpr
        refine ⟨rfl, ?_⟩
        intro b hb
        have : b ∈ List.replicate (min n ZEROCHUNK) (0 : Byte) := by
          rw [← hd]; exact List.mem_append_left _ hb
        exact List.eq_of_mem_replicate this
      have hzd : ∀ d rest, d ++ rest = Flat.zeros (min n ZEROCHUNK) →
          Zeroing start len (l0 ++ puts start d) := by
        intro d rest hd
        obtain ⟨h1, h2⟩ := hpre d rest hd
        rw [h1]
        exact Zeroing.append hz (zeroing_puts start len start _ (by omega) (by omega))
      have := writeFullyP_good hg hw (P := P) (Q := Q) fua
        (fun ok en => if ok then writeZeroesP ex fua k start (n - min n ZEROCHUNK) en else k false en)
        start (Flat.zeros (min n ZEROCHUNK)) l0 (by rw [hzl]; omega)
        (fun d rest hd => hQ _ (hzd d rest hd)) ?_ (min n ZEROCHUNK) [] _ en hzl rfl
      · simpa [puts] using this
      · intro ok en d rest hd hok
        have hz' := hzd d rest hd
        cases ok with
        | false => exact hk _ _ _ hz' (by simp)
        | true =>
          have hrest := hok rfl
          subst hrest
          rw [List.append_nil] at hd
          have hpos : 0 < ZEROCHUNK := by decide
          rw [if_pos rfl]
          refine ih _ (by omega) _ _ (by omega) hz' ?_
          right
          rcases hl0 with ⟨h1, h2⟩ | ⟨h1, h2⟩
          · rw [h2, hd, List.nil_append, h1]
            exact ⟨List.prefix_refl _, fun hsm => ⟨by omega, by rw [Nat.min_eq_left hsm]⟩⟩
          · exact ⟨h1.trans (List.prefix_append _ _), fun hsm => absurd (h2 hsm).1 h0⟩

/-! ### Flush and trim -/

theorem flushFilesP_good {ex : Export} {P Q : List Act → Prop} (k : Bool → Nat → Prog World)
    (l : List Act) (hq : Q l) (hk : ∀ ok en, (k ok en).Good (view ex) P Q l)
    (files : List FileInfo) (en : Nat) : (flushFilesP k files en).Good (view ex) P Q l := by
  induction files generalizing en with
  | nil => exact hk _ _
  | cons fi rest ih =>
    unfold flushFilesP
    refine call_same hq ?_
    intro w w' a hf
    simp only [Out.val.injEq] at hf
    have := sysFsync_same w (.fd fi.fhandle)
    rw [hf] at this
    refine ⟨this, ?_⟩
    intro en'
    split
    · exact ih en'
    · exact hk _ _

theorem trimOne_trimmed (ex : Export) (hg : GoodExport ex)
    (ht : has ex.flags F_TREEFILES = false) (start len : Nat) (w : World)
    (cur : FileInfo) (hcur : cur ∈ ex.files) (i : Nat) :
    Trimmed ex start len w (trimOne ex.files ex.exportsize start len w cur i) := by
  unfold trimOne
  simp only []
  split <;> split
  all_goals first
    | exact .refl _ _ _ _
    | (rename_i hc
       apply punchHole_trimmed ex (hg.files ht).distinct ht w cur hcur start len _ hc.1
       split <;> omega)

theorem trimFilesP_good {ex : Export} (hg : GoodExport ex)
    (ht : has ex.flags F_TREEFILES = false) {P Q : List Act → Prop} (start len : Nat)
    (k : Nat → Prog World) (hQ : ∀ l, Zeroing start len l → Q l)
    (hk : ∀ en l, Zeroing start len l → (k en).Good (view ex) P Q l)
    (n : Nat) (cur : FileInfo) (hcur : cur ∈ ex.files) (i en : Nat) (l : List Act)
    (hz : Zeroing start len l) :
    (trimFilesP ex.files ex.exportsize start len k n cur i en).Good (view ex) P Q l := by
  induction n generalizing cur i en l with
  | zero => exact hk _ _ hz
  | succ n ih =>
    unfold trimFilesP
    refine call_good (hQ l hz) ?_
    intro w w' a hf
    cases hf
    obtain ⟨h1, h2⟩ := (trimOne_trimmed ex hg ht start len w cur hcur i).view
    obtain ⟨es, z1, z2⟩ := legal_zeroing start len _ _ h1 h2
    refine ⟨es, Zeroing.quiet z1, z2, ?_⟩
    intro en'
    have hz' := Zeroing.append hz z1
    split
    · exact hk _ _ hz'
    · rename_i nx hnx
      split
      · exact ih nx (List.mem_of_getElem? hnx) _ _ _ hz'
      · exact hk _ _ hz'

theorem trimP_good {cl : Client} (hg : GoodExport cl.ex)
    (ht : has cl.ex.flags F_TREEFILES = false) {P Q : List Act → Prop} (start len : Nat)
    (k : Nat → Prog World) (hQ : ∀ l, Zeroing start len l → Q l)
    (hk : ∀ en l, Zeroing start len l → (k en).Good (view cl.ex) P Q l) (en : Nat) :
    (trimP cl start len k en).Good (view cl.ex) P Q [] := by
  have hz : Zeroing start len [] := by intro x hx; cases hx
  have hq := hQ [] hz
  unfold trimP
  split
  · exact ⟨hq, by intro s s' a hf; cases hf⟩
  · split
    · exact ⟨hq, by intro s s' a hf; cases hf⟩
    · split
      · exact ⟨hq, by intro s s' a hf; cases hf⟩
      · rename_i cur rest hc
        exact trimFilesP_good hg ht start len k hQ hk _ cur (by rw [hc]; simp) _ _ _ hz

/-! ### Reads -/

/-- Where a read stands: `d` are the bytes seen so far, `l` is what was done. -/
structure Reading (r : Req) (st : Bool) (c : ReadCtx) (d : List Byte) (l : List Act) : Prop where
  start : c.start = r.start
  reqLen : c.reqLen = r.len
  structured : c.structured = st
  df : c.df = false
  off : c.curOff = d.length
  len : d.length + c.curLen = r.len
  seen : Act.accesses l = gets r.start d
  chunks : st = true → ∃ cs, Tiles r.start cs d ∧
    (Act.msgs l).map Msg.bytes = cs.map (fun x => (dataChunk r.cookie x.1 x.2).encode)
  buf : st = false → Act.msgs l = [] ∧
    c.buf = d.map some ++ List.replicate (r.len - d.length) none

theorem Tiles.snoc {start : Nat} {cs : List (Nat × List Byte)} {data bs : List Byte}
    (h : Tiles start cs data) (hne : bs ≠ []) (hmax : bs.length + 8 < 2 ^ 32) :
    Tiles start (cs ++ [(start + data.length, bs)]) (data ++ bs) := by
  induction h with
  | nil start =>
    have := Tiles.cons start bs [] [] hne hmax (.nil _)
    simpa using this
  | cons start xs cs data hne' hmax' h ih =>
    have := Tiles.cons start xs _ _ hne' hmax' ih
    simpa [Nat.add_assoc] using this

theorem readOnce_spec {ex : Export} (hg : GoodExport ex) {r : Req} {st : Bool} {c : ReadCtx}
    {d : List Byte} {l : List Act} (hi : Reading r st c d l) (hr : r.start + r.len ≤ ex.exportsize)
    (h0 : c.curLen ≠ 0) (w w' : World) (x : Option (ReadCtx × List Byte × Nat))
    (h : readOnce ex c w = .val (w', x)) :
    (x = none → SameContent w w') ∧
    ∀ c' bs n, x = some (c', bs, n) → SameContent w w' ∧ bs.length = n + 1 ∧
      bs = (view ex w).read (r.start + d.length) bs.length ∧ bs.length + 8 < 2 ^ 32 ∧
      d.length + bs.length ≤ r.len ∧
      c'.start = c.start ∧ c'.reqLen = c.reqLen ∧ c'.structured = c.structured ∧ c'.df = c.df ∧
      (st = false → c'.buf = (d ++ bs).map some ++ List.replicate (r.len - (d ++ bs).length) none) := by
  have hlen := hi.len
  have hspec := rawexpread_spec ex hg w (c.start + c.curOff) c.curLen
    (by rw [hi.start, hi.off]; omega) (by omega)
  unfold readOnce at h
  split at h
  · cases h
  · cases h
  · rename_i w1 hq
    cases h
    exact ⟨fun _ => (hspec.2 _ _ hq).1, by simp⟩
  · rename_i w1 hq
    cases h
    exact ⟨fun _ => (hspec.2 _ _ hq).1, by simp⟩
  · rename_i w1 b bs hq
    obtain ⟨hs, hb⟩ := hspec.2 _ _ hq
    obtain ⟨hle, hbs⟩ := hb _ rfl
    have hmax := rawexpread_max _ _ _ _ _ _ hq
    have hch : c.chunked = st := by
      unfold ReadCtx.chunked; rw [hi.structured, hi.df]; simp
    obtain ⟨c', k0, k1, k2, k3, k4, k5, k6⟩ := deliver_spec c (b :: bs) hle (by
      intro hc
      rw [hch] at hc
      rw [(hi.buf hc).2, hi.off, List.length_append, List.length_map, List.length_replicate]
      omega)
    rw [k0] at h
    cases h
    refine ⟨by simp, ?_⟩
    intro c2 bs2 n2 hx
    cases hx
    refine ⟨hs, by simp, ?_, ?_, ?_, k1, k2, k3, k4, ?_⟩
    · rw [hi.start, hi.off] at hbs; exact hbs
    · have : MAX_RW_COUNT + 8 < 2 ^ 32 := by decide
      omega
    · omega
    · intro hst
      rw [(k5 (by rw [hch]; exact hst)).1, (hi.buf hst).2, hi.off]
      unfold bufSet
      rw [List.take_left' (by simp), List.drop_append]
      simp only [List.length_map, List.map_append, List.length_append, List.drop_replicate]
      rw [List.drop_of_length_le (by simp), List.nil_append]
      congr 2
      omega

theorem dataMsg_bytes'' (e : Endian) (cookie : List Byte) (x : Nat × List Byte)
    (hl : x.2.length + 8 < 2 ^ 32) (ho : x.1 < 2 ^ 64) :
    (dataMsg e cookie x).bytes = (dataChunk cookie x.1 x.2).encode := by
  unfold dataMsg dataChunk
  rw [chunk_bytes]
  · rw [store64_htonll, UInt64.toNat_ofNat', Nat.mod_eq_of_lt ho]
    rfl
  · rw [UInt32.toNat_ofNat', Nat.mod_eq_of_lt hl]
    simp [store64_length, Nat.add_comm]

/-- So far nothing has gone wrong: what was done can be completed. -/
def Partial (size : Nat) (ro : Bool) (framing : List Bool) (c : Cmd) (l : List Act) : Prop :=
  ∃ more, Complete size ro framing c (l ++ more)

theorem Partial.of {size : Nat} {ro : Bool} {framing : List Bool} {c : Cmd} {l : List Act}
    (h : Complete size ro framing c l) : Partial size ro framing c l :=
  ⟨[], by rwa [List.append_nil]⟩

theorem accesses_snoc (l : List Act) (m : Msg) :
    Act.accesses (l ++ [.msg m]) = Act.accesses l := by
  rw [accesses_append]; simp [Act.accesses]

theorem msgs_snoc (l : List Act) (m : Msg) : Act.msgs (l ++ [.msg m]) = Act.msgs l ++ [m] := by
  rw [msgs_append]; rfl

/-- A command whose only message is `m`. -/
theorem Complete.single {size : Nat} {ro : Bool} {framing : List Bool} {c : Cmd} {l : List Act}
    {m : Msg} {r : Reply} (hm : Act.msgs l = []) (he : m.bytes = r.encode)
    (hd : Does size ro framing c (Act.accesses l) [r]) :
    Complete size ro framing c (l ++ [.msg m]) := by
  refine ⟨[r], ?_, by rw [accesses_snoc]; exact hd, l, m, rfl⟩
  rw [msgs_snoc, hm]
  simp [he]

section
variable {e : Endian} {size : Nat} {ro : Bool} {r : Req} {p : Payload} {st : Bool}

/-- A read may fail at any point. -/
theorem read_fails (hc : (cmdOf r p).code = 0) (hr : r.start + r.len ≤ size) (data : List Byte)
    (hl : data.length ≤ r.len) (l : List Act) (hs : Act.accesses l = gets r.start data) (v : Nat)
    (n : Nat)
    (h1 : st = true → ∃ cs, Tiles r.start cs (data.take n) ∧
      (Act.msgs l).map Msg.bytes = cs.map (fun x => (dataChunk r.cookie x.1 x.2).encode))
    (h2 : st = false → Act.msgs l = []) :
    ∃ m, (st = true → m = errorMsg e r.cookie (nbdErrno e v)) ∧
      (st = false → m = ⟨simpleHdr e (nbdErrno e v) r.cookie, []⟩) ∧
      Complete size ro [st] (cmdOf r p) (l ++ [.msg m]) := by
  cases st with
  | true =>
    obtain ⟨cs, t1, t2⟩ := h1 rfl
    refine ⟨errorMsg e r.cookie (nbdErrno e v), fun _ => rfl, by simp, ?_⟩
    refine ⟨cs.map (fun x => dataChunk r.cookie x.1 x.2) ++ [errorChunk e r.cookie (errnoWire v)],
      ?_, ?_, l, _, rfl⟩
    · rw [msgs_snoc, List.map_append, List.map_append, t2, List.map_map, List.map_cons, List.map_nil,
        nbdErrno_eq, errorMsg_bytes]
      rfl
    · rw [accesses_snoc, hs]
      refine .readFails data _ hc hr hl true (by simp) ?_
      exact .structured n _ cs t1 (errnoWire_toNat_mem _) _ (by simp [readFailed, store16_length])
  | false =>
    refine ⟨⟨simpleHdr e (nbdErrno e v) r.cookie, []⟩, by simp, fun _ => rfl, ?_⟩
    refine Complete.single (h2 rfl) (r := .simple (errnoWire v).toNat r.cookie []) ?_ ?_
    · rw [nbdErrno_eq, simple_bytes]
    · rw [hs]
      exact .readFails data _ hc hr hl false (by simp) (.simple _ (errnoWire_toNat_mem _))

theorem Reading.permitted {c : ReadCtx} {d : List Byte} {l : List Act}
    (hc : (cmdOf r p).code = 0) (hr : r.start + r.len ≤ size) (hi : Reading r st c d l) :
    Partial size ro [st] (cmdOf r p) l := by
  obtain ⟨m, _, _, h⟩ := read_fails (e := .little) (ro := ro) hc hr d (by have := hi.len; omega) l hi.seen 0
    d.length (fun h => by rw [List.take_length]; exact hi.chunks h) (fun h => (hi.buf h).1)
  exact ⟨_, h⟩

theorem readFullyP_good {ex : Export} (hg : GoodExport ex) (hsz : size = ex.exportsize)
    (hc : (cmdOf r p).code = 0) (hr : r.start + r.len ≤ size) (lg : Bool)
    (k : ReadCtx → Bool → Nat → Prog World)
    (hk : ∀ c d l ok en, Reading r st c d l → (ok = true → c.curLen = 0) →
      (k c ok en).Good (view ex) (Complete size ro [st] (cmdOf r p))
        (Partial size ro [st] (cmdOf r p)) l)
    (n : Nat) : ∀ (c : ReadCtx) (d : List Byte) (l : List Act) (en : Nat), c.curLen = n →
      Reading r st c d l →
      (readFullyP e ex r.cookie lg k c en).Good (view ex) (Complete size ro [st] (cmdOf r p))
        (Partial size ro [st] (cmdOf r p)) l := by
  induction n using Nat.strongRecOn with
  | _ n ih =>
    intro c d l en hn hi
    unfold readFullyP
    split
    · rename_i h0
      exact hk _ _ _ _ _ hi (fun _ => h0)
    · rename_i h0
      refine call_good (hi.permitted hc hr) ?_
      intro w w' x hf
      obtain ⟨s1, s2⟩ := readOnce_spec hg hi (by omega) h0 w w' x hf
      cases x with
      | none =>
        refine ⟨[], (by intro x hx; cases hx), by rw [(s1 rfl).view ex]; exact .nil _, ?_⟩
        rw [List.append_nil]
        exact fun en' => hk _ _ _ _ _ hi (by simp)
      | some x =>
        obtain ⟨c', bs, m⟩ := x
        obtain ⟨t1, t2, t3, t4, t5, t6, t7, t8, t9, t10⟩ := s2 c' bs m rfl
        refine ⟨gets (r.start + d.length) bs, gets_quiet _ _, ?_, ?_⟩
        · rw [t1.view ex]; exact legal_gets _ _ _ t3
        · intro en'
          have hch : c.chunked = st := by
            unfold ReadCtx.chunked; rw [hi.structured, hi.df]; simp
          have hlen := hi.len
          have hacc : Act.accesses (l ++ gets (r.start + d.length) bs) = gets r.start (d ++ bs) := by
            rw [accesses_append, hi.seen, accesses_quiet (gets_quiet _ _), gets_append]
          have hmsg : Act.msgs (l ++ gets (r.start + d.length) bs) = Act.msgs l := by
            rw [msgs_append, msgs_quiet (gets_quiet _ _), List.append_nil]
          have hcur : (d ++ bs).length + (c.curLen - (m + 1)) = r.len := by
            rw [List.length_append]; omega
          dsimp only
          cases st with
          | false =>
            rw [hch, if_neg (by simp)]
            refine ih _ ?_ _ (d ++ bs) _ _ rfl ?_
            · dsimp only; omega
            · refine ⟨?_, ?_, ?_, ?_, ?_, ?_, ?_, by simp, ?_⟩
              · exact t6.trans hi.start
              · exact t7.trans hi.reqLen
              · exact t8.trans hi.structured
              · exact t9.trans hi.df
              · dsimp only; rw [hi.off, List.length_append, t2]
              · exact hcur
              · exact hacc
              · intro _
                exact ⟨by rw [hmsg]; exact (hi.buf rfl).1, t10 rfl⟩
          | true =>
            rw [hch, if_pos rfl]
            obtain ⟨cs, q1, q2⟩ := hi.chunks rfl
            have hpend : Partial size ro [true] (cmdOf r p) (l ++ gets (r.start + d.length) bs) := by
              obtain ⟨mm, _, _, h⟩ := read_fails (e := .little) (ro := ro) (st := true) hc hr (d ++ bs)
                (by rw [List.length_append]; omega) _ hacc 0 d.length
                (fun _ => ⟨cs, by rw [List.take_left' rfl]; exact q1, by rw [hmsg]; exact q2⟩)
                (fun h => by cases h)
              exact ⟨_, h⟩
            have hnext : Reading r true { c' with curOff := c.curOff + (m + 1), curLen := c.curLen - (m + 1) }
                (d ++ bs) (l ++ gets (r.start + d.length) bs ++
                  [.msg (dataMsg e r.cookie (c.start + c.curOff, bs))]) := by
              refine ⟨?_, ?_, ?_, ?_, ?_, ?_, ?_, ?_, by simp⟩
              · exact t6.trans hi.start
              · exact t7.trans hi.reqLen
              · exact t8.trans hi.structured
              · exact t9.trans hi.df
              · dsimp only; rw [hi.off, List.length_append, t2]
              · exact hcur
              · rw [accesses_snoc, hacc]
              · intro _
                refine ⟨cs ++ [(r.start + d.length, bs)], Tiles.snoc q1 (by intro hh; rw [hh] at t2; cases t2) t4, ?_⟩
                rw [msgs_snoc, hmsg, List.map_append, q2, List.map_append]
                congr 1
                simp only [List.map_cons, List.map_nil]
                rw [hi.start, hi.off]
                rw [dataMsg_bytes'' e r.cookie _ t4 (by have := hg.size; dsimp only; omega)]
            have hrest := fun en => ih _ (by dsimp only; omega) _ (d ++ bs) _ en rfl hnext
            unfold sendChunkP
            refine ⟨hpend, ?_⟩
            split
            · exact ⟨hnext.permitted hc hr, hrest _⟩
            · exact hrest _

theorem readP_good {cl : Client} (hg : GoodExport cl.ex) (hc : (cmdOf r p).code = 0)
    (hdf : has r.type CMD_FLAG_DF = false)
    (hr : r.start + r.len ≤ cl.ex.exportsize) (lg : Bool) (en : Nat) :
    (readP e cl lg r en).Good (view cl.ex)
      (Complete cl.ex.exportsize ro [cl.structured] (cmdOf r p))
      (Partial cl.ex.exportsize ro [cl.structured] (cmdOf r p)) [] := by
  unfold readP
  simp only [hdf, Bool.and_false, Bool.false_and, Bool.false_eq_true, if_false, Bool.false_or]
  refine readFullyP_good hg rfl hc hr lg _ ?_ r.len _ [] [] en rfl ?_
  · intro c d l ok en hi hok
    have hq := hi.permitted (ro := ro) hc hr
    have hsz := hg.size
    have hlen := hi.len
    unfold completeReadP completeRead
    rw [hi.structured, hi.df]
    have hchunk : ∀ m, Complete cl.ex.exportsize ro [cl.structured] (cmdOf r p) (l ++ [.msg m]) →
        (sendChunksP lg [m] (.done en)).Good (view cl.ex)
          (Complete cl.ex.exportsize ro [cl.structured] (cmdOf r p))
          (Partial cl.ex.exportsize ro [cl.structured] (cmdOf r p)) l := by
      intro m hm
      unfold sendChunksP sendChunkP sendChunksP
      refine ⟨hq, ?_⟩
      split
      · exact ⟨Partial.of hm, hm⟩
      · exact hm
    cases ok with
    | false =>
      obtain ⟨m, m1, m2, hm⟩ := read_fails (e := e) (ro := ro) hc hr d (by omega) l hi.seen en
        d.length (fun h => by rw [List.take_length]; exact hi.chunks h) (fun h => (hi.buf h).1)
      cases hst : cl.structured with
      | true =>
        rw [hst] at hchunk hm
        simp only [Bool.false_and, Bool.false_eq_true, if_false, if_true, List.nil_append]
        rw [← m1 hst]
        exact hchunk m hm
      | false =>
        rw [hst] at hm hq
        simp only [Bool.false_eq_true, if_false]
        rw [← m2 hst]
        exact sendReplyP_good hq hm
    | true =>
      have hcur := hok rfl
      cases hst : cl.structured with
      | true =>
        rw [hst] at hchunk
        simp only [Bool.false_and, Bool.false_eq_true, if_false, if_true, List.nil_append]
        refine hchunk _ ?_
        obtain ⟨cs, q1, q2⟩ := hi.chunks hst
        refine ⟨cs.map (fun x => dataChunk r.cookie x.1 x.2) ++ [doneChunk r.cookie], ?_, ?_, l, _, rfl⟩
        · rw [msgs_snoc, List.map_append, List.map_append, q2, List.map_map, List.map_cons,
            List.map_nil, doneMsg_bytes]
          rfl
        · rw [accesses_snoc, hi.seen]
          exact .read d _ hc hr (by show d.length = r.len; omega) true (by simp) (.structured cs q1)
      | false =>
        rw [hst] at hq
        simp only [Bool.false_eq_true, if_false, if_true]
        obtain ⟨q1, q2⟩ := hi.buf hst
        have hd : d.length = r.len := by omega
        rw [q2, hd, Nat.sub_self, List.replicate_zero, List.append_nil, allInit_map]
        refine sendReplyP_good hq (Complete.single q1 (simple_bytes_zero e _ _) ?_)
        rw [hi.seen]
        exact .read d _ hc hr hd false (by simp) .simple
  · refine ⟨rfl, rfl, rfl, rfl, rfl, by simp, rfl, fun _ => ⟨[], .nil _, rfl⟩, ?_⟩
    intro hst
    refine ⟨rfl, ?_⟩
    simp [hst]

end

/-! ### Every request -/

/-- A request as `fetch` hands it over when no pipes are used. -/
structure Job.Wf (j : Job) : Prop where
  len : j.req.len < 2 ^ 32
  data : j.req.type % 65536 = CMD_WRITE → ∃ bs, j.payload = .data bs ∧ bs.length = j.req.len

theorem fetch_wf (e : Endian) (cl : Client) (hs : has cl.ex.flags F_SPLICE = false) (w w' : World)
    (stream : List Byte) (r : Req) (p : Payload) (rest : List Byte) (n : Nat)
    (h : fetch e cl w stream = .val (w', .push r p rest)) : (⟨n, r, p⟩ : Job).Wf := by
  refine ⟨((fetch_safe e cl w stream).2.2 _ _ _ _ h).1, ?_⟩
  intro ht
  unfold fetch at h
  rw [hs] at h
  split at h
  · cases h
  · simp only [] at h
    split at h
    · cases h
    · split at h
      · simp only [Bool.false_eq_true, if_false, Bool.false_and] at h
        split at h
        · cases h
        · cases h
          exact ⟨_, rfl, by dsimp only; rw [List.length_take]; omega⟩
      · rename_i hne
        split at h
        · cases h
        · cases h
          exact absurd ht hne

/-- An export of one or more plain files: neither copy-on-write nor waiting, no tree, no splice. -/
structure Flatfile (cl : Client) : Prop where
  plain : Plain cl
  tree : has cl.ex.flags F_TREEFILES = false
  splice : has cl.ex.flags F_SPLICE = false
  wait : has cl.ex.flags F_WAIT = false

/-- The program for any request does what its command says, whether or not the export has the
splice flag (which `requestP` does not look at). -/
theorem requestP_does (e : Endian) (cl : Client) (hpl : Plain cl)
    (htree : has cl.ex.flags F_TREEFILES = false) (hwait : has cl.ex.flags F_WAIT = false)
    (lg : Bool) (en : Nat) (j : Job) (hj : j.Wf) :
    (requestP e cl lg en j.req j.payload).Good (view cl.ex)
      (Complete cl.ex.exportsize (badWrite cl) [cl.structured] (cmdOf j.req j.payload))
      (Partial cl.ex.exportsize (badWrite cl) [cl.structured] (cmdOf j.req j.payload)) [] := by
  obtain ⟨id, r, p⟩ := j
  have hlen : r.len < 2 ^ 32 := hj.len
  have hg := hpl.good
  have hsz := hg.size
  have hsplit : ∀ n : Nat, ((cmdOf r p).code ∉ [0, 1, 3, 4, 6] ∨
        ((cmdOf r p).code ∈ [1, 4, 6] ∧ badWrite cl = true) ∨
        ((cmdOf r p).code ∈ [0, 1, 4, 6] ∧ cl.ex.exportsize < (cmdOf r p).start + (cmdOf r p).len)) →
      (sendReplyP lg (simpleMsg e r (some (nbdErrno e n))) (.done en)).Good (view cl.ex)
        (Complete cl.ex.exportsize (badWrite cl) [cl.structured] (cmdOf r p))
        (Partial cl.ex.exportsize (badWrite cl) [cl.structured] (cmdOf r p)) [] := by
    intro n why
    have hm : Complete cl.ex.exportsize (badWrite cl) [cl.structured] (cmdOf r p)
        ([] ++ [.msg (simpleMsg e r (some (nbdErrno e n)))]) := by
      refine Complete.single rfl (r := .simple (errnoWire n).toNat r.cookie []) ?_
        (.refused _ (errnoWire_toNat_mem _) why)
      unfold simpleMsg
      rw [Option.getD_some, nbdErrno_eq, simple_bytes]
    exact sendReplyP_good ⟨_, hm⟩ hm
  have hanswer : ∀ (ok : Bool) (en : Nat) (l : List Act), Act.msgs l = [] →
      (ok = true → Does cl.ex.exportsize (badWrite cl) [cl.structured] (cmdOf r p)
        (Act.accesses l) [.simple 0 r.cookie []]) →
      (ok = false → ∀ err ∈ errnos, Does cl.ex.exportsize (badWrite cl) [cl.structured] (cmdOf r p)
        (Act.accesses l) [.simple err r.cookie []]) →
      (answerP e lg r ok en).Good (view cl.ex)
        (Complete cl.ex.exportsize (badWrite cl) [cl.structured] (cmdOf r p))
        (Partial cl.ex.exportsize (badWrite cl) [cl.structured] (cmdOf r p)) l := by
    intro ok en l hm h1 h2
    have : Complete cl.ex.exportsize (badWrite cl) [cl.structured] (cmdOf r p)
        (l ++ [.msg (simpleMsg e r (if ok = true then none else some (nbdErrno e en)))]) := by
      cases ok with
      | true =>
        refine Complete.single hm (r := .simple 0 r.cookie []) ?_ (h1 rfl)
        exact simple_bytes_zero e _ _
      | false =>
        refine Complete.single hm (r := .simple (errnoWire en).toNat r.cookie []) ?_
          (h2 rfl _ (errnoWire_toNat_mem _))
        unfold simpleMsg
        rw [if_neg (by simp), Option.getD_some, nbdErrno_eq, simple_bytes]
    exact sendReplyP_good ⟨_, this⟩ this
  show (requestP e cl lg en r p).Good _ _ _ []
  unfold requestP
  dsimp only
  split
  · rename_i hf
    refine hsplit _ (.inl ?_)
    have : ¬ r.type < 262144 := by omega
    simp [cmdOf, this]
  · rename_i hf
    have hty : r.type < 262144 := by omega
    have hcode : (cmdOf r p).code = r.type % 65536 := by simp [cmdOf, hty]
    have hrange : ∀ h : badRange cl r = true, cl.ex.exportsize < r.start + r.len := by
      intro h
      unfold badRange at h
      simp only [gt_iff_lt, Bool.or_eq_true, decide_eq_true_eq] at h
      rcases h with h | h
      · omega
      · have := Nat.mod_le (r.start + r.len) (2 ^ 64); omega
    have hin : ∀ h : ¬ badRange cl r = true, r.start + r.len ≤ cl.ex.exportsize := by
      intro h
      exact inRange hg hlen (by simpa using h)
    split
    · rename_i ht
      have hc0 : (cmdOf r p).code = 0 := by rw [hcode, ht]; rfl
      split
      · rename_i hb
        exact hsplit _ (.inr (.inr ⟨by rw [hc0]; simp, hrange hb⟩))
      · rename_i hb
        exact readP_good hg hc0 (has_df_of_flags (by omega)) (hin hb) lg en
    · split
      · rename_i ht
        have hc1 : (cmdOf r p).code = 1 := by rw [hcode, ht]; rfl
        split
        · rename_i hb
          exact hsplit _ (.inr (.inl ⟨by rw [hc1]; simp, hb⟩))
        · rename_i hb
          have hb' : badWrite cl = false := by simpa using hb
          split
          · rename_i hbr
            exact hsplit _ (.inr (.inr ⟨by rw [hc1]; simp, hrange hbr⟩))
          · rename_i hbr
            have hrr := hin hbr
            obtain ⟨bs, hp, hbl⟩ := hj.data ht
            change p = .data bs at hp
            subst hp
            change bs.length = r.len at hbl
            have hwf : ∀ (d rest : List Byte), d ++ rest = bs → ∀ err ∈ errnos,
                Does cl.ex.exportsize (badWrite cl) [cl.structured] (cmdOf r (.data bs))
                  (puts r.start d) [.simple err r.cookie []] := by
              intro d rest hd err herr
              have := Does.writeFails (size := cl.ex.exportsize) (ro := badWrite cl)
                (framing := [cl.structured]) (c := cmdOf r (.data bs)) hc1 hb' hrr err d.length herr
              have htake : (cmdOf r (.data bs)).data.take d.length = d := by
                show bs.take d.length = d
                rw [← hd, List.take_left' rfl]
              rw [htake] at this
              exact this
            have hmsg : ∀ d : List Byte, Act.msgs ([] ++ puts r.start d) = [] := by
              intro d; rw [List.nil_append, msgs_quiet (puts_quiet _ _)]
            have hacc : ∀ d : List Byte, Act.accesses ([] ++ puts r.start d) = puts r.start d := by
              intro d; rw [List.nil_append, accesses_quiet (puts_quiet _ _)]
            have := writeFullyP_good hg (notReadonly hb')
              (P := Complete cl.ex.exportsize (badWrite cl) [cl.structured] (cmdOf r (.data bs)))
              (Q := Partial cl.ex.exportsize (badWrite cl) [cl.structured] (cmdOf r (.data bs)))
              (has r.type CMD_FLAG_FUA) (answerP e lg r) r.start bs [] (by omega)
              (by
                intro d rest hd
                refine ⟨[.msg ⟨simpleHdr e (nbdErrno e 0) r.cookie, []⟩], ?_⟩
                refine Complete.single (hmsg d) (r := .simple (errnoWire 0).toNat r.cookie []) ?_ ?_
                · rw [nbdErrno_eq, simple_bytes]
                · rw [hacc]; exact hwf d rest hd _ (errnoWire_toNat_mem _))
              (by
                intro ok en d rest hd hok
                refine hanswer ok en _ (hmsg d) ?_ ?_
                · intro h
                  have := hok h
                  subst this
                  rw [List.append_nil] at hd
                  subst hd
                  rw [hacc]
                  exact .write hc1 hb' hrr
                · intro h err herr
                  rw [hacc]
                  exact hwf d rest hd err herr)
              bs.length [] bs en rfl rfl
            simpa [puts] using this
      · split
        · rename_i ht
          have hc3 : (cmdOf r p).code = 3 := by rw [hcode, ht]; rfl
          have hq : Partial cl.ex.exportsize (badWrite cl) [cl.structured] (cmdOf r p) [] :=
            ⟨[.msg ⟨simpleHdr e 0 r.cookie, []⟩],
              Complete.single (l := []) rfl (simple_bytes_zero e _ _) (.flush hc3 0 (.inl rfl))⟩
          have hk : ∀ ok en, (answerP e lg r ok en).Good (view cl.ex)
              (Complete cl.ex.exportsize (badWrite cl) [cl.structured] (cmdOf r p))
              (Partial cl.ex.exportsize (badWrite cl) [cl.structured] (cmdOf r p)) [] := by
            intro ok en
            refine hanswer ok en [] rfl (fun _ => .flush hc3 0 (.inl rfl)) ?_
            intro _ err herr
            exact .flush hc3 err (.inr herr)
          rw [hwait, if_neg (by simp)]
          exact flushFilesP_good _ [] hq hk _ _
        · split
          · rename_i ht
            have hc4 : (cmdOf r p).code = 4 := by rw [hcode, ht]; rfl
            split
            · rename_i hb
              exact hsplit _ (.inr (.inl ⟨by rw [hc4]; simp, hb⟩))
            · rename_i hb
              have hb' : badWrite cl = false := by simpa using hb
              split
              · rename_i hbr
                exact hsplit _ (.inr (.inr ⟨by rw [hc4]; simp, hrange hbr⟩))
              · rename_i hbr
                have hrr := hin hbr
                refine trimP_good hg htree r.start r.len _ ?_ ?_ en
                · intro l hz
                  exact ⟨[.msg ⟨simpleHdr e 0 r.cookie, []⟩],
                    Complete.single (msgs_quiet (Zeroing.quiet hz)) (simple_bytes_zero e _ _)
                      (by rw [accesses_quiet (Zeroing.quiet hz)]; exact .trim hc4 hb' hrr l hz)⟩
                · intro en l hz
                  refine hanswer true en l (msgs_quiet (Zeroing.quiet hz)) ?_ (by simp)
                  intro _
                  rw [accesses_quiet (Zeroing.quiet hz)]
                  exact .trim hc4 hb' hrr l hz
          · split
            · rename_i ht
              have hc6 : (cmdOf r p).code = 6 := by rw [hcode, ht]; rfl
              split
              · rename_i hb
                exact hsplit _ (.inr (.inl ⟨by rw [hc6]; simp, hb⟩))
              · rename_i hb
                have hb' : badWrite cl = false := by simpa using hb
                split
                · rename_i hbr
                  exact hsplit _ (.inr (.inr ⟨by rw [hc6]; simp, hrange hbr⟩))
                · rename_i hbr
                  have hrr := hin hbr
                  refine writeZeroesP_good hg (notReadonly hb') _ _ r.start r.len hrr ?_ ?_ r.len [] en
                    (by omega) (by intro x hx; cases hx) (.inl ⟨rfl, rfl⟩)
                  · intro l hz
                    refine ⟨[.msg ⟨simpleHdr e (nbdErrno e 0) r.cookie, []⟩], ?_⟩
                    refine Complete.single (msgs_quiet (Zeroing.quiet hz))
                      (r := .simple (errnoWire 0).toNat r.cookie []) ?_ ?_
                    · rw [nbdErrno_eq, simple_bytes]
                    · rw [accesses_quiet (Zeroing.quiet hz)]
                      exact .zeroesFails hc6 hb' hrr _ l hz (errnoWire_toNat_mem _)
                  · intro ok en l hz hok
                    refine hanswer ok en l (msgs_quiet (Zeroing.quiet hz)) ?_ ?_
                    · intro hh
                      rw [accesses_quiet (Zeroing.quiet hz)]
                      by_cases hsm : r.len ≤ ZEROCHUNK
                      · rw [(hok hh).2 hsm]
                        exact .zeroes hc6 hb' hrr hsm
                      · refine .zeroesBig hc6 hb' hrr (Nat.lt_of_not_le hsm) l hz fun i h1 h2 => ?_
                        exact zeroes_first (hok hh).1 (by omega) h1 h2
                    · intro _ err herr
                      rw [accesses_quiet (Zeroing.quiet hz)]
                      exact .zeroesFails hc6 hb' hrr _ l hz herr
            · rename_i h0 h1 h3 h4 h6
              refine hsplit _ (.inl ?_)
              rw [hcode]
              simp only [List.mem_cons, List.not_mem_nil, or_false, not_or]
              exact ⟨h0, h1, h3, h4, h6⟩

/-- The program for any request does what its command says. -/
theorem requestP_good (e : Endian) (cl : Client) (hcl : Flatfile cl) (lg : Bool) (en : Nat)
    (j : Job) (hj : j.Wf) :
    (requestP e cl lg en j.req j.payload).Good (view cl.ex)
      (Complete cl.ex.exportsize (badWrite cl) [cl.structured] (cmdOf j.req j.payload))
      (Partial cl.ex.exportsize (badWrite cl) [cl.structured] (cmdOf j.req j.payload)) [] :=
  requestP_does e cl hcl.plain hcl.tree hcl.wait lg en j hj

/-- The server for a plain export meets its specification. -/
theorem plainServer_meets (e : Endian) (cl : Client) (hcl : Flatfile cl) (lg : Bool) :
    (plainServer e cl lg).Meets (view cl.ex) Job.Wf
      (fun j => Complete cl.ex.exportsize (badWrite cl) [cl.structured] (cmdOf j.req j.payload))
      (fun j => Partial cl.ex.exportsize (badWrite cl) [cl.structured] (cmdOf j.req j.payload)) := by
  refine ⟨?_, fun en j hj => requestP_good e cl hcl lg en j hj, ?_, fun _ _ h => Partial.of h⟩
  · intro n r p st st' stream rest h
    exact fetch_wf e cl hcl.splice _ _ _ _ _ _ _ h
  · intro st st' stream x h
    have := fetch_files e cl _ _ _ _ h
    unfold view content
    rw [this]

end Nbd
