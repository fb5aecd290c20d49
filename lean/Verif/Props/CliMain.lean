import Verif.CliMain
/-!
# Properties of the client's device setup

C43 (device size), C45 (reconnecting), C46, C57 and C58 (the table of devices).
-/

set_option autoImplicit false

namespace Nbd.Spec

/-- The value given last for a setting. -/
def lastProp (k : List Byte) (opts : List TabOpt) : Option (List Byte) :=
  opts.reverse.findSome? fun o => match o with
    | .prop k' v => if k' = k then some v else none
    | .flag _ => none

/-- `c` is what the entry `e` says, and `base` where `e` says nothing. -/
structure FromEntry (base : TabClient) (e : TabEntry) (c : TabClient) : Prop where
  dev : c.dev = base.dev
  host : c.hostn = some e.host
  name : c.name = some e.name
  port : c.port = (lastProp (ascii "port") e.opts).or base.port
  cert : c.cert = (lastProp (ascii "certfile") e.opts).or base.cert
  key : c.key = (lastProp (ascii "keyfile") e.opts).or base.key
  cacert : c.cacert = (lastProp (ascii "cacertfile") e.opts).or base.cacert
  tlshostn : c.tlshostn = (lastProp (ascii "tlshostname") e.opts).or base.tlshostn
  priority : c.priority = (lastProp (ascii "priority") e.opts).or base.priority
  bs : c.bs = ((lastProp (ascii "bs") e.opts).map strtolInt).getD base.bs
  timeout : c.timeout = ((lastProp (ascii "timeout") e.opts).map strtolInt).getD base.timeout
  nconn : c.nconn = ((lastProp (ascii "conns") e.opts).map strtolInt).getD base.nconn
  noOptgo : c.noOptgo = (decide (.flag (ascii "no_optgo") ∈ e.opts) || base.noOptgo)
  persist : c.persist = (decide (.flag (ascii "persist") ∈ e.opts) || base.persist)
  swap : c.swap = (decide (.flag (ascii "swap") ∈ e.opts) || base.swap)
  unix : c.unix = (decide (.flag (ascii "unix") ∈ e.opts) || base.unix)
  preinit : c.preinit = (decide (.flag (ascii "preinit") ∈ e.opts) || base.preinit)
  tls : c.tls = (decide (.flag (ascii "tls") ∈ e.opts) || base.tls)
  forceRo : c.forceRo = base.forceRo
  forceSize : c.forceSize = base.forceSize

/-- A word of the table. -/
def Word (w : List Byte) : Prop := w ≠ [] ∧ w.head? ≠ some 35 ∧ ∀ b ∈ w, isWord b = true

instance (w : List Byte) : Decidable (Word w) := by unfold Word; infer_instance

/-- How options, and entries, are written. -/
def writeOpt : TabOpt → List Byte
  | .flag k => k
  | .prop k v => k ++ [61] ++ v

def writeOpts : List TabOpt → List Byte
  | [] => []
  | [o] => writeOpt o
  | o :: os => writeOpt o ++ [44] ++ writeOpts os

def writeEntry (e : TabEntry) : List Byte :=
  e.dev ++ [32] ++ e.host ++ [32] ++ e.name ++ (if e.opts = [] then [] else [32] ++ writeOpts e.opts) ++ [10]

def OptWords : TabOpt → Prop
  | .flag k => Word k
  | .prop k v => Word k ∧ Word v

instance (o : TabOpt) : Decidable (OptWords o) := by cases o <;> (unfold OptWords; infer_instance)

structure EntryWords (e : TabEntry) : Prop where
  dev : Word e.dev
  host : Word e.host
  name : Word e.name
  opts : ∀ o ∈ e.opts, OptWords o

end Nbd.Spec

namespace Nbd.Props

open Nbd Nbd.Spec

/-! ### C43 -/

theorem toU64_pos {b : Int} (h : 0 < b) (h2 : b < 2 ^ 31) : toU64 b = b.toNat := by
  unfold toU64
  rw [Int.emod_eq_of_lt (by omega) (by omega)]

theorem setsizes_64 (ok : Int → Bool) (hok : ∀ b, ok b = true → 0 < b) (size flags : Nat) (bs : Int)
    (hb : bs < 2 ^ 31) (hs : size < 2 ^ 64) (d : Device) (h : setsizes 64 ok size bs flags = .val d) :
    0 < bs ∧ d = ⟨size / bs.toNat * bs.toNat, flags, has flags 2⟩ := by
  unfold setsizes at h
  split at h
  · cases h
  split at h
  · cases h
  have hle : size / toU64 bs ≤ 2 ^ 64 - 1 := Nat.le_trans (Nat.div_le_self _ _) (by omega)
  rw [if_pos hle] at h
  simp only [] at h
  split at h
  · cases h
  · rename_i hnok
    split at h
    · cases h
    · cases h
      have hp : 0 < bs := hok bs (by simpa using hnok)
      rw [toU64_pos hp hb, Nat.mod_eq_of_lt (Nat.lt_of_le_of_lt (Nat.div_le_self _ _) hs)]
      exact ⟨hp, rfl⟩

/-- **C43.** On a 64-bit machine, unless the user forces a size with -B, the device is never longer than the export, and
shorter by less than a block. `ok` says what block sizes the kernel accepts (none below 1). -/
theorem C43_size (ok : Int → Bool) (hok : ∀ b, ok b = true → 0 < b) (a : CliArgs) (hB : a.forceSize = 0)
    (hb : a.bs < 2 ^ 31) (size flags cur : Nat) (hs : size < 2 ^ 64) (d : Device)
    (h : firstConnect 64 ok a size flags = .val (cur, d)) :
    d.bytes ≤ size ∧ (a.netlink = true → d.bytes = size) ∧ (a.netlink = false → (size - d.bytes : Int) < a.bs) := by
  unfold firstConnect at h
  split at h
  · cases h
  split at h
  · cases h
  simp only [hB, ne_eq, not_true, if_false] at h
  split at h
  · rename_i hn
    cases h
    exact ⟨Nat.le_refl _, fun _ => rfl, fun h => by rw [hn] at h; cases h⟩
  · rename_i hn
    cases hq : setsizes 64 ok size a.bs (if a.forceRo = true then flags ||| 2 else flags) with
    | ub => rw [hq] at h; cases h
    | exit => rw [hq] at h; cases h
    | val d' =>
      rw [hq] at h
      cases h
      obtain ⟨hp, rfl⟩ := setsizes_64 ok hok size _ a.bs hb hs d hq
      have h1 := Nat.div_add_mod size a.bs.toNat
      have h2 := Nat.mod_lt size (show 0 < a.bs.toNat by omega)
      rw [Nat.mul_comm] at h1
      refine ⟨?_, fun hh => absurd hh hn, fun _ => ?_⟩
      · show size / a.bs.toNat * a.bs.toNat ≤ size
        omega
      · show (size : Int) - ((size / a.bs.toNat * a.bs.toNat : Nat) : Int) < a.bs
        omega

/-- The block sizes Linux accepts, and a device of 1000 blocks of 512 bytes on an export of 512100 bytes. -/
example : firstConnect 64 (fun b => b = 512 ∨ b = 1024 ∨ b = 2048 ∨ b = 4096) ⟨false, 0, 512, false⟩ 512100 1 =
    .val (512100, ⟨512000, 1, false⟩) := by decide

/-- **C43, later connections**: reconnecting gives a device of the same kind. -/
theorem C43_reconnect (ok : Int → Bool) (hok : ∀ b, ok b = true → 0 < b) (a : CliArgs) (hb : a.bs < 2 ^ 31)
    (cur size flags cur' : Nat) (hs : size < 2 ^ 64) (d : Device) (h : reconnect 64 ok a cur size flags = .val (cur', d)) :
    d.bytes ≤ size ∧ (size - d.bytes : Int) < a.bs := by
  unfold reconnect at h
  split at h
  · cases h
  cases hq : setsizes 64 ok size a.bs flags with
  | ub => rw [hq] at h; cases h
  | exit => rw [hq] at h; cases h
  | val d' =>
    rw [hq] at h
    cases h
    obtain ⟨hp, rfl⟩ := setsizes_64 ok hok size _ a.bs hb hs d hq
    have h1 := Nat.div_add_mod size a.bs.toNat
    have h2 := Nat.mod_lt size (show 0 < a.bs.toNat by omega)
    rw [Nat.mul_comm] at h1
    refine ⟨?_, ?_⟩
    · show size / a.bs.toNat * a.bs.toNat ≤ size
      omega
    · show (size : Int) - ((size / a.bs.toNat * a.bs.toNat : Nat) : Int) < a.bs
      omega

example : reconnect 64 (fun b => b = 512 ∨ b = 1024 ∨ b = 2048 ∨ b = 4096) ⟨true, 0, 1024, false⟩ 5000 5000 3 =
    .val (5000, ⟨4096, 3, true⟩) := by decide

/-- **C43, 32-bit machines**: never more than the export, whatever the machine. -/
theorem C43_never_more (W : Nat) (ok : Int → Bool) (hok : ∀ b, ok b = true → 0 < b) (size flags : Nat) (bs : Int)
    (hb : bs < 2 ^ 31) (d : Device) (h : setsizes W ok size bs flags = .val d) : d.bytes ≤ size := by
  unfold setsizes at h
  split at h
  · cases h
  split at h
  · cases h
  generalize htmp : (if size / toU64 bs ≤ 2 ^ W - 1 then bs else 4096) = tmp at h
  simp only [] at h
  split at h
  · cases h
  · rename_i hnok
    split at h
    · cases h
    · cases h
      have hp : 0 < tmp := hok tmp (by simpa using hnok)
      have hlt : tmp < 2 ^ 31 := by rw [← htmp]; split <;> omega
      show (size / toU64 tmp) % 2 ^ W * tmp.toNat ≤ size
      rw [toU64_pos hp hlt]
      exact Nat.le_trans (Nat.mul_le_mul_right _ (Nat.mod_le _ _)) (Nat.div_mul_le_self _ _)

/-- **C43 does not hold on 32-bit machines**: a device of more than 2^32 blocks is cut to a multiple of 4096, which can be
more than one block short. -/
theorem C43_false_32bit : ∃ d, setsizes 32 (fun b => b = 512 ∨ b = 4096) (2 ^ 42 + 1024) 512 1 = .val d ∧
    2 ^ 42 + 1024 - d.bytes ≥ 512 :=
  ⟨⟨2 ^ 42, 1, false⟩, by decide, by decide⟩

/-! ### C45 -/

theorem reconnects_size (ok : Int → Bool) (hok : ∀ b, ok b = true → 0 < b) (a : CliArgs) (hb : a.bs < 2 ^ 31) (cur : Nat)
    (hc : cur < 2 ^ 64) (answers : List (Nat × Nat)) :
    ∀ d ∈ reconnects 64 ok a cur answers, d.bytes = cur / a.bs.toNat * a.bs.toNat := by
  induction answers with
  | nil => simp [reconnects]
  | cons x rest ih =>
    obtain ⟨size, flags⟩ := x
    intro d hd
    unfold reconnects at hd
    cases hq : reconnect 64 ok a cur size flags with
    | ub => rw [hq] at hd; simp at hd
    | exit => rw [hq] at hd; simp at hd
    | val p =>
      obtain ⟨cur', d'⟩ := p
      rw [hq] at hd
      unfold reconnect at hq
      split at hq
      · cases hq
      rename_i hne
      have hne : cur = size := by omega
      cases hs : setsizes 64 ok size a.bs flags with
      | ub => rw [hs] at hq; cases hq
      | exit => rw [hs] at hq; cases hq
      | val d'' =>
        rw [hs] at hq
        cases hq
        subst hne
        simp only [List.mem_cons] at hd
        rcases hd with rfl | hd
        · rw [(setsizes_64 ok hok cur _ a.bs hb hc d hs).2]
        · exact ih d hd

/-- **C45, size.** Whatever the server answers at each reconnection: as long as the client runs, the device keeps its
size. -/
theorem C45_size (ok : Int → Bool) (hok : ∀ b, ok b = true → 0 < b) (a : CliArgs) (hn : a.netlink = false) (hb : a.bs < 2 ^ 31)
    (hB : a.forceSize < 2 ^ 64) (answers : List (Nat × Nat)) (ha : ∀ x ∈ answers, x.1 < 2 ^ 64) (d d' : Device)
    (rest : List Device) (h : clientLife 64 ok a answers = d :: rest) (hd : d' ∈ rest) : d'.bytes = d.bytes := by
  cases answers with
  | nil => simp [clientLife] at h
  | cons x answers =>
    obtain ⟨size, flags⟩ := x
    unfold clientLife at h
    simp only [] at h
    cases hq : firstConnect 64 ok a size flags with
    | ub => rw [hq] at h; cases h
    | exit => rw [hq] at h; cases h
    | val p =>
      obtain ⟨cur, d0⟩ := p
      rw [hq] at h
      simp only [hn, Bool.false_eq_true, if_false, List.cons.injEq] at h
      obtain ⟨rfl, rfl⟩ := h
      unfold firstConnect at hq
      split at hq
      · cases hq
      split at hq
      · cases hq
      simp only [hn, Bool.false_eq_true, if_false] at hq
      have hsz : (if a.forceSize ≠ 0 then a.forceSize else size) < 2 ^ 64 := by
        split
        · exact hB
        · exact ha (size, flags) (by simp)
      generalize (if a.forceSize ≠ 0 then a.forceSize else size) = sz at hq hsz
      cases hs : setsizes 64 ok sz a.bs (if a.forceRo = true then flags ||| 2 else flags) with
      | ub => rw [hs] at hq; cases hq
      | exit => rw [hs] at hq; cases hq
      | val d'' =>
        rw [hs] at hq
        cases hq
        rw [reconnects_size ok hok a hb cur hsz answers d' hd, (setsizes_64 ok hok cur _ a.bs hb hsz d0 hs).2]

example : clientLife 64 (fun b => b = 512 ∨ b = 4096) ⟨false, 0, 512, false⟩ [(4096, 1), (4096, 3), (8192, 1), (4096, 1)] =
    [⟨4096, 1, false⟩, ⟨4096, 3, true⟩] := by decide

theorem setsizes_ro (W : Nat) (ok : Int → Bool) (size flags : Nat) (bs : Int) (d : Device)
    (h : setsizes W ok size bs flags = .val d) : d.readOnly = has flags 2 := by
  unfold setsizes at h
  split at h
  · cases h
  split at h
  · cases h
  generalize (if size / toU64 bs ≤ 2 ^ W - 1 then bs else 4096) = tmp at h
  simp only [] at h
  split at h
  · cases h
  · split at h
    · cases h
    · cases h; rfl

/-- **C45, read-only** (partial: when it is the server that makes the device read-only). As long as every answer says
read-only, so is the device. -/
theorem C45_readonly_partial (W : Nat) (ok : Int → Bool) (a : CliArgs) (answers : List (Nat × Nat))
    (hro : ∀ x ∈ answers, x.2.testBit 1 = true) : ∀ d ∈ clientLife W ok a answers, d.readOnly = true := by
  have hbit : ∀ n : Nat, n.testBit 1 = true → has n 2 = true := by
    intro n hn
    unfold has
    simp only [ne_eq, bne_iff_ne, decide_eq_true_eq]
    intro h0
    have := congrArg (·.testBit 1) h0
    simp only [Nat.testBit_and, hn, Nat.zero_testBit] at this
    exact absurd this (by decide)
  have hre : ∀ cur (l : List (Nat × Nat)), (∀ x ∈ l, x.2.testBit 1 = true) → ∀ d ∈ reconnects W ok a cur l, d.readOnly = true := by
    intro cur l
    induction l generalizing cur with
    | nil => intro _ d hd; simp [reconnects] at hd
    | cons x l ih =>
      obtain ⟨size, flags⟩ := x
      intro hl d hd
      unfold reconnects at hd
      cases hq : reconnect W ok a cur size flags with
      | ub => rw [hq] at hd; simp at hd
      | exit => rw [hq] at hd; simp at hd
      | val p =>
        obtain ⟨cur', d'⟩ := p
        rw [hq] at hd
        simp only [List.mem_cons] at hd
        rcases hd with rfl | hd
        · unfold reconnect at hq
          split at hq
          · cases hq
          cases hs : setsizes W ok size a.bs flags with
          | ub => rw [hs] at hq; cases hq
          | exit => rw [hs] at hq; cases hq
          | val d'' =>
            rw [hs] at hq
            cases hq
            rw [setsizes_ro W ok size flags a.bs d hs]
            exact hbit _ (hl (size, flags) (by simp))
        · exact ih cur' (fun x hx => hl x (by simp [hx])) d hd
  intro d hd
  cases answers with
  | nil => simp [clientLife] at hd
  | cons x l =>
    obtain ⟨size, flags⟩ := x
    have hf := hro (size, flags) (by simp)
    have hf' : (if a.forceRo = true then flags ||| 2 else flags).testBit 1 = true := by
      split
      · rw [Nat.testBit_or, hf]; rfl
      · exact hf
    unfold clientLife at hd
    simp only [] at hd
    cases hq : firstConnect W ok a size flags with
    | ub => rw [hq] at hd; simp at hd
    | exit => rw [hq] at hd; simp at hd
    | val p =>
      obtain ⟨cur, d0⟩ := p
      rw [hq] at hd
      simp only [List.mem_cons] at hd
      rcases hd with rfl | hd
      · unfold firstConnect at hq
        split at hq
        · cases hq
        split at hq
        · cases hq
        simp only [] at hq
        split at hq
        · cases hq
          exact hbit _ hf'
        · generalize (if a.forceSize ≠ 0 then a.forceSize else size) = sz at hq
          cases hs : setsizes W ok sz a.bs (if a.forceRo = true then flags ||| 2 else flags) with
          | ub => rw [hs] at hq; cases hq
          | exit => rw [hs] at hq; cases hq
          | val d'' =>
            rw [hs] at hq
            cases hq
            rw [setsizes_ro W ok _ _ a.bs d hs]
            exact hbit _ hf'
      · split at hd
        · simp at hd
        · exact hre cur l (fun x hx => hro x (by simp [hx])) d hd

/-- **C45 does not hold for -R**: a device that was forced read-only becomes writable when the client reconnects. -/
theorem C45_false : clientLife 64 (fun b => b = 512) ⟨true, 0, 512, false⟩ [(4096, 1), (4096, 1)] =
    [⟨4096, 3, true⟩, ⟨4096, 1, false⟩] := by decide

/-! ### C46 -/

theorem lexTab_cons (c : Byte) (bs : List Byte) : lexTab (c :: bs) =
    match (lexOne c bs).1 with
    | none => lexTab (lexOne c bs).2
    | some t => t :: lexTab (lexOne c bs).2 := by rw [lexTab]; rfl

theorem takeWhile_word (w rest : List Byte) (hw : ∀ b ∈ w, isWord b = true)
    (hr : rest = [] ∨ ∃ c r, rest = c :: r ∧ isWord c = false) :
    (w ++ rest).takeWhile isWord = w ∧ (w ++ rest).dropWhile isWord = rest := by
  induction w with
  | nil =>
    rcases hr with rfl | ⟨c, r, rfl, hc⟩
    · simp
    · simp [List.takeWhile_cons, List.dropWhile_cons, hc]
  | cons a w ih =>
    have ha := hw a (by simp)
    have := ih (fun b hb => hw b (by simp [hb]))
    simp [List.takeWhile_cons, List.dropWhile_cons, ha, this]

theorem lexTab_word (w rest : List Byte) (hw : Word w) (hr : rest = [] ∨ ∃ c r, rest = c :: r ∧ isWord c = false) :
    lexTab (w ++ rest) = .string w :: lexTab rest := by
  obtain ⟨h1, h2, h3⟩ := hw
  cases w with
  | nil => exact absurd rfl h1
  | cons a w =>
    have ha := h3 a (by simp)
    have hne : a ≠ 35 := fun h => h2 (by rw [h]; rfl)
    have hw' := takeWhile_word w rest (fun b hb => h3 b (by simp [hb])) hr
    have hlex : lexOne a (w ++ rest) = (some (.string (a :: w)), rest) := by
      unfold isWord at ha
      simp only [not_or, decide_not, Bool.not_eq_true', decide_eq_true_eq, decide_eq_false_iff_not] at ha
      obtain ⟨b1, b2, b3, b4, b5⟩ := ha
      unfold lexOne
      rw [if_neg (fun h => hne h.1), if_neg (by unfold isBlank; simp [b1, b2]), if_neg b3, if_neg b4, if_neg b5, hw'.1, hw'.2]
    rw [List.cons_append, lexTab_cons, hlex]

theorem word_head (w rest : List Byte) (hw : Word w) : ∃ c r, w ++ rest = c :: r ∧ isBlank c = false := by
  obtain ⟨h1, h2, h3⟩ := hw
  cases w with
  | nil => exact absurd rfl h1
  | cons a w =>
    refine ⟨a, w ++ rest, rfl, ?_⟩
    have ha := h3 a (by simp)
    unfold isWord at ha
    simp only [not_or, decide_not, Bool.not_eq_true', decide_eq_true_eq, decide_eq_false_iff_not] at ha
    unfold isBlank
    simp [ha.1, ha.2.1]

theorem lexTab_space (w rest : List Byte) (hw : Word w) : lexTab (32 :: (w ++ rest)) = .space :: lexTab (w ++ rest) := by
  obtain ⟨c, r, hc, hb⟩ := word_head w rest hw
  rw [lexTab_cons, hc]
  have : lexOne 32 (c :: r) = (some .space, c :: r) := by
    unfold lexOne
    rw [if_neg (fun h => absurd h.1 (by decide)), if_pos (by decide), List.dropWhile_cons, if_neg (by rw [hb]; decide)]
  rw [this]

theorem lexTab_comma (rest : List Byte) : lexTab (44 :: rest) = .comma :: lexTab rest := by
  rw [lexTab_cons]
  have : lexOne 44 rest = (some .comma, rest) := by
    unfold lexOne
    rw [if_neg (fun h => absurd h.1 (by decide)), if_neg (by decide), if_neg (by decide), if_pos rfl]
  rw [this]

theorem lexTab_equals (rest : List Byte) : lexTab (61 :: rest) = .equals :: lexTab rest := by
  rw [lexTab_cons]
  have : lexOne 61 rest = (some .equals, rest) := by
    unfold lexOne
    rw [if_neg (fun h => absurd h.1 (by decide)), if_neg (by decide), if_neg (by decide), if_neg (by decide), if_pos rfl]
  rw [this]

theorem lexTab_newline (rest : List Byte) : lexTab (10 :: rest) = .newline :: lexTab rest := by
  rw [lexTab_cons]
  have : lexOne 10 rest = (some .newline, rest) := by
    unfold lexOne
    rw [if_neg (fun h => absurd h.1 (by decide)), if_neg (by decide), if_pos rfl]
  rw [this]

/-- The tokens of options. -/
def optToks : List TabOpt → List Tok
  | [] => []
  | [.flag k] => [.string k]
  | [.prop k v] => [.string k, .equals, .string v]
  | .flag k :: os => .string k :: .comma :: optToks os
  | .prop k v :: os => .string k :: .equals :: .string v :: .comma :: optToks os

theorem lexTab_opts (os : List TabOpt) (hne : os ≠ []) (h : ∀ o ∈ os, OptWords o) (rest : List Byte) :
    lexTab (writeOpts os ++ (10 :: rest)) = optToks os ++ (.newline :: lexTab rest) := by
  induction os with
  | nil => exact absurd rfl hne
  | cons o os ih =>
    have ho := h o (by simp)
    cases os with
    | nil =>
      cases o with
      | flag k =>
        show lexTab (k ++ (10 :: rest)) = _
        rw [lexTab_word k _ ho (.inr ⟨_, _, rfl, by decide⟩), lexTab_newline]; rfl
      | prop k v =>
        show lexTab (k ++ [61] ++ v ++ (10 :: rest)) = _
        rw [show k ++ [61] ++ v ++ (10 :: rest) = k ++ (61 :: (v ++ (10 :: rest))) by simp,
          lexTab_word k _ ho.1 (.inr ⟨_, _, rfl, by decide⟩), lexTab_equals,
          lexTab_word v _ ho.2 (.inr ⟨_, _, rfl, by decide⟩), lexTab_newline]; rfl
    | cons o' os =>
      have ih' := ih (by simp) (fun x hx => h x (by simp [hx]))
      cases o with
      | flag k =>
        show lexTab (k ++ [44] ++ writeOpts (o' :: os) ++ (10 :: rest)) = _
        rw [show k ++ [44] ++ writeOpts (o' :: os) ++ (10 :: rest) = k ++ (44 :: (writeOpts (o' :: os) ++ (10 :: rest))) by simp,
          lexTab_word k _ ho (.inr ⟨_, _, rfl, by decide⟩), lexTab_comma, ih']; rfl
      | prop k v =>
        show lexTab (k ++ [61] ++ v ++ [44] ++ writeOpts (o' :: os) ++ (10 :: rest)) = _
        rw [show k ++ [61] ++ v ++ [44] ++ writeOpts (o' :: os) ++ (10 :: rest) =
            k ++ (61 :: (v ++ (44 :: (writeOpts (o' :: os) ++ (10 :: rest))))) by simp,
          lexTab_word k _ ho.1 (.inr ⟨_, _, rfl, by decide⟩), lexTab_equals,
          lexTab_word v _ ho.2 (.inr ⟨_, _, rfl, by decide⟩), lexTab_comma, ih']; rfl

/-- The tokens of an entry. -/
def entryToks (e : TabEntry) : List Tok :=
  [.string e.dev, .space, .string e.host, .space, .string e.name] ++ (if e.opts = [] then [] else .space :: optToks e.opts) ++ [.newline]

theorem writeOpts_head (os : List TabOpt) (hne : os ≠ []) (h : ∀ o ∈ os, OptWords o) :
    ∃ w r, writeOpts os = w ++ r ∧ Word w := by
  cases os with
  | nil => exact absurd rfl hne
  | cons o os =>
    have ho := h o (by simp)
    cases os with
    | nil =>
      cases o with
      | flag k => exact ⟨k, [], by simp [writeOpts, writeOpt], ho⟩
      | prop k v => exact ⟨k, [61] ++ v, by simp [writeOpts, writeOpt], ho.1⟩
    | cons o' os =>
      cases o with
      | flag k => exact ⟨k, [44] ++ writeOpts (o' :: os), by simp [writeOpts, writeOpt], ho⟩
      | prop k v => exact ⟨k, [61] ++ v ++ [44] ++ writeOpts (o' :: os), by simp [writeOpts, writeOpt], ho.1⟩

theorem lexTab_entry (e : TabEntry) (h : EntryWords e) (rest : List Byte) :
    lexTab (writeEntry e ++ rest) = entryToks e ++ lexTab rest := by
  unfold writeEntry entryToks
  by_cases ho : e.opts = []
  · rw [if_pos ho, if_pos ho]
    rw [show e.dev ++ [32] ++ e.host ++ [32] ++ e.name ++ [] ++ [10] ++ rest =
        e.dev ++ (32 :: (e.host ++ (32 :: (e.name ++ (10 :: rest))))) by simp,
      lexTab_word _ _ h.dev (.inr ⟨_, _, rfl, by decide⟩), lexTab_space _ _ h.host,
      lexTab_word _ _ h.host (.inr ⟨_, _, rfl, by decide⟩), lexTab_space _ _ h.name,
      lexTab_word _ _ h.name (.inr ⟨_, _, rfl, by decide⟩), lexTab_newline]
    rfl
  · rw [if_neg ho, if_neg ho]
    obtain ⟨w, r, hw, hww⟩ := writeOpts_head e.opts ho h.opts
    have hsp : lexTab (32 :: (writeOpts e.opts ++ (10 :: rest))) = .space :: lexTab (writeOpts e.opts ++ (10 :: rest)) := by
      rw [hw, List.append_assoc]; exact lexTab_space w _ hww
    rw [show e.dev ++ [32] ++ e.host ++ [32] ++ e.name ++ ([32] ++ writeOpts e.opts) ++ [10] ++ rest =
        e.dev ++ (32 :: (e.host ++ (32 :: (e.name ++ (32 :: (writeOpts e.opts ++ (10 :: rest))))))) by simp,
      lexTab_word _ _ h.dev (.inr ⟨_, _, rfl, by decide⟩), lexTab_space _ _ h.host,
      lexTab_word _ _ h.host (.inr ⟨_, _, rfl, by decide⟩), lexTab_space _ _ h.name,
      lexTab_word _ _ h.name (.inr ⟨_, _, rfl, by decide⟩), hsp, lexTab_opts e.opts ho h.opts]
    simp

theorem parseOptions_toks (os : List TabOpt) (hne : os ≠ []) (ts : List Tok) :
    parseOptions (optToks os ++ (.newline :: ts)) = some (os, .newline :: ts) := by
  induction os with
  | nil => exact absurd rfl hne
  | cons o os ih =>
    cases os with
    | nil => cases o <;> simp [optToks, parseOptions]
    | cons o' os =>
      have ih' := ih (by simp)
      cases o with
      | flag k =>
        show parseOptions (.string k :: .comma :: (optToks (o' :: os) ++ (.newline :: ts))) = _
        rw [parseOptions, ih']
      | prop k v =>
        show parseOptions (.string k :: .equals :: .string v :: .comma :: (optToks (o' :: os) ++ (.newline :: ts))) = _
        rw [parseOptions, ih']

theorem parseTab_toks (es : List TabEntry) (n : Nat) (hn : (es.map entryToks).flatten.length < n) :
    parseTab n (es.map entryToks).flatten = some es := by
  induction es generalizing n with
  | nil =>
    obtain ⟨n, rfl⟩ : ∃ k, n = k + 1 := ⟨n - 1, by omega⟩
    rfl
  | cons e es ih =>
    obtain ⟨d, h, x, os⟩ := e
    simp only [List.map_cons, List.flatten_cons, List.length_append] at hn ⊢
    by_cases ho : os = []
    · subst ho
      have hl : (entryToks ⟨d, h, x, []⟩).length = 6 := rfl
      obtain ⟨n, rfl⟩ : ∃ k, n = k + 2 := ⟨n - 2, by omega⟩
      show parseTab (n + 2) (.string d :: .space :: .string h :: .space :: .string x :: .newline :: (es.map entryToks).flatten) = _
      rw [parseTab, parseTab, ih n (by omega)]
      all_goals simp
    · have hl : (entryToks ⟨d, h, x, os⟩).length ≥ 6 := by unfold entryToks; simp
      obtain ⟨n, rfl⟩ : ∃ k, n = k + 2 := ⟨n - 2, by omega⟩
      have : entryToks ⟨d, h, x, os⟩ ++ (es.map entryToks).flatten =
        .string d :: .space :: .string h :: .space :: .string x :: .space :: (optToks os ++ (.newline :: (es.map entryToks).flatten)) := by
        unfold entryToks; rw [if_neg ho]; simp
      rw [this, parseTab, parseOptions_toks os ho]
      simp only []
      rw [parseTab, ih n (by omega)]

/-- **C46, the text.** A table in which every entry is written on a line of its own is understood as these entries. -/
theorem C46_text (es : List TabEntry) (h : ∀ e ∈ es, EntryWords e) :
    parseTab ((lexTab (es.map writeEntry).flatten).length + 1) (lexTab (es.map writeEntry).flatten) = some es := by
  have hlex : lexTab (es.map writeEntry).flatten = (es.map entryToks).flatten := by
    induction es with
    | nil => simp [lexTab]
    | cons e es ih =>
      simp only [List.map_cons, List.flatten_cons]
      rw [lexTab_entry e (h e (by simp)), ih (fun x hx => h x (by simp [hx]))]
  rw [hlex]
  exact parseTab_toks es _ (by omega)

example : EntryWords ⟨ascii "nbd0", ascii "server", ascii "disk", [.flag (ascii "tls"), .prop (ascii "bs") (ascii "4096")]⟩ :=
  ⟨by decide +kernel, by decide +kernel, by decide +kernel, by decide +kernel⟩

theorem lastProp_append (k : List Byte) (os : List TabOpt) (o : TabOpt) :
    lastProp k (os ++ [o]) = (match o with
      | .prop k' v => if k' = k then some v else none
      | .flag _ => none).or (lastProp k os) := by
  unfold lastProp
  rw [List.reverse_append]
  simp only [List.reverse_cons, List.reverse_nil, List.nil_append, List.cons_append, List.findSome?_cons]
  cases o with
  | flag k' => rfl
  | prop k' v => by_cases h : k' = k <;> simp [h]

/-- The settings of an entry. -/
structure SetFrom (base : TabClient) (os : List TabOpt) (c : TabClient) : Prop where
  dev : c.dev = base.dev
  port : c.port = (lastProp (ascii "port") os).or base.port
  cert : c.cert = (lastProp (ascii "certfile") os).or base.cert
  key : c.key = (lastProp (ascii "keyfile") os).or base.key
  cacert : c.cacert = (lastProp (ascii "cacertfile") os).or base.cacert
  tlshostn : c.tlshostn = (lastProp (ascii "tlshostname") os).or base.tlshostn
  priority : c.priority = (lastProp (ascii "priority") os).or base.priority
  bs : c.bs = ((lastProp (ascii "bs") os).map strtolInt).getD base.bs
  timeout : c.timeout = ((lastProp (ascii "timeout") os).map strtolInt).getD base.timeout
  nconn : c.nconn = ((lastProp (ascii "conns") os).map strtolInt).getD base.nconn
  noOptgo : c.noOptgo = (decide (.flag (ascii "no_optgo") ∈ os) || base.noOptgo)
  persist : c.persist = (decide (.flag (ascii "persist") ∈ os) || base.persist)
  swap : c.swap = (decide (.flag (ascii "swap") ∈ os) || base.swap)
  unix : c.unix = (decide (.flag (ascii "unix") ∈ os) || base.unix)
  preinit : c.preinit = (decide (.flag (ascii "preinit") ∈ os) || base.preinit)
  tls : c.tls = (decide (.flag (ascii "tls") ∈ os) || base.tls)
  forceRo : c.forceRo = base.forceRo
  forceSize : c.forceSize = base.forceSize

theorem tabSet_flag_noOptgo (c : TabClient) (k : List Byte) :
    (tabSet c (.flag k)).noOptgo = (decide (k = ascii "no_optgo") || c.noOptgo) := by
  by_cases h : k = ascii "no_optgo"
  · subst h; rfl
  · rw [decide_eq_false h]
    simp only [tabSet, if_neg h, Bool.false_or]
    repeat' split
    all_goals rfl

theorem tabSet_flag_persist (c : TabClient) (k : List Byte) :
    (tabSet c (.flag k)).persist = (decide (k = ascii "persist") || c.persist) := by
  by_cases h : k = ascii "persist"
  · subst h; rfl
  · rw [decide_eq_false h]
    simp only [tabSet, if_neg h, Bool.false_or]
    repeat' split
    all_goals rfl

theorem tabSet_flag_swap (c : TabClient) (k : List Byte) :
    (tabSet c (.flag k)).swap = (decide (k = ascii "swap") || c.swap) := by
  by_cases h : k = ascii "swap"
  · subst h; rfl
  · rw [decide_eq_false h]
    simp only [tabSet, if_neg h, Bool.false_or]
    repeat' split
    all_goals rfl

theorem tabSet_flag_unix (c : TabClient) (k : List Byte) :
    (tabSet c (.flag k)).unix = (decide (k = ascii "unix") || c.unix) := by
  by_cases h : k = ascii "unix"
  · subst h; rfl
  · rw [decide_eq_false h]
    simp only [tabSet, if_neg h, Bool.false_or]
    repeat' split
    all_goals rfl

theorem tabSet_flag_preinit (c : TabClient) (k : List Byte) :
    (tabSet c (.flag k)).preinit = (decide (k = ascii "preinit") || c.preinit) := by
  by_cases h : k = ascii "preinit"
  · subst h; rfl
  · rw [decide_eq_false h]
    simp only [tabSet, if_neg h, Bool.false_or]
    repeat' split
    all_goals rfl

theorem tabSet_flag_tls (c : TabClient) (k : List Byte) :
    (tabSet c (.flag k)).tls = (decide (k = ascii "tls") || c.tls) := by
  by_cases h : k = ascii "tls"
  · subst h; rfl
  · rw [decide_eq_false h]
    simp only [tabSet, if_neg h, Bool.false_or]
    repeat' split
    all_goals rfl

theorem tabSet_prop_port (c : TabClient) (k v : List Byte) :
    (tabSet c (.prop k v)).port = if k = ascii "port" then some v else c.port := by
  by_cases h : k = ascii "port"
  · subst h; rfl
  · rw [if_neg h]
    simp only [tabSet, if_neg h]
    repeat' split
    all_goals rfl

theorem tabSet_prop_cert (c : TabClient) (k v : List Byte) :
    (tabSet c (.prop k v)).cert = if k = ascii "certfile" then some v else c.cert := by
  by_cases h : k = ascii "certfile"
  · subst h; rfl
  · rw [if_neg h]
    simp only [tabSet, if_neg h]
    repeat' split
    all_goals rfl

theorem tabSet_prop_key (c : TabClient) (k v : List Byte) :
    (tabSet c (.prop k v)).key = if k = ascii "keyfile" then some v else c.key := by
  by_cases h : k = ascii "keyfile"
  · subst h; rfl
  · rw [if_neg h]
    simp only [tabSet, if_neg h]
    repeat' split
    all_goals rfl

theorem tabSet_prop_cacert (c : TabClient) (k v : List Byte) :
    (tabSet c (.prop k v)).cacert = if k = ascii "cacertfile" then some v else c.cacert := by
  by_cases h : k = ascii "cacertfile"
  · subst h; rfl
  · rw [if_neg h]
    simp only [tabSet, if_neg h]
    repeat' split
    all_goals rfl

theorem tabSet_prop_tlshostn (c : TabClient) (k v : List Byte) :
    (tabSet c (.prop k v)).tlshostn = if k = ascii "tlshostname" then some v else c.tlshostn := by
  by_cases h : k = ascii "tlshostname"
  · subst h; rfl
  · rw [if_neg h]
    simp only [tabSet, if_neg h]
    repeat' split
    all_goals rfl

theorem tabSet_prop_priority (c : TabClient) (k v : List Byte) :
    (tabSet c (.prop k v)).priority = if k = ascii "priority" then some v else c.priority := by
  by_cases h : k = ascii "priority"
  · subst h; rfl
  · rw [if_neg h]
    simp only [tabSet, if_neg h]
    repeat' split
    all_goals rfl

theorem tabSet_prop_bs (c : TabClient) (k v : List Byte) :
    (tabSet c (.prop k v)).bs = if k = ascii "bs" then strtolInt v else c.bs := by
  by_cases h : k = ascii "bs"
  · subst h; rfl
  · rw [if_neg h]
    simp only [tabSet, if_neg h]
    repeat' split
    all_goals rfl

theorem tabSet_prop_timeout (c : TabClient) (k v : List Byte) :
    (tabSet c (.prop k v)).timeout = if k = ascii "timeout" then strtolInt v else c.timeout := by
  by_cases h : k = ascii "timeout"
  · subst h; rfl
  · rw [if_neg h]
    simp only [tabSet, if_neg h]
    repeat' split
    all_goals rfl

theorem tabSet_prop_nconn (c : TabClient) (k v : List Byte) :
    (tabSet c (.prop k v)).nconn = if k = ascii "conns" then strtolInt v else c.nconn := by
  by_cases h : k = ascii "conns"
  · subst h; rfl
  · rw [if_neg h]
    simp only [tabSet, if_neg h]
    repeat' split
    all_goals rfl

theorem tabSet_flag_rest (c : TabClient) (k : List Byte) : ∃ a b d e f g,
    tabSet c (.flag k) = { c with noOptgo := a, persist := b, swap := d, unix := e, preinit := f, tls := g } := by
  unfold tabSet
  simp only []
  repeat' split
  all_goals exact ⟨_, _, _, _, _, _, rfl⟩

theorem tabSet_prop_rest (c : TabClient) (k v : List Byte) : ∃ a b d e f g x y z,
    tabSet c (.prop k v) = { c with port := a, cert := b, key := d, cacert := e, tlshostn := f, priority := g, bs := x, timeout := y, nconn := z } := by
  unfold tabSet
  simp only []
  by_cases h0 : k = ascii "port"
  · rw [if_pos h0]; exact ⟨_, _, _, _, _, _, _, _, _, rfl⟩
  rw [if_neg h0]
  by_cases h1 : k = ascii "certfile"
  · rw [if_pos h1]; exact ⟨_, _, _, _, _, _, _, _, _, rfl⟩
  rw [if_neg h1]
  by_cases h2 : k = ascii "keyfile"
  · rw [if_pos h2]; exact ⟨_, _, _, _, _, _, _, _, _, rfl⟩
  rw [if_neg h2]
  by_cases h3 : k = ascii "cacertfile"
  · rw [if_pos h3]; exact ⟨_, _, _, _, _, _, _, _, _, rfl⟩
  rw [if_neg h3]
  by_cases h4 : k = ascii "tlshostname"
  · rw [if_pos h4]; exact ⟨_, _, _, _, _, _, _, _, _, rfl⟩
  rw [if_neg h4]
  by_cases h5 : k = ascii "priority"
  · rw [if_pos h5]; exact ⟨_, _, _, _, _, _, _, _, _, rfl⟩
  rw [if_neg h5]
  by_cases h6 : k = ascii "bs"
  · rw [if_pos h6]; exact ⟨_, _, _, _, _, _, _, _, _, rfl⟩
  rw [if_neg h6]
  by_cases h7 : k = ascii "timeout"
  · rw [if_pos h7]; exact ⟨_, _, _, _, _, _, _, _, _, rfl⟩
  rw [if_neg h7]
  by_cases h8 : k = ascii "conns"
  · rw [if_pos h8]; exact ⟨_, _, _, _, _, _, _, _, _, rfl⟩
  rw [if_neg h8]
  exact ⟨_, _, _, _, _, _, _, _, _, rfl⟩

theorem SetFrom.snoc {base c : TabClient} {os : List TabOpt} (o : TabOpt) (h : SetFrom base os c) :
    SetFrom base (os ++ [o]) (tabSet c o) := by
  cases o with
  | flag k =>
    have hfl : ∀ (k' : List Byte) (x : Bool), (decide (TabOpt.flag k' ∈ os ++ [.flag k]) || x) =
        (decide (k = k') || (decide (TabOpt.flag k' ∈ os) || x)) := by
      intro k' x
      by_cases hk : k = k' <;> by_cases hm : TabOpt.flag k' ∈ os <;> simp [hk, hm, eq_comm]
    have hlp : ∀ k', lastProp k' (os ++ [.flag k]) = lastProp k' os := fun k' => by rw [lastProp_append, Option.none_or]
    obtain ⟨a1, a2, a3, a4, a5, a6, hr⟩ := tabSet_flag_rest c k
    constructor
    · rw [hr]; exact h.dev
    · rw [hr, hlp]; exact h.port
    · rw [hr, hlp]; exact h.cert
    · rw [hr, hlp]; exact h.key
    · rw [hr, hlp]; exact h.cacert
    · rw [hr, hlp]; exact h.tlshostn
    · rw [hr, hlp]; exact h.priority
    · rw [hr, hlp]; exact h.bs
    · rw [hr, hlp]; exact h.timeout
    · rw [hr, hlp]; exact h.nconn
    · rw [tabSet_flag_noOptgo, hfl, h.noOptgo]
    · rw [tabSet_flag_persist, hfl, h.persist]
    · rw [tabSet_flag_swap, hfl, h.swap]
    · rw [tabSet_flag_unix, hfl, h.unix]
    · rw [tabSet_flag_preinit, hfl, h.preinit]
    · rw [tabSet_flag_tls, hfl, h.tls]
    · rw [hr]; exact h.forceRo
    · rw [hr]; exact h.forceSize
  | prop k v =>
    have hfl : ∀ (k' : List Byte) (x : Bool), (decide (TabOpt.flag k' ∈ os ++ [.prop k v]) || x) =
        (decide (TabOpt.flag k' ∈ os) || x) := by
      intro k' x
      by_cases hm : TabOpt.flag k' ∈ os <;> simp [hm]
    have hlp : ∀ (k' : List Byte) (x : Option (List Byte)), (lastProp k' (os ++ [.prop k v])).or x =
        if k = k' then some v else (lastProp k' os).or x := by
      intro k' x; rw [lastProp_append]; by_cases hk : k = k' <;> simp [hk]
    have hli : ∀ (k' : List Byte) (x : Int), ((lastProp k' (os ++ [.prop k v])).map strtolInt).getD x =
        if k = k' then strtolInt v else ((lastProp k' os).map strtolInt).getD x := by
      intro k' x; rw [lastProp_append]; by_cases hk : k = k' <;> simp [hk]
    obtain ⟨a1, a2, a3, a4, a5, a6, a7, a8, a9, hr⟩ := tabSet_prop_rest c k v
    constructor
    · rw [hr]; exact h.dev
    · rw [tabSet_prop_port, hlp, h.port]
    · rw [tabSet_prop_cert, hlp, h.cert]
    · rw [tabSet_prop_key, hlp, h.key]
    · rw [tabSet_prop_cacert, hlp, h.cacert]
    · rw [tabSet_prop_tlshostn, hlp, h.tlshostn]
    · rw [tabSet_prop_priority, hlp, h.priority]
    · rw [tabSet_prop_bs, hli, h.bs]
    · rw [tabSet_prop_timeout, hli, h.timeout]
    · rw [tabSet_prop_nconn, hli, h.nconn]
    · rw [hr, hfl]; exact h.noOptgo
    · rw [hr, hfl]; exact h.persist
    · rw [hr, hfl]; exact h.swap
    · rw [hr, hfl]; exact h.unix
    · rw [hr, hfl]; exact h.preinit
    · rw [hr, hfl]; exact h.tls
    · rw [hr]; exact h.forceRo
    · rw [hr]; exact h.forceSize

theorem foldl_set (base : TabClient) (os : List TabOpt) :
    ∃ c, os.foldl (fun (s : TabClient × Bool) o => if s.2 then s else (tabSet s.1 o, false)) (base, false) = (c, false) ∧
      SetFrom base os c := by
  suffices H : ∀ (n : Nat) (os : List TabOpt), os.length = n →
    ∃ c, os.foldl (fun (s : TabClient × Bool) o => if s.2 then s else (tabSet s.1 o, false)) (base, false) = (c, false) ∧
      SetFrom base os c from H _ os rfl
  intro n
  induction n with
  | zero =>
    intro os h
    cases os with
    | cons => simp at h
    | nil => exact ⟨base, rfl, by constructor <;> simp [lastProp]⟩
  | succ n ih =>
    intro os h
    obtain ⟨ys, o, rfl⟩ : ∃ ys o, os = ys ++ [o] := by
      refine ⟨os.dropLast, os.getLast (by intro h'; rw [h'] at h; cases h), (List.dropLast_concat_getLast _).symm⟩
    obtain ⟨c, hc, hs⟩ := ih ys (by simpa using h)
    refine ⟨tabSet c o, ?_, hs.snoc o⟩
    rw [List.foldl_append, hc]
    rfl

theorem foldl_found (os : List TabOpt) (c : TabClient) :
    os.foldl (fun (s : TabClient × Bool) o => if s.2 then s else (tabSet s.1 o, false)) (c, true) = (c, true) := by
  induction os with
  | nil => rfl
  | cons o os ih => rw [List.foldl_cons]; exact ih

theorem tabLine_other (c : TabClient) (e : TabEntry) (h : stripDev e.dev ≠ c.dev) :
    tabLine (c, false) e = (tabBlank c.dev, false) := by
  obtain ⟨c', hc, hs⟩ := foldl_set c e.opts
  unfold tabLine tabCommit
  rw [hc]
  simp only []
  rw [if_neg (by rw [hs.dev]; exact fun h' => h h'.symm), hs.dev]
  rfl

theorem tabLines_other (c : TabClient) (es : List TabEntry) (h : ∀ e ∈ es, stripDev e.dev ≠ c.dev) :
    es.foldl tabLine (c, false) = (if es = [] then c else tabBlank c.dev, false) := by
  induction es generalizing c with
  | nil => rfl
  | cons e es ih =>
    rw [List.foldl_cons, tabLine_other c e (h e (by simp)), ih (tabBlank c.dev) (fun x hx => h x (by simp [hx]))]
    rw [if_neg (List.cons_ne_nil e es)]
    split <;> rfl

theorem tabLines_after (c : TabClient) (es : List TabEntry) (h : ∀ e ∈ es, stripDev e.dev ≠ c.dev) :
    es.foldl tabLine (c, true) = (c, true) := by
  induction es generalizing c with
  | nil => rfl
  | cons e es ih =>
    have : tabLine (c, true) e = (c, true) := by
      unfold tabLine tabCommit
      rw [foldl_found]
      simp only []
      rw [if_neg (fun h' => h e (by simp) h'.symm)]
      rfl
    rw [List.foldl_cons, this, ih c (fun x hx => h x (by simp [hx]))]

theorem tabLine_hit (c : TabClient) (e : TabEntry) (h : stripDev e.dev = c.dev) :
    ∃ c', tabLine (c, false) e = (c', true) ∧ FromEntry c e c' := by
  obtain ⟨c', hc, hs⟩ := foldl_set c e.opts
  refine ⟨{ c' with hostn := some e.host, name := some e.name }, ?_, ?_⟩
  · unfold tabLine tabCommit
    rw [hc]
    simp only []
    rw [if_pos (by rw [hs.dev, h])]
  · exact ⟨hs.dev, rfl, rfl, hs.port, hs.cert, hs.key, hs.cacert, hs.tlshostn, hs.priority, hs.bs, hs.timeout, hs.nconn,
      hs.noOptgo, hs.persist, hs.swap, hs.unix, hs.preinit, hs.tls, hs.forceRo, hs.forceSize⟩

/-- **C46, partial.** If exactly one entry of the table is for the device asked for, then the connection is configured from
that entry; what the entry does not say is as it was before the lookup if the entry is the first one, and blank
(`tabBlank`: block size 512, one connection, all else unset) otherwise. Nothing comes from the other entries.

Missing: blank includes no port at all, so the default port is lost (`C46_false_port`), and the command line's settings too
(`C57_false`); with several entries for the device, host and export name are those of the last
(`C46_false_duplicate`). -/
theorem C46_entry_partial (start : TabClient) (pre post : List TabEntry) (e : TabEntry)
    (hw : ∀ x ∈ pre ++ e :: post, EntryWords x) (he : stripDev e.dev = stripDev start.dev)
    (hpre : ∀ x ∈ pre, stripDev x.dev ≠ stripDev start.dev) (hpost : ∀ x ∈ post, stripDev x.dev ≠ stripDev start.dev) :
    ∃ c, getFromConfig start (some ((pre ++ e :: post).map writeEntry).flatten) = some c ∧
      FromEntry (if pre = [] then { start with dev := stripDev start.dev } else tabBlank (stripDev start.dev)) e c := by
  generalize hc0 : (if pre = [] then { start with dev := stripDev start.dev } else tabBlank (stripDev start.dev)) = c0
  have hd : c0.dev = stripDev start.dev := by rw [← hc0]; split <;> rfl
  obtain ⟨c, hc, hf⟩ := tabLine_hit c0 e (he.trans hd.symm)
  refine ⟨c, ?_, hf⟩
  unfold getFromConfig
  simp only []
  rw [C46_text _ hw]
  simp only []
  rw [List.foldl_append, tabLines_other _ pre hpre]
  simp only []
  rw [hc0, List.foldl_cons, hc, tabLines_after c post (by rw [hf.dev, hd]; exact hpost)]
  rfl

/-- **C46.** If the table has no entry for the device, or cannot be read, the lookup fails. -/
theorem C46_absent (start : TabClient) (es : List TabEntry) (hw : ∀ x ∈ es, EntryWords x)
    (h : ∀ x ∈ es, stripDev x.dev ≠ stripDev start.dev) :
    getFromConfig start (some (es.map writeEntry).flatten) = none ∧ getFromConfig start none = none := by
  refine ⟨?_, rfl⟩
  unfold getFromConfig
  simp only []
  rw [C46_text _ hw]
  simp only []
  rw [tabLines_other _ es h]
  rfl

/-- **C46 is false: the default port.** When the table's entry for the device is not its first, the port the client
connects to is unset rather than the default. -/
theorem C46_false_port :
    (getFromConfig (tabStart (ascii "nbd0")) (some (ascii "nbd0 server disk\n"))).map (·.port) = some (some (ascii "10809")) ∧
    (getFromConfig (tabStart (ascii "nbd0")) (some (ascii "nbd1 other disk\nnbd0 server disk\n"))).map (·.port) =
      some none := by
  decide +kernel

/-- **C46 is false: duplicate entries.** With two entries for the device, host and export name come from the second and the
options from the first. -/
theorem C46_false_duplicate :
    (getFromConfig (tabStart (ascii "nbd0")) (some (ascii "nbd0 one disk port=1\nnbd0 two other port=2\n"))).map
      (fun c => (c.hostn, c.name, c.port)) = some (some (ascii "two"), some (ascii "other"), some (ascii "1")) := by
  decide +kernel

/-- **C57, partial.** -R and -B given on the command line hold for a device looked up in the table if its entry is the
table's first. -/
theorem C57_options_partial (start : TabClient) (post : List TabEntry) (e : TabEntry)
    (hw : ∀ x ∈ e :: post, EntryWords x) (he : stripDev e.dev = stripDev start.dev)
    (hpost : ∀ x ∈ post, stripDev x.dev ≠ stripDev start.dev) :
    ∃ c, getFromConfig start (some ((e :: post).map writeEntry).flatten) = some c ∧
      c.forceRo = start.forceRo ∧ c.forceSize = start.forceSize ∧ (start.tls = true → c.tls = true) := by
  obtain ⟨c, hc, hf⟩ := C46_entry_partial start [] post e hw he (by simp) hpost
  refine ⟨c, hc, hf.forceRo, hf.forceSize, fun h => ?_⟩
  rw [hf.tls, if_pos rfl]
  simp [h]

/-- **C57 is false.** `nbd-client -R nbd0` with a table whose second entry is nbd0's: the read-only option is lost; so is
the request for TLS. -/
theorem C57_false :
    (getFromConfig { tabStart (ascii "nbd0") with forceRo := true, tls := true }
      (some (ascii "nbd1 other disk\nnbd0 server disk\n"))).map (fun c => (c.forceRo, c.tls)) = some (false, false) := by
  decide +kernel

/-- **C58 is false.** Whatever device is asked for, and whatever the table says: a device found there is never one that the
netlink setup, the default, accepts. -/
theorem C58_false (start : TabClient) (file : Option (List Byte)) (c : TabClient)
    (hd : ∀ d, start.dev ≠ ascii "/dev//dev/" ++ d) (h : getFromConfig start file = some c) : netlinkDevOk c.dev = false := by
  have hdev : ∀ (es : List TabEntry) (s : TabClient × Bool), (es.foldl tabLine s).1.dev = s.1.dev := by
    intro es
    induction es with
    | nil => intro s; rfl
    | cons e es ih =>
      intro s
      rw [List.foldl_cons, ih]
      obtain ⟨c, b⟩ := s
      unfold tabLine
      cases b with
      | true => rw [foldl_found]; unfold tabCommit; split <;> rfl
      | false =>
        obtain ⟨c', hc, hs⟩ := foldl_set c e.opts
        rw [hc]
        unfold tabCommit
        simp only []
        split
        · exact hs.dev
        · exact hs.dev
  have hc : c.dev = stripDev start.dev := by
    unfold getFromConfig at h
    split at h
    · cases h
    simp only [] at h
    split at h
    · cases h
    split at h
    · cases h
      rw [hdev]
    · cases h
  rw [hc]
  unfold netlinkDevOk
  have : (ascii "/dev/nbd").isPrefixOf (stripDev start.dev) = false := by
    rw [Bool.eq_false_iff]
    intro hp
    rw [List.isPrefixOf_iff_prefix] at hp
    unfold stripDev at hp
    split at hp
    · rename_i hs
      obtain ⟨d1, h1⟩ := hs
      obtain ⟨d2, h2⟩ := hp
      rw [← h1] at h2
      rw [show List.drop 5 (ascii "/dev/" ++ d1) = d1 from by rw [List.drop_append]; rfl] at h2
      refine hd (ascii "nbd" ++ d2) ?_
      rw [← h1, ← h2]
      rfl
    · rename_i hs
      apply hs
      obtain ⟨d2, h2⟩ := hp
      exact ⟨ascii "nbd" ++ d2, by rw [← h2]; rfl⟩
  rw [this]
  rfl

/-- A device named directly, without the table, is accepted. -/
example : netlinkDevOk (ascii "/dev/nbd0") = true := by decide +kernel

example : (getFromConfig (tabStart (ascii "/dev/nbd0")) (some (ascii "nbd0 server disk\n"))).isSome = true := by decide +kernel

/-- **C46_entry_partial's hypotheses.** Three entries, the device's being the second. -/
example : let e : TabEntry := ⟨ascii "nbd0", ascii "server", ascii "disk", [.flag (ascii "tls"), .prop (ascii "bs") (ascii "4096")]⟩
    let o : TabEntry := ⟨ascii "/dev/nbd1", ascii "a", ascii "b", [.prop (ascii "port") (ascii "77")]⟩
    (getFromConfig (tabStart (ascii "/dev/nbd0")) (some (([o] ++ e :: [o]).map writeEntry).flatten)).map
      (fun c => (c.bs, c.tls, c.port, c.hostn)) = some (4096, true, none, some (ascii "server")) := by
  decide +kernel

end Nbd.Props
