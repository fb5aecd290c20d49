import Verif.Names
import Verif.Props.Acl
/-!
# Properties of file names that depend on the client

C52 (which file a client is served), C69 (diff files of different sessions have different names), C70 (the commands run before and after a session get
the name of the file).
-/

set_option autoImplicit false

namespace Nbd.Spec

/-- The text has `%s` exactly once and no other `%`. -/
structure Marked (t pre post : List Byte) : Prop where
  eq : t = pre ++ ascii "%s" ++ post
  pre : 37 ∉ pre
  post : 37 ∉ post

/-- A decimal number without needless zeros. -/
structure Numeral (ds : List Byte) (n : Nat) : Prop where
  decimal : Decimal ds n
  lead : ds.head? = some 48 → ds = [48]

/-- Dotted-quad notation. -/
def IsDotted (t a : List Byte) : Prop :=
  ∃ x y z w dx dy dz dw, a = [x, y, z, w] ∧ Numeral dx x.toNat ∧ Numeral dy y.toNat ∧ Numeral dz z.toNat ∧ Numeral dw w.toNat ∧
    t = dx ++ [46] ++ dy ++ [46] ++ dz ++ [46] ++ dw

/-- What is assumed of the C library's text for IPv6 addresses: IPv4-mapped addresses are written with their IPv4 address in dotted-quad notation, no
other address starts that way, there is a colon, no slash, and different addresses have different texts. -/
structure V6Text (v6 : List Byte → List Byte → List Byte) : Prop where
  mapped : ∀ a s, a.length = 4 → s = [0, 0, 0, 0] → ∃ t, v6 (asV6 a) s = ascii "::ffff:" ++ t ∧ IsDotted t a
  other : ∀ a s, a.length = 16 → s.length = 4 → (∀ b, a = asV6 b → s ≠ [0, 0, 0, 0]) → ¬ ascii "::ffff:" <+: v6 a s
  colon : ∀ a s, 58 ∈ v6 a s
  slash : ∀ a s, 47 ∉ v6 a s
  inj : ∀ a b s t, v6 a s = v6 b t → a.length = 16 → b.length = 16 → s.length = 4 → t.length = 4 → a = b ∧ s = t

/-- Addresses have the right number of bytes. -/
def PeerOk : Peer → Prop
  | .unix => True
  | .inet port a => port.length = 2 ∧ a.length = 4
  | .inet6 port flow a s => port.length = 2 ∧ flow.length = 4 ∧ a.length = 16 ∧ s.length = 4

/-- Who the client is: nobody in particular, or an IPv6 address (with scope), an IPv4 address counting as the one it is mapped to. -/
def identity : Peer → Option (List Byte × List Byte)
  | .unix => none
  | .inet _ a => some (asV6 a, [0, 0, 0, 0])
  | .inet6 _ _ a s => some (a, s)

/-- The text is the address of the client: dotted-quad for IPv4, also when mapped into IPv6; the C library's text for other IPv6 addresses; the word
`unix` for Unix sockets. -/
def IsAddress (v6 : List Byte → List Byte → List Byte) (p : Peer) (t : List Byte) : Prop :=
  match identity p with
  | none => t = ascii "unix"
  | some (a, s) => (∃ b, a = asV6 b ∧ s = [0, 0, 0, 0] ∧ IsDotted t b) ∨ ((∀ b, a = asV6 b → s ≠ [0, 0, 0, 0]) ∧ t = v6 a s)

/-- The network of an address: its first `n` bits, then zeros. -/
def IsNetwork (n : Nat) (a net : List Byte) : Prop :=
  net.length = a.length ∧ bits net = (bits a).take n ++ List.replicate ((bits a).length - n) false

/-- The file a style says the client is served, for a template `pre %s post`. -/
def IsFileFor (v6 : List Byte → List Byte → List Byte) (style : Virt) (n : Nat) (pre post : List Byte) (p : Peer) (f : List Byte) : Prop :=
  ∃ t, IsAddress v6 p t ∧
    match style, p with
    | .none, _ => f = pre ++ ascii "%s" ++ post
    | .iplit, _ => f = pre ++ t ++ post
    | .iphash, _ => f = pre ++ (t.map fun b => if b = 46 then 47 else b) ++ post
    | .cidr, .unix => f = pre ++ t ++ post
    | .cidr, .inet _ a => ∃ net u, IsNetwork n a net ∧ IsDotted u net ∧ f = pre ++ u ++ [47] ++ t ++ post
    | .cidr, .inet6 _ _ a s => ∃ net u, IsNetwork n a net ∧ IsAddress v6 (.inet6 [] [] net s) u ∧ f = pre ++ u ++ [47] ++ t ++ post

/-- The prefix covers the whole address of the client, who has not got an IPv4-mapped one. -/
def WholePrefix (n : Nat) : Peer → Prop
  | .unix => True
  | .inet _ _ => 32 ≤ n
  | .inet6 _ _ a _ => 128 ≤ n ∧ ∀ b, a ≠ asV6 b

/-- An ordinary path `d/b`. -/
structure IsPath (d b : List Byte) : Prop where
  ne : d ≠ []
  dir : d.getLast? ≠ some 47
  some : b ≠ []
  base : 47 ∉ b

end Nbd.Spec

namespace Nbd.Props

open Nbd Nbd.Spec

/-! ### Decimal numbers -/

theorem decText_digits (n : Nat) : ∀ d ∈ decText n, 48 ≤ d ∧ d ≤ 57 := by
  fun_induction decText n with
  | case1 n h =>
    intro d hd
    rw [List.mem_singleton] at hd
    subst hd
    rw [UInt8.le_iff_toNat_le, UInt8.le_iff_toNat_le, UInt8.toNat_ofNat']
    have : (48 + n) % 2 ^ 8 = 48 + n := Nat.mod_eq_of_lt (by omega)
    rw [this]
    exact ⟨by show 48 ≤ 48 + n; omega, by show 48 + n ≤ 57; omega⟩
  | case2 n h ih =>
    intro d hd
    rcases List.mem_append.mp hd with hd | hd
    · exact ih d hd
    · rw [List.mem_singleton] at hd
      subst hd
      rw [UInt8.le_iff_toNat_le, UInt8.le_iff_toNat_le, UInt8.toNat_ofNat']
      have : (48 + n % 10) % 2 ^ 8 = 48 + n % 10 := Nat.mod_eq_of_lt (by omega)
      rw [this]
      exact ⟨by show 48 ≤ 48 + n % 10; omega, by show 48 + n % 10 ≤ 57; omega⟩

theorem decText_ne (n : Nat) : decText n ≠ [] := by
  rw [decText]; split <;> simp

theorem decText_value (n : Nat) : (decText n).foldl (fun v d => v * 10 + (d.toNat - 48)) 0 = n := by
  fun_induction decText n with
  | case1 n h =>
    simp only [List.foldl_cons, List.foldl_nil]
    rw [UInt8.toNat_ofNat', Nat.mod_eq_of_lt (by omega)]
    omega
  | case2 n h ih =>
    rw [List.foldl_append, ih]
    simp only [List.foldl_cons, List.foldl_nil]
    rw [UInt8.toNat_ofNat', Nat.mod_eq_of_lt (by omega)]
    omega

theorem decText_lead (n : Nat) : (decText n).head? = some 48 → n = 0 := by
  fun_induction decText n with
  | case1 n h =>
    intro e
    simp only [List.head?_cons, Option.some.injEq] at e
    have := congrArg UInt8.toNat e
    rw [UInt8.toNat_ofNat', Nat.mod_eq_of_lt (by omega)] at this
    have h48 : (48 : UInt8).toNat = 48 := rfl
    omega
  | case2 n h ih =>
    intro e
    rw [List.head?_append, Option.or_of_isSome (by rw [List.isSome_head?]; exact decText_ne _)] at e
    have := ih e
    omega

theorem decText_numeral (n : Nat) : Numeral (decText n) n where
  decimal := ⟨decText_ne n, decText_digits n, decText_value n⟩
  lead := by
    intro h
    rw [decText_lead n h]
    decide +kernel

theorem numeral_unique {ds : List Byte} {n : Nat} (h : Numeral ds n) : ds = decText n := by
  suffices ∀ k, ∀ ds : List Byte, ds.length = k → ∀ n, Numeral ds n → ds = decText n from this _ ds rfl n h
  intro k
  induction k with
  | zero => intro ds hl n h; exact absurd (List.eq_nil_of_length_eq_zero hl) h.decimal.some
  | succ k ih =>
    intro ds hl n h
    obtain ⟨init, d, rfl⟩ : ∃ init d, ds = init ++ [d] := by
      rcases List.eq_nil_or_concat ds with rfl | ⟨i, d, e⟩
      · cases hl
      · exact ⟨i, d, by rw [e, List.concat_eq_append]⟩
    have hv := h.decimal.value
    rw [List.foldl_append] at hv
    simp only [List.foldl_cons, List.foldl_nil] at hv
    have hd := h.decimal.digits d (by simp)
    rw [UInt8.le_iff_toNat_le, UInt8.le_iff_toNat_le] at hd
    have h48 : (48 : UInt8).toNat = 48 := rfl
    have h57 : (57 : UInt8).toNat = 57 := rfl
    have hd' : ∀ m, m = d.toNat - 48 → d = UInt8.ofNat (48 + m) := by
      intro m hm
      apply UInt8.toNat_inj.mp
      rw [UInt8.toNat_ofNat', Nat.mod_eq_of_lt (by omega)]
      omega
    by_cases hi : init = []
    · subst hi
      simp only [List.foldl_nil] at hv
      rw [decText, if_pos (by omega), ← hd' n (by omega)]
      rfl
    · have hlead : init.head? ≠ some 48 := by
        intro e
        have := h.lead (by rw [List.head?_append, e]; rfl)
        cases init with
        | nil => exact hi rfl
        | cons x xs => simp at this
      have hn : Numeral init (init.foldl (fun v d => v * 10 + (d.toNat - 48)) 0) :=
        ⟨⟨hi, fun x hx => h.decimal.digits x (List.mem_append_left _ hx), rfl⟩, fun e => absurd e hlead⟩
      have hrec := ih init (by simpa using hl) _ hn
      generalize init.foldl (fun v d => v * 10 + (d.toNat - 48)) 0 = m at hrec hv
      have hm : m ≠ 0 := by
        rintro rfl
        apply hlead
        rw [hrec]
        decide +kernel
      rw [decText, if_neg (by omega), show n / 10 = m by omega, ← hd' (n % 10) (by omega), ← hrec]

theorem decText_inj {m n : Nat} (h : decText m = decText n) : m = n := by
  rw [← decText_value m, h, decText_value]

theorem dotted_quad (x y z w : Byte) :
    dotted [x, y, z, w] = decText x.toNat ++ [46] ++ decText y.toNat ++ [46] ++ decText z.toNat ++ [46] ++ decText w.toNat := by
  simp [dotted, List.intersperse]

theorem dotted_is {a : List Byte} (h : a.length = 4) : IsDotted (dotted a) a := by
  match a, h with
  | [x, y, z, w], _ =>
    exact ⟨x, y, z, w, _, _, _, _, rfl, decText_numeral _, decText_numeral _, decText_numeral _, decText_numeral _, dotted_quad x y z w⟩

/-- What comes before the first `c` can be found again. -/
theorem cut_dot {c : Byte} {p q r s : List Byte} (h : p ++ c :: r = q ++ c :: s) (hp : c ∉ p) (hq : c ∉ q) : p = q ∧ r = s := by
  induction p generalizing q with
  | nil =>
    cases q with
    | nil => simpa using h
    | cons b q => simp at h hq; exact absurd h.1 hq.1
  | cons a p ih =>
    cases q with
    | nil => simp at h hp; exact absurd h.1.symm hp.1
    | cons b q =>
      simp only [List.cons_append, List.cons.injEq] at h
      simp only [List.mem_cons, not_or] at hp hq
      obtain ⟨h1, h2⟩ := ih h.2 hp.2 hq.2
      exact ⟨by rw [h.1, h1], h2⟩

theorem numeral_no {ds : List Byte} {n : Nat} (h : Numeral ds n) {c : Byte} (hc : c < 48 ∨ 57 < c) : c ∉ ds := by
  intro hm
  have := h.decimal.digits c hm
  rw [UInt8.le_iff_toNat_le, UInt8.le_iff_toNat_le] at this
  rw [UInt8.lt_iff_toNat_lt, UInt8.lt_iff_toNat_lt] at hc
  omega

theorem isDotted_inj {t a b : List Byte} (ha : IsDotted t a) (hb : IsDotted t b) : a = b := by
  obtain ⟨x, y, z, w, dx, dy, dz, dw, rfl, nx, ny, nz, nw, e⟩ := ha
  obtain ⟨x', y', z', w', dx', dy', dz', dw', rfl, nx', ny', nz', nw', e'⟩ := hb
  rw [e] at e'
  simp only [List.append_assoc, List.cons_append, List.nil_append] at e'
  have dot : (46 : UInt8) < 48 ∨ (57 : UInt8) < 46 := by decide
  obtain ⟨h1, e'⟩ := cut_dot e' (numeral_no nx dot) (numeral_no nx' dot)
  obtain ⟨h2, e'⟩ := cut_dot e' (numeral_no ny dot) (numeral_no ny' dot)
  obtain ⟨h3, h4⟩ := cut_dot e' (numeral_no nz dot) (numeral_no nz' dot)
  have hx : x = x' := UInt8.toNat_inj.mp (by rw [← nx.decimal.value, ← nx'.decimal.value, h1])
  have hy : y = y' := UInt8.toNat_inj.mp (by rw [← ny.decimal.value, ← ny'.decimal.value, h2])
  have hz : z = z' := UInt8.toNat_inj.mp (by rw [← nz.decimal.value, ← nz'.decimal.value, h3])
  have hw : w = w' := UInt8.toNat_inj.mp (by rw [← nw.decimal.value, ← nw'.decimal.value, h4])
  rw [hx, hy, hz, hw]

theorem isDotted_text {t u a : List Byte} (ht : IsDotted t a) (hu : IsDotted u a) : t = u := by
  obtain ⟨x, y, z, w, dx, dy, dz, dw, e, nx, ny, nz, nw, rfl⟩ := ht
  obtain ⟨x', y', z', w', dx', dy', dz', dw', e', nx', ny', nz', nw', rfl⟩ := hu
  rw [e] at e'
  simp only [List.cons.injEq, and_true] at e'
  obtain ⟨rfl, rfl, rfl, rfl⟩ := e'
  rw [numeral_unique nx, numeral_unique ny, numeral_unique nz, numeral_unique nw, numeral_unique nx', numeral_unique ny', numeral_unique nz',
    numeral_unique nw']

theorem isDotted_no {t a : List Byte} (ha : IsDotted t a) {c : Byte} (hc : c < 46 ∨ 57 < c ∨ c = 47) : c ∉ t := by
  obtain ⟨x, y, z, w, dx, dy, dz, dw, rfl, nx, ny, nz, nw, rfl⟩ := ha
  have hc' : c < 48 ∨ 57 < c := by
    rcases hc with h | h | rfl
    · left; rw [UInt8.lt_iff_toNat_lt] at h ⊢; show c.toNat < 48; have h' : c.toNat < 46 := h; omega
    · exact .inr h
    · decide
  have hd : c ≠ 46 := by
    rintro rfl
    revert hc
    decide
  simp [numeral_no nx hc', numeral_no ny hc', numeral_no nz hc', numeral_no nw hc', hd]

/-! ### `printf` -/

theorem printfS_cons (b : Byte) (t : List Byte) (h : b ≠ 37) (arg : Option (List Byte)) : printfS (b :: t) arg = prepend [b] (printfS t arg) := by
  cases t with
  | nil => simp only [printfS, if_neg h]; rfl
  | cons c t => cases arg <;> simp only [printfS, if_neg h]

theorem printfS_plain (t : List Byte) (h : 37 ∉ t) (arg : Option (List Byte)) : printfS t arg = .val t := by
  induction t with
  | nil => rw [printfS]
  | cons b t ih =>
    simp only [List.mem_cons, not_or] at h
    rw [printfS_cons b t (fun e => h.1 e.symm), ih h.2]
    rfl

theorem printfS_marked {t pre post : List Byte} (h : Marked t pre post) (a : List Byte) :
    printfS t (some a) = .val (pre ++ a ++ post) := by
  rw [h.eq]
  have hp := h.pre
  generalize pre = pre at hp
  induction pre with
  | nil =>
    rw [show ([] : List Byte) ++ ascii "%s" ++ post = 37 :: 115 :: post by rfl, printfS, if_pos rfl, if_neg (by decide), if_pos rfl]
    rw [printfS_plain post h.post]
    rfl
  | cons b pre ih =>
    simp only [List.mem_cons, not_or] at hp
    rw [List.cons_append, List.cons_append, printfS_cons _ _ (fun e => hp.1 e.symm), ih hp.2]
    rfl

/-! ### C52 -/

theorem asV6_inj {a b : List Byte} (h : asV6 a = asV6 b) : a = b := by
  unfold asV6 at h
  exact List.append_cancel_left h

theorem isPrefixOf_dotted {t a : List Byte} (h : IsDotted t a) : (ascii "::ffff:").isPrefixOf t = false := by
  cases hb : (ascii "::ffff:").isPrefixOf t with
  | false => rfl
  | true =>
    obtain ⟨u, rfl⟩ := List.isPrefixOf_iff_prefix.mp hb
    exact absurd (List.mem_append_left _ (by decide)) (isDotted_no h (c := 58) (.inr (.inl (by decide))))

theorem asV6_of_length {a b : List Byte} (h : a = asV6 b) (hl : a.length = 16) : b.length = 4 := by
  subst h
  simpa [asV6] using hl

theorem peerName_is {v6 : List Byte → List Byte → List Byte} (hv : V6Text v6) {p : Peer} (hp : PeerOk p) : IsAddress v6 p (peerName v6 p) := by
  cases p with
  | unix => show stripMapped (ascii "unix") = ascii "unix"; decide
  | inet port a =>
    have hd := dotted_is hp.2
    refine .inl ⟨a, rfl, rfl, ?_⟩
    show IsDotted (stripMapped (dotted a)) a
    unfold stripMapped
    rw [isPrefixOf_dotted hd]
    exact hd
  | inet6 port flow a s =>
    obtain ⟨-, -, ha, hs⟩ := hp
    show (∃ b, a = asV6 b ∧ s = [0, 0, 0, 0] ∧ IsDotted (stripMapped (v6 a s)) b) ∨
      ((∀ b, a = asV6 b → s ≠ [0, 0, 0, 0]) ∧ stripMapped (v6 a s) = v6 a s)
    by_cases hm : ∃ b, a = asV6 b ∧ s = [0, 0, 0, 0]
    · obtain ⟨b, hb, hs0⟩ := hm
      left
      obtain ⟨t, ht, hd⟩ := hv.mapped b s (asV6_of_length hb ha) hs0
      refine ⟨b, hb, hs0, ?_⟩
      rw [hb, ht]
      unfold stripMapped
      rw [if_pos (List.isPrefixOf_iff_prefix.mpr ⟨t, rfl⟩), List.drop_left' (by decide)]
      exact hd
    · right
      have hm' : ∀ b, a = asV6 b → s ≠ [0, 0, 0, 0] := fun b hb h0 => hm ⟨b, hb, h0⟩
      refine ⟨hm', ?_⟩
      unfold stripMapped
      rw [if_neg]
      intro hpre
      exact hv.other a s ha hs hm' (List.isPrefixOf_iff_prefix.mp hpre)

/-- Without virtualization every client is served the file as it is written, whatever it contains. -/
theorem C52_none (v6 : List Byte → List Byte → List Byte) (n : Nat) (t : List Byte) (p : Peer) :
    ∃ name, setPeername v6 .none n t p = .val (some t, name) := ⟨_, rfl⟩

/-- **C52** for the default style: a client is served the file whose name has the client's address in place of `%s`. -/
theorem C52_ipliteral {v6 : List Byte → List Byte → List Byte} (hv : V6Text v6) (n : Nat) {t pre post : List Byte} (ht : Marked t pre post)
    {p : Peer} (hp : PeerOk p) :
    ∃ f name, setPeername v6 .iplit n t p = .val (some f, name) ∧ IsAddress v6 p name ∧ IsFileFor v6 .iplit n pre post p f := by
  refine ⟨_, _, by unfold setPeername; simp only []; rw [printfS_marked ht], peerName_is hv hp, _, peerName_is hv hp, ?_⟩
  cases p <;> rfl

theorem isAddress_inj {v6 : List Byte → List Byte → List Byte} (hv : V6Text v6) {p q : Peer} (hp : PeerOk p) (hq : PeerOk q) {t : List Byte}
    (h1 : IsAddress v6 p t) (h2 : IsAddress v6 q t) : identity p = identity q := by
  have unixNo : ∀ r a s, identity r = some (a, s) → IsAddress v6 r t → t = ascii "unix" → False := by
    intro r a s hr hi ht
    unfold IsAddress at hi
    rw [hr] at hi
    simp only [] at hi
    rcases hi with ⟨b, -, -, hd⟩ | ⟨-, hi⟩
    · rw [ht] at hd
      exact isDotted_no hd (c := 117) (.inr (.inl (by decide))) (by decide)
    · have := hv.colon a s
      rw [← hi, ht] at this
      revert this
      decide
  have len : ∀ r a s, PeerOk r → identity r = some (a, s) → a.length = 16 ∧ s.length = 4 := by
    intro r a s hr hi
    cases r with
    | unix => cases hi
    | inet port b =>
      simp only [identity, Option.some.injEq, Prod.mk.injEq] at hi
      obtain ⟨rfl, rfl⟩ := hi
      exact ⟨by simp [asV6, hr.2], rfl⟩
    | inet6 port flow b u =>
      simp only [identity, Option.some.injEq, Prod.mk.injEq] at hi
      obtain ⟨rfl, rfl⟩ := hi
      exact ⟨hr.2.2.1, hr.2.2.2⟩
  cases e1 : identity p with
  | none =>
    cases e2 : identity q with
    | none => rfl
    | some x =>
      have h1' := h1
      unfold IsAddress at h1'
      rw [e1] at h1'
      exact (unixNo q x.1 x.2 e2 h2 h1').elim
  | some x =>
    cases e2 : identity q with
    | none =>
      have h2' := h2
      unfold IsAddress at h2'
      rw [e2] at h2'
      exact (unixNo p x.1 x.2 e1 h1 h2').elim
    | some y =>
      obtain ⟨a, s⟩ := x
      obtain ⟨b, u⟩ := y
      have la := len p a s hp e1
      have lb := len q b u hq e2
      unfold IsAddress at h1 h2
      rw [e1] at h1
      rw [e2] at h2
      simp only [] at h1 h2
      rcases h1 with ⟨c, hc, hs, hd⟩ | ⟨-, h1⟩ <;> rcases h2 with ⟨c', hc', hs', hd'⟩ | ⟨-, h2⟩
      · rw [hc, hc', hs, hs', isDotted_inj hd hd']
      · rw [h2] at hd
        exact absurd (hv.colon b u) (isDotted_no hd (.inr (.inl (by decide))))
      · rw [h1] at hd'
        exact absurd (hv.colon a s) (isDotted_no hd' (.inr (.inl (by decide))))
      · rw [h1] at h2
        obtain ⟨rfl, rfl⟩ := hv.inj a b s u h2 la.1 lb.1 la.2 lb.2
        rfl

theorem isAddress_text {v6 : List Byte → List Byte → List Byte} {p q : Peer} {t u : List Byte} (h1 : IsAddress v6 p t) (h2 : IsAddress v6 q u)
    (hi : identity p = identity q) : t = u := by
  unfold IsAddress at h1 h2
  rw [← hi] at h2
  cases e : identity p with
  | none => rw [e] at h1 h2; exact h1.trans h2.symm
  | some x =>
    rw [e] at h1 h2
    obtain ⟨a, s⟩ := x
    simp only [] at h1 h2
    rcases h1 with ⟨c, hc, hs, hd⟩ | ⟨hn, h1⟩ <;> rcases h2 with ⟨c', hc', hs', hd'⟩ | ⟨hn', h2⟩
    · have : c = c' := asV6_inj (hc.symm.trans hc')
      subst this
      exact isDotted_text hd hd'
    · exact absurd hs (hn' c hc)
    · exact absurd hs' (hn c' hc')
    · rw [h1, h2]

/-- **C52**, default style: clients with different addresses are never served the same file. A client that connects by IPv4 and one that
connects from the same address by way of IPv6 are. -/
theorem C52_own_file {v6 : List Byte → List Byte → List Byte} (hv : V6Text v6) (n : Nat) {t pre post : List Byte} (ht : Marked t pre post)
    {p q : Peer} (hp : PeerOk p) (hq : PeerOk q) :
    (∃ f name name', setPeername v6 .iplit n t p = .val (some f, name) ∧ setPeername v6 .iplit n t q = .val (some f, name')) ↔
      identity p = identity q := by
  have e : ∀ r, setPeername v6 .iplit n t r = .val (some (pre ++ peerName v6 r ++ post), peerName v6 r) := by
    intro r
    unfold setPeername
    simp only []
    rw [printfS_marked ht]
  simp only [e, Out.val.injEq, Prod.mk.injEq, Option.some.injEq]
  constructor
  · rintro ⟨f, name, name', ⟨rfl, -⟩, h, -⟩
    have h' : peerName v6 q = peerName v6 p := by
      rw [List.append_assoc, List.append_assoc] at h
      exact List.append_cancel_right (List.append_cancel_left h)
    have h1 := peerName_is hv hp
    have h2 := peerName_is hv hq
    rw [h'] at h2
    exact isAddress_inj hv hp hq h1 h2
  · intro hi
    have h1 := peerName_is hv hp
    have h2 := peerName_is hv hq
    have := isAddress_text h1 h2 hi
    exact ⟨_, _, _, ⟨rfl, rfl⟩, by rw [this], rfl⟩

/-- **C52** for `cidrhash`, the part that works: with a prefix of the whole address (and for Unix sockets, with any) the client is served the file named
by its network and its address. IPv4-mapped clients are excluded. For shorter prefixes see `C52_false_cidr`. -/
theorem C52_cidr_partial {v6 : List Byte → List Byte → List Byte} (hv : V6Text v6) (n : Nat) {t pre post : List Byte} (ht : Marked t pre post)
    {p : Peer} (hp : PeerOk p)
    (hn : WholePrefix n p) :
    ∃ f name, setPeername v6 .cidr n t p = .val (some f, name) ∧ IsFileFor v6 .cidr n pre post p f := by
  have keep : ∀ k i (bs : List Byte), i + 8 * k ≤ n → maskFrom n k i bs = bs := by
    intro k
    induction k with
    | zero => intro i bs _; cases bs <;> rfl
    | succ k ih =>
      intro i bs h
      cases bs with
      | nil => rfl
      | cons b bs =>
        rw [maskFrom, ih (i + 8) bs (by omega)]
        unfold getmaskbyte
        rw [if_pos (by omega)]
        congr 1
        apply UInt8.toNat_inj.mp
        rw [UInt8.toNat_and]
        show b.toNat &&& (2 ^ 8 - 1) = b.toNat
        rw [Nat.and_two_pow_sub_one_eq_mod]
        exact Nat.mod_eq_of_lt b.toNat_lt
  have net : ∀ a : List Byte, 8 * a.length ≤ n → IsNetwork n a a := by
    intro a ha
    refine ⟨rfl, ?_⟩
    rw [List.take_of_length_le (by rw [bits_length]; exact ha), bits_length, show 8 * a.length - n = 0 by omega]
    simp
  have hpn := peerName_is hv hp
  cases p with
  | unix =>
    refine ⟨_, _, by unfold setPeername; simp only [if_true]; rw [printfS_marked ht], _, hpn, rfl⟩
  | inet port a =>
    replace hn : 32 ≤ n := hn
    have hm : maskedPeer n (.inet port a) = .inet port a := by
      unfold maskedPeer
      simp only []
      rw [keep 4 0 _ (by omega)]
      simp only [Peer.inet.injEq]
      exact ⟨List.take_left' hp.1, List.drop_left' hp.1⟩
    refine ⟨_, _, by unfold setPeername; simp only []; rw [if_neg (by simp), hm, printfS_marked ht], _, hpn, a, dotted a,
      net a (by rw [hp.2]; omega), dotted_is hp.2, ?_⟩
    simp [hostText]
  | inet6 port flow a s =>
    obtain ⟨h1, h2, h3, h4⟩ := hp
    replace hn : 128 ≤ n ∧ ∀ b, a ≠ asV6 b := hn
    have hm : maskedPeer n (.inet6 port flow a s) = .inet6 port flow a s := by
      unfold maskedPeer
      simp only []
      rw [keep 16 0 _ (by omega)]
      simp only [Peer.inet6.injEq]
      refine ⟨?_, ?_, ?_, ?_⟩
      · rw [List.append_assoc, List.append_assoc]; exact List.take_left' h1
      · rw [List.append_assoc, List.append_assoc, List.drop_left' h1]; exact List.take_left' h2
      · rw [List.append_assoc (port ++ flow), List.drop_left' (by simp [h1, h2])]; exact List.take_left' h3
      · exact List.drop_left' (by simp [h1, h2, h3])
    refine ⟨_, _, by unfold setPeername; simp only []; rw [if_neg (by simp), hm, printfS_marked ht], _, hpn, a, v6 a s,
      net a (by rw [h3]; omega), .inr ⟨fun b hb => absurd hb (hn.2 b), rfl⟩, ?_⟩
    simp [hostText]

/-- The last bit of an address. -/
theorem bits_last (init : List Byte) (b : Byte) : (bits (init ++ [b])).getLast? = some (b.toNat.testBit 0) := by
  unfold bits
  rw [List.flatMap_append, List.getLast?_append]
  simp [List.range_succ]

theorem network_last {n : Nat} {a net : List Byte} (h : IsNetwork n a net) (hn : n < 8 * a.length) : (bits net).getLast? = some false := by
  rw [h.2, bits_length, List.getLast?_append]
  have : 8 * a.length - n = (8 * a.length - n - 1) + 1 := by omega
  rw [this, List.replicate_succ']
  simp

/-- **C52** is false for every `cidrhash` with a shorter prefix: no client whose address is odd is served the file it should be, because the mask is applied
to the port number and what follows it, not to the address. -/
theorem C52_false_cidr (v6 : List Byte → List Byte → List Byte) (n : Nat) {t pre post : List Byte} (ht : Marked t pre post)
    {port a : List Byte} (hp : PeerOk (.inet port a)) (hn : n < 32) (hodd : ∃ b, a.getLast? = some b ∧ b.toNat.testBit 0) :
    ∃ f name, setPeername v6 .cidr n t (.inet port a) = .val (some f, name) ∧ ¬ IsFileFor v6 .cidr n pre post (.inet port a) f := by
  refine ⟨_, _, by unfold setPeername; simp only []; rw [if_neg (by simp), printfS_marked ht], ?_⟩
  rintro ⟨u, hu, net, w, hnet, hw, he⟩
  obtain ⟨hp1, hp2⟩ := hp
  obtain ⟨b, hb, hb0⟩ := hodd
  match port, hp1, a, hp2 with
  | [p0, p1], _, [a0, a1, a2, a3], _ =>
    have hb' : a3 = b := by simpa using hb
    subst hb'
    have hl := network_last hnet (by simpa using hn)
    rw [List.append_assoc, List.append_assoc, List.append_assoc, List.append_assoc, List.append_assoc, List.append_assoc] at he
    have he := List.append_cancel_left he
    obtain ⟨h1, -⟩ := cut_dot (c := 47) he (isDotted_no (dotted_is (by rfl)) (.inr (.inr rfl))) (isDotted_no hw (.inr (.inr rfl)))
    have hd := dotted_is (a := [a0 &&& getmaskbyte (n - 16), a1 &&& getmaskbyte (n - 24), a2, a3]) rfl
    have : net = [a0 &&& getmaskbyte (n - 16), a1 &&& getmaskbyte (n - 24), a2, a3] := by
      refine isDotted_inj hw ?_
      rw [← h1]
      exact hd
    rw [this, show [a0 &&& getmaskbyte (n - 16), a1 &&& getmaskbyte (n - 24), a2, a3] =
      [a0 &&& getmaskbyte (n - 16), a1 &&& getmaskbyte (n - 24), a2] ++ [a3] by rfl, bits_last, hb0] at hl
    cases hl

/-- The same for IPv6. -/
theorem C52_false_cidr_v6 {v6 : List Byte → List Byte → List Byte} (hv : V6Text v6) (n : Nat) {t pre post : List Byte} (ht : Marked t pre post)
    {port flow a s : List Byte} (hp : PeerOk (.inet6 port flow a s)) (hn : n < 128) (hodd : ∃ b, a.getLast? = some b ∧ b.toNat.testBit 0) :
    ∃ f name, setPeername v6 .cidr n t (.inet6 port flow a s) = .val (some f, name) ∧
      ¬ IsFileFor v6 .cidr n pre post (.inet6 port flow a s) f := by
  refine ⟨_, _, by unfold setPeername; simp only []; rw [if_neg (by simp), printfS_marked ht], ?_⟩
  rintro ⟨u, hu, net, w, hnet, hw, he⟩
  obtain ⟨h1, h2, h3, h4⟩ := hp
  obtain ⟨b, hb, hb0⟩ := hodd
  match port, h1, flow, h2, a, h3 with
  | [p0, p1], _, [f0, f1, f2, f3], _, [a0, a1, a2, a3, a4, a5, a6, a7, a8, a9, a10, a11, a12, a13, a14, a15], _ =>
    have hb' : a15 = b := by simpa using hb
    subst hb'
    have hl := network_last hnet (by simpa using hn)
    have hshape : ∃ m : List Byte, m.length = 15 ∧
        hostText v6 (maskedPeer n (.inet6 [p0, p1] [f0, f1, f2, f3] [a0, a1, a2, a3, a4, a5, a6, a7, a8, a9, a10, a11, a12, a13, a14, a15] s)) =
          v6 (m ++ [a15]) s :=
      ⟨[a0 &&& getmaskbyte (n - 48), a1 &&& getmaskbyte (n - 56), a2 &&& getmaskbyte (n - 64), a3 &&& getmaskbyte (n - 72),
        a4 &&& getmaskbyte (n - 80), a5 &&& getmaskbyte (n - 88), a6 &&& getmaskbyte (n - 96), a7 &&& getmaskbyte (n - 104),
        a8 &&& getmaskbyte (n - 112), a9 &&& getmaskbyte (n - 120), a10, a11, a12, a13, a14], rfl, rfl⟩
    obtain ⟨m, hm, hshape⟩ := hshape
    rw [hshape, List.append_assoc, List.append_assoc, List.append_assoc, List.append_assoc, List.append_assoc, List.append_assoc] at he
    have he := List.append_cancel_left he
    have hwslash : 47 ∉ w := by
      rcases hw with ⟨c, -, -, hd⟩ | ⟨-, rfl⟩
      · exact isDotted_no hd (.inr (.inr rfl))
      · exact hv.slash _ _
    obtain ⟨h1, -⟩ := cut_dot (c := 47) he (hv.slash _ _) hwslash
    rcases hw with ⟨c, -, -, hd⟩ | ⟨-, rfl⟩
    · rw [← h1] at hd
      exact isDotted_no hd (.inr (.inl (by decide))) (hv.colon _ _)
    · have hnl : net.length = 16 := hnet.1
      have := (hv.inj _ _ _ _ h1 (by simp [hm]) hnl h4 h4).1
      rw [← this, bits_last, hb0] at hl
      cases hl

/-- **C52** is false for `cidrhash` and clients that connect by way of IPv6 with an IPv4 address: they are not served the file they are served when they connect
by IPv4. -/
theorem C52_false_cidr_mapped {v6 : List Byte → List Byte → List Byte} (hv : V6Text v6) (n : Nat) {t pre post : List Byte}
    (ht : Marked t pre post) {port flow a : List Byte} (hp : port.length = 2) (hf : flow.length = 4) (ha : a.length = 4) :
    ∃ f g name, setPeername v6 .cidr n t (.inet port a) = .val (some f, name) ∧
      setPeername v6 .cidr n t (.inet6 port flow (asV6 a) [0, 0, 0, 0]) = .val (some g, name) ∧ f ≠ g := by
  have hname : peerName v6 (.inet port a) = peerName v6 (.inet6 port flow (asV6 a) [0, 0, 0, 0]) :=
    isAddress_text (peerName_is hv (p := .inet port a) ⟨hp, ha⟩)
      (peerName_is hv (p := .inet6 port flow (asV6 a) [0, 0, 0, 0]) ⟨hp, hf, by simp [asV6, ha], rfl⟩) rfl
  refine ⟨_, _, _, by unfold setPeername; simp only []; rw [if_neg (by simp), printfS_marked ht],
    by unfold setPeername; simp only []; rw [if_neg (by simp), printfS_marked ht, ← hname], ?_⟩
  intro he
  rw [List.append_assoc, List.append_assoc, List.append_assoc, List.append_assoc, List.append_assoc, List.append_assoc] at he
  have he := List.append_cancel_left he
  match port, hp, a, ha with
  | [p0, p1], _, [a0, a1, a2, a3], _ =>
    have hd := dotted_is (a := [a0 &&& getmaskbyte (n - 16), a1 &&& getmaskbyte (n - 24), a2, a3]) rfl
    obtain ⟨h1, -⟩ := cut_dot (c := 47) he (isDotted_no hd (.inr (.inr rfl))) (hv.slash _ _)
    have h2 : dotted [a0 &&& getmaskbyte (n - 16), a1 &&& getmaskbyte (n - 24), a2, a3] = v6 _ _ := h1
    rw [h2] at hd
    exact isDotted_no hd (.inr (.inl (by decide))) (hv.colon _ _)

/-- **C52** is false for `iphash`: no file is assigned to any client. -/
theorem C52_false_iphash (v6 : List Byte → List Byte → List Byte) (n : Nat) (t : List Byte) (p : Peer) :
    ∃ name, setPeername v6 .iphash n t p = .val (none, name) := ⟨_, rfl⟩

/-- **C52** is false for exports that wait for their file: it is the file named in the configuration that is opened in the end, for every client. -/
theorem C52_false_wait (v6 : List Byte → List Byte → List Byte) (s : Srv) (hw : has s.flags F_WAIT = true) (t : List Byte) (he : s.exportname = some t)
    (p : Peer) (pid : Nat) (names : SessionNames) (h : sessionNames v6 s p pid = .val names) : names.opened = some t := by
  unfold sessionNames at h
  rw [he] at h
  simp only [] at h
  split at h
  · cases h
  · cases h
  · split at h
    · cases h
    · cases h
    · split at h
      · cases h
      · cases h
      · simp only [hw, if_true, Out.val.injEq] at h
        rw [← h]

/-- A name without `%` is served to every client. -/
theorem C52_unmarked (v6 : List Byte → List Byte → List Byte) (n : Nat) (t : List Byte) (ht : 37 ∉ t) (p : Peer) :
    ∃ name, setPeername v6 .iplit n t p = .val (some t, name) := by
  refine ⟨peerName v6 p, ?_⟩
  unfold setPeername
  simp only []
  rw [printfS_plain t ht]

/-- With the default style, a name with another `%` has no meaning: the server would print an argument that is not there. -/
theorem C52_false_format (v6 : List Byte → List Byte → List Byte) (n : Nat) (p : Peer) :
    setPeername v6 .iplit n (ascii "/srv/50%d.img") p = .ub ∧ setPeername v6 .iplit n (ascii "/srv/%s/%s") p = .ub := by
  constructor <;> rfl

/-- A way to write IPv6 addresses that is as assumed: two letters for each byte. -/
def demoV6 (a s : List Byte) : List Byte :=
  if a.take 12 = List.replicate 10 0 ++ [0xff, 0xff] ∧ a.length = 16 ∧ s = [0, 0, 0, 0] then ascii "::ffff:" ++ dotted (a.drop 12)
  else 58 :: 120 :: (a ++ s).flatMap fun b => [UInt8.ofNat (97 + b.toNat / 16), UInt8.ofNat (97 + b.toNat % 16)]

theorem demoV6_cond {a s : List Byte} :
    (a.take 12 = List.replicate 10 0 ++ [0xff, 0xff] ∧ a.length = 16 ∧ s = [0, 0, 0, 0]) ↔ (∃ b, b.length = 4 ∧ a = asV6 b) ∧ s = [0, 0, 0, 0] := by
  constructor
  · rintro ⟨h1, h2, h3⟩
    exact ⟨⟨a.drop 12, by simp [h2], by unfold asV6; rw [← h1, List.take_append_drop]⟩, h3⟩
  · rintro ⟨⟨b, hb, rfl⟩, h3⟩
    exact ⟨by unfold asV6; exact List.take_left' (by simp), by simp [asV6, hb], h3⟩

theorem letters_inj {a b : List Byte}
    (h : a.flatMap (fun b => [UInt8.ofNat (97 + b.toNat / 16), UInt8.ofNat (97 + b.toNat % 16)]) =
      b.flatMap (fun b => [UInt8.ofNat (97 + b.toNat / 16), UInt8.ofNat (97 + b.toNat % 16)])) : a = b := by
  induction a generalizing b with
  | nil => cases b with
    | nil => rfl
    | cons x b => simp at h
  | cons x a ih => cases b with
    | nil => simp at h
    | cons y b =>
      simp only [List.flatMap_cons, List.cons_append, List.nil_append, List.cons.injEq] at h
      obtain ⟨h1, h2, h3⟩ := h
      have hx := x.toNat_lt
      have hy := y.toNat_lt
      have e1 := congrArg UInt8.toNat h1
      have e2 := congrArg UInt8.toNat h2
      rw [UInt8.toNat_ofNat', UInt8.toNat_ofNat', Nat.mod_eq_of_lt (by omega), Nat.mod_eq_of_lt (by omega)] at e1
      rw [UInt8.toNat_ofNat', UInt8.toNat_ofNat', Nat.mod_eq_of_lt (a := 97 + x.toNat % 16) (by omega),
        Nat.mod_eq_of_lt (a := 97 + y.toNat % 16) (by omega)] at e2
      rw [ih h3, UInt8.toNat_inj.mp (show x.toNat = y.toNat by omega)]

theorem demoV6_ok : V6Text demoV6 where
  mapped := by
    intro a s ha hs
    refine ⟨dotted a, ?_, dotted_is ha⟩
    unfold demoV6
    rw [if_pos (demoV6_cond.mpr ⟨⟨a, ha, rfl⟩, hs⟩)]
    unfold asV6
    rw [List.drop_left' (by simp)]
  other := by
    intro a s ha hs h hpre
    unfold demoV6 at hpre
    rw [if_neg (fun hc => by obtain ⟨⟨b, -, e⟩, h0⟩ := demoV6_cond.mp hc; exact h b e h0)] at hpre
    obtain ⟨u, hu⟩ := hpre
    have : ascii "::ffff:" ++ u = 58 :: 58 :: (ascii "ffff:" ++ u) := rfl
    rw [this] at hu
    simp only [List.cons.injEq] at hu
    exact absurd hu.2.1 (by decide)
  colon := by
    intro a s
    unfold demoV6
    split
    · exact List.mem_append_left _ (by decide)
    · simp
  slash := by
    intro a s hm
    unfold demoV6 at hm
    split at hm
    · rename_i h
      rcases List.mem_append.mp hm with hm | hm
      · revert hm; decide
      · exact isDotted_no (dotted_is (by simp [h.2.1])) (.inr (.inr rfl)) hm
    · simp only [List.mem_cons, List.mem_flatMap] at hm
      rcases hm with hm | hm | ⟨b, -, hm⟩
      · revert hm; decide
      · revert hm; decide
      · have hb := b.toNat_lt
        have h47 : (47 : UInt8).toNat = 47 := rfl
        rcases hm with hm | hm | hm
        · have := congrArg UInt8.toNat hm
          rw [UInt8.toNat_ofNat', Nat.mod_eq_of_lt (by omega)] at this
          omega
        · have := congrArg UInt8.toNat hm
          rw [UInt8.toNat_ofNat', Nat.mod_eq_of_lt (by omega)] at this
          omega
        · cases hm
  inj := by
    intro a b s t h ha hb hs ht
    unfold demoV6 at h
    split at h
    · rename_i c1
      obtain ⟨⟨x, hx, rfl⟩, rfl⟩ := demoV6_cond.mp c1
      split at h
      · rename_i c2
        obtain ⟨⟨y, hy, rfl⟩, rfl⟩ := demoV6_cond.mp c2
        have h := List.append_cancel_left h
        unfold asV6 at h ⊢
        rw [List.drop_left' (by simp), List.drop_left' (by simp)] at h
        have hd := dotted_is hx
        rw [h] at hd
        rw [isDotted_inj hd (dotted_is hy)]
        exact ⟨rfl, rfl⟩
      · simp only [show ascii "::ffff:" = 58 :: 58 :: ascii "ffff:" by rfl, List.cons_append, List.cons.injEq] at h
        exact absurd h.2.1 (by decide)
    · split at h
      · simp only [show ascii "::ffff:" = 58 :: 58 :: ascii "ffff:" by rfl, List.cons_append, List.cons.injEq] at h
        exact absurd h.2.1 (by decide)
      · simp only [List.cons.injEq, true_and] at h
        exact List.append_inj (letters_inj h) (by rw [ha, hb])

/-- The example of the manual page, and what happens instead with `cidrhash 16`. -/
example : Marked (ascii "/export/%s") (ascii "/export/") [] ∧ PeerOk (.inet [200, 1] [192, 168, 1, 101]) ∧
    setPeername demoV6 .iplit 0 (ascii "/export/%s") (.inet [200, 1] [192, 168, 1, 101]) =
      .val (some (ascii "/export/192.168.1.101"), ascii "192.168.1.101") ∧
    setPeername demoV6 .iplit 0 (ascii "/export/%s") (.inet6 [200, 1] [0, 0, 0, 0] (asV6 [192, 168, 1, 101]) [0, 0, 0, 0]) =
      .val (some (ascii "/export/192.168.1.101"), ascii "192.168.1.101") ∧
    setPeername demoV6 .iplit 0 (ascii "/export/%s") .unix = .val (some (ascii "/export/unix"), ascii "unix") ∧
    setPeername demoV6 .cidr 16 (ascii "/export/%s") (.inet [200, 1] [192, 168, 1, 101]) =
      .val (some (ascii "/export/0.0.1.101/192.168.1.101"), ascii "192.168.1.101") ∧
    (∃ b, [192, 168, 1, 101].getLast? = some b ∧ (b : Byte).toNat.testBit 0) ∧
    WholePrefix 32 (.inet [200, 1] [192, 168, 1, 101]) := by
  refine ⟨⟨by decide, by decide, by decide⟩, ⟨rfl, rfl⟩, by decide +kernel, by decide +kernel, by decide +kernel, by decide +kernel,
    ⟨101, by decide, by decide⟩, Nat.le_refl 32⟩

/-! ### C69 -/

/-- The name ends with the process number. -/
theorem diffName_pid (cowdir file : Option (List Byte)) (client : List Byte) (pid : Nat) :
    ∃ x, (diffName cowdir file client pid).1 = x ++ 45 :: (decText pid ++ ascii ".diff") := by
  unfold diffName
  cases file with
  | none =>
    refine ⟨cowdir.getD [46] ++ [47] ++ [46] ++ [45] ++ client, ?_⟩
    simp
  | some f =>
    simp only []
    cases cowdir with
    | none =>
      refine ⟨(dirnameOf f).1 ++ [47] ++ (basenameOf (dirnameOf f).2).1 ++ [45] ++ client, ?_⟩
      simp
    | some d =>
      refine ⟨d ++ [47] ++ (basenameOf f).1 ++ [45] ++ client, ?_⟩
      simp

/-- **C69**: sessions of processes with different numbers never use the same diff file, whatever exports they serve to whatever clients. -/
theorem C69_own_diff (c c' f f' : Option (List Byte)) (client client' : List Byte) (pid pid' : Nat)
    (h : (diffName c f client pid).1 = (diffName c' f' client' pid').1) : pid = pid' := by
  obtain ⟨x, hx⟩ := diffName_pid c f client pid
  obtain ⟨y, hy⟩ := diffName_pid c' f' client' pid'
  rw [hx, hy] at h
  have h := congrArg List.reverse h
  simp only [List.reverse_append, List.reverse_cons, List.append_assoc] at h
  have h := List.append_cancel_left h
  have no : ∀ n, 45 ∉ (decText n).reverse := fun n hm =>
    numeral_no (decText_numeral n) (c := 45) (.inl (by decide)) (List.mem_reverse.mp hm)
  obtain ⟨h1, -⟩ := cut_dot (c := 45) h (no _) (no _)
  exact decText_inj (by rw [← List.reverse_reverse (decText pid), h1, List.reverse_reverse])

theorem dropWhile_none {α : Type} {p : α → Bool} {l : List α} (h : ∀ x, l.head? = some x → p x = false) : l.dropWhile p = l := by
  cases l with
  | nil => rfl
  | cons x l => rw [List.dropWhile_cons, if_neg (by simp [h x rfl])]

theorem dropWhile_all {α : Type} {p : α → Bool} {l r : List α} (h : ∀ x ∈ l, p x = true) : (l ++ r).dropWhile p = r.dropWhile p := by
  induction l with
  | nil => rfl
  | cons x l ih => rw [List.cons_append, List.dropWhile_cons, if_pos (h x (by simp))]; exact ih fun y hy => h y (by simp [hy])

theorem takeWhile_all {α : Type} {p : α → Bool} {l r : List α} (h : ∀ x ∈ l, p x = true) : (l ++ r).takeWhile p = l ++ r.takeWhile p := by
  induction l with
  | nil => rfl
  | cons x l ih => rw [List.cons_append, List.takeWhile_cons, if_pos (h x (by simp)), ih fun y hy => h y (by simp [hy])]; rfl

/-- `dirname` of an ordinary path: the directory, also left in the buffer. -/
theorem dirnameOf_path {d b : List Byte} (h : IsPath d b) : dirnameOf (d ++ [47] ++ b) = (d, d) := by
  have h1 : (47 : Byte) ∈ d ++ [47] ++ b := by simp
  have hbr : (d ++ [47] ++ b).reverse.dropWhile (· = 47) = (d ++ [47] ++ b).reverse := by
    apply dropWhile_none
    intro x hx
    rw [List.reverse_append, List.head?_append, Option.or_of_isSome (by rw [List.isSome_head?]; simp [h.some])] at hx
    have : x ∈ b := List.mem_reverse.mp (List.mem_of_head? hx)
    rw [decide_eq_false_iff_not]
    rintro rfl
    exact h.base this
  have hrev : (d ++ [47] ++ b).reverse = b.reverse ++ 47 :: d.reverse := by simp
  have hcut : (d ++ [47] ++ b).reverse.dropWhile (· ≠ 47) = 47 :: d.reverse := by
    rw [hrev, dropWhile_all, dropWhile_none]
    · intro x hx; simp at hx; simp [← hx]
    · intro x hx
      rw [decide_eq_true_eq]
      rintro rfl
      exact h.base (List.mem_reverse.mp hx)
  have hd : (47 :: d.reverse).dropWhile (· = 47) = d.reverse := by
    rw [List.dropWhile_cons, if_pos (by decide)]
    apply dropWhile_none
    intro x hx
    rw [List.head?_reverse] at hx
    rw [decide_eq_false_iff_not]
    rintro rfl
    exact h.dir hx
  unfold dirnameOf
  simp only [h1, not_true, if_false, hbr]
  rw [if_neg (by simp), if_neg (by simp), hcut, hd, if_neg (by simp [h.ne]), List.reverse_reverse]

/-- `basename` of an ordinary path: what comes after the last slash; the buffer is as before. -/
theorem basenameOf_path {d b : List Byte} (h : IsPath d b) : basenameOf (d ++ [47] ++ b) = (b, d ++ [47] ++ b) := by
  have h1 : (47 : Byte) ∈ d ++ [47] ++ b := by simp
  have hbr : (d ++ [47] ++ b).reverse.dropWhile (· = 47) = (d ++ [47] ++ b).reverse := by
    apply dropWhile_none
    intro x hx
    rw [List.reverse_append, List.head?_append, Option.or_of_isSome (by rw [List.isSome_head?]; simp [h.some])] at hx
    have : x ∈ b := List.mem_reverse.mp (List.mem_of_head? hx)
    rw [decide_eq_false_iff_not]
    rintro rfl
    exact h.base this
  have hrev : (d ++ [47] ++ b).reverse = b.reverse ++ 47 :: d.reverse := by simp
  have htw : (d ++ [47] ++ b).reverse.takeWhile (· ≠ 47) = b.reverse := by
    rw [hrev, takeWhile_all]
    · rw [List.takeWhile_cons, if_neg (by decide)]; simp
    · intro x hx
      rw [decide_eq_true_eq]
      rintro rfl
      exact h.base (List.mem_reverse.mp hx)
  unfold basenameOf
  simp only [h1, not_true, if_false, hbr]
  rw [if_neg (by simp), if_neg (by simp), htw, List.reverse_reverse, List.reverse_reverse]

/-- **C69**, with `cowdir`: the diff file is in that directory, and named after the exported file, the client and the process. -/
theorem C69_cowdir {d b : List Byte} (h : IsPath d b) (cow client : List Byte) (pid : Nat) :
    diffName (some cow) (some (d ++ [47] ++ b)) client pid =
      (cow ++ [47] ++ b ++ [45] ++ client ++ [45] ++ decText pid ++ ascii ".diff", some (d ++ [47] ++ b)) := by
  unfold diffName
  simp only [basenameOf_path h]

/-- **C69**, without `cowdir`: the diff file is in the directory of the exported file. (It is named after that directory, not after the file; and the name of
the export is changed: see `C70_false`.) -/
theorem C69_same_directory {d b : List Byte} (h : IsPath d b) (client : List Byte) (pid : Nat) :
    (diffName none (some (d ++ [47] ++ b)) client pid).1 =
      d ++ [47] ++ (basenameOf d).1 ++ [45] ++ client ++ [45] ++ decText pid ++ ascii ".diff" := by
  unfold diffName
  simp only [dirnameOf_path h]

example : IsPath (ascii "/export") (ascii "disk") ∧
    (diffName (some (ascii "/var")) (some (ascii "/export/disk")) (ascii "10.0.0.1") 4711).1 = ascii "/var/disk-10.0.0.1-4711.diff" ∧
    (diffName none (some (ascii "/export/disk")) (ascii "10.0.0.1") 4711).1 = ascii "/export/export-10.0.0.1-4711.diff" :=
  ⟨⟨by decide, by decide, by decide, by decide⟩, by decide +kernel, by decide +kernel⟩

/-! ### C70 -/

theorem runCommand_marked {c pre post : List Byte} (h : Marked c pre post) (file : List Byte) :
    runCommand (some c) (some file) = .val (some (pre ++ file ++ post)) := by
  have hne : c ≠ [] := by rw [h.eq]; simp [ascii]
  cases c with
  | nil => exact absurd rfl hne
  | cons x c =>
    unfold runCommand
    simp only [Option.getD_some]
    rw [printfS_marked h]

/-- **C70**, the part that holds: the commands run before and after a session get the name of the file that is served, when the export is neither copy-on-write nor
waits for its file, or there is a `cowdir`. The file is that of the client (`C52`). -/
theorem C70_commands_partial (v6 : List Byte → List Byte → List Byte) (s : Srv) (p : Peer) (pid : Nat) {t f name c c' pre post pre' post' : List Byte}
    (he : s.exportname = some t) (hf : setPeername v6 s.virtstyle s.cidrlen t p = .val (some f, name)) (hpath : ∃ d b, IsPath d b ∧ f = d ++ [47] ++ b)
    (hc : s.prerun = some c) (hc' : s.postrun = some c') (hm : Marked c pre post) (hm' : Marked c' pre' post')
    (hw : has s.flags F_WAIT = false) (hcow : has s.flags F_COPYONWRITE = false ∨ ∃ d, s.cowdir = some d) :
    ∃ diff, sessionNames v6 s p pid = .val ⟨some (pre ++ f ++ post), some f, diff, some f, some (pre' ++ f ++ post')⟩ := by
  obtain ⟨d, b, hp, rfl⟩ := hpath
  unfold sessionNames
  rw [he]
  simp only [hf]
  rw [hc, hc', runCommand_marked hm, hw]
  simp only [Bool.or_false, Bool.false_eq_true, if_false]
  rcases hcow with hcow | ⟨cow, hcow⟩
  · rw [hcow]
    simp only [Bool.false_eq_true, if_false]
    rw [runCommand_marked hm']
    exact ⟨_, rfl⟩
  · rw [hcow, C69_cowdir hp]
    cases has s.flags F_COPYONWRITE <;> simp only [Bool.false_eq_true, if_false, if_true] <;> rw [runCommand_marked hm'] <;> exact ⟨_, rfl⟩

/-- **C70** is false for every copy-on-write export without `cowdir`: the command run after the session gets the directory of the file. A clean-up command given as
`rm -rf %s` would remove all exports in it. Blocks of a tree export are looked for in the wrong place. -/
theorem C70_false (v6 : List Byte → List Byte → List Byte) (s : Srv) (p : Peer) (pid : Nat) {t d b name c c' pre post pre' post' : List Byte}
    (he : s.exportname = some t) (hf : setPeername v6 s.virtstyle s.cidrlen t p = .val (some (d ++ [47] ++ b), name)) (hp : IsPath d b)
    (hd : ∃ d' b', IsPath d' b' ∧ d = d' ++ [47] ++ b')
    (hc : s.prerun = some c) (hc' : s.postrun = some c') (hm : Marked c pre post) (hm' : Marked c' pre' post')
    (hcow : has s.flags F_COPYONWRITE = true) (hdir : s.cowdir = none) :
    ∃ names, sessionNames v6 s p pid = .val names ∧ names.prerun = some (pre ++ (d ++ [47] ++ b) ++ post) ∧
      names.served = some d ∧ names.postrun = some (pre' ++ d ++ post') := by
  obtain ⟨d', b', hp', rfl⟩ := hd
  have hdn : (diffName none (some (d' ++ [47] ++ b' ++ [47] ++ b)) name pid).2 = some (d' ++ [47] ++ b') := by
    unfold diffName
    simp only [dirnameOf_path hp, basenameOf_path hp']
  unfold sessionNames
  rw [he]
  simp only [hf]
  rw [hc, hc', runCommand_marked hm, hcow, hdir]
  simp only [Bool.true_or, if_true, hdn]
  rw [runCommand_marked hm']
  exact ⟨_, rfl, rfl, rfl, rfl⟩

/-- An export `/export/%s`, copy-on-write, with commands to run. -/
def namesDemo : Srv :=
  { exportname := some (ascii "/srv/export/%s"), virtstyle := .iplit, flags := F_COPYONWRITE,
    prerun := some (ascii "make %s"), postrun := some (ascii "rm -rf %s") }

/-- It meets the hypotheses of `C70_false`, and with a `cowdir` those of `C70_commands_partial`. -/
example : setPeername demoV6 namesDemo.virtstyle namesDemo.cidrlen (ascii "/srv/export/%s") (.inet [200, 1] [10, 0, 0, 1]) =
      .val (some (ascii "/srv/export" ++ [47] ++ ascii "10.0.0.1"), ascii "10.0.0.1") ∧
    IsPath (ascii "/srv/export") (ascii "10.0.0.1") ∧ IsPath (ascii "/srv") (ascii "export") ∧
    ascii "/srv/export" = ascii "/srv" ++ [47] ++ ascii "export" ∧
    Marked (ascii "make %s") (ascii "make ") [] ∧ Marked (ascii "rm -rf %s") (ascii "rm -rf ") [] ∧
    sessionNames demoV6 namesDemo (.inet [200, 1] [10, 0, 0, 1]) 4711 =
      .val ⟨some (ascii "make /srv/export/10.0.0.1"), some (ascii "/srv/export/10.0.0.1"),
        some (ascii "/srv/export/export-10.0.0.1-4711.diff"), some (ascii "/srv/export"), some (ascii "rm -rf /srv/export")⟩ ∧
    sessionNames demoV6 { namesDemo with cowdir := some (ascii "/var") } (.inet [200, 1] [10, 0, 0, 1]) 4711 =
      .val ⟨some (ascii "make /srv/export/10.0.0.1"), some (ascii "/srv/export/10.0.0.1"),
        some (ascii "/var/10.0.0.1-10.0.0.1-4711.diff"), some (ascii "/srv/export/10.0.0.1"), some (ascii "rm -rf /srv/export/10.0.0.1")⟩ :=
  ⟨by decide +kernel, ⟨by decide, by decide, by decide, by decide⟩, ⟨by decide, by decide, by decide, by decide⟩, by decide,
    ⟨by decide, by decide, by decide⟩, ⟨by decide, by decide, by decide⟩, by decide +kernel, by decide +kernel⟩

end Nbd.Props
