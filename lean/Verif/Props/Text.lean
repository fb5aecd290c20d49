import Verif.Props.Acl
import Verif.Props.CliMain
import Verif.Props.Names
import Verif.Props.Nego
/-!
# Numbers, names and their limits

More on C36 (names of exports), C46 (numbers in the table of devices), C52 and C70 (`%%` in names and commands).
-/

set_option autoImplicit false

namespace Nbd.Spec

/-- A whole number as people write it: digits, with or without a sign. -/
def WrittenInt (t : List Byte) (n : Int) : Prop :=
  ∃ ds m, Decimal ds m ∧ ((t = ds ∨ t = 43 :: ds) ∧ n = m ∨ t = 45 :: ds ∧ n = -m)

/-- `t` is the text `u` with every `%` doubled. -/
def Doubled (t u : List Byte) : Prop := t = u.flatMap fun b => if b = 37 then [37, 37] else [b]

/-- `t` has one `%s`; the rest of it is `pre` and `post` with every `%` doubled. -/
def MarkedOnce (t pre post : List Byte) : Prop :=
  ∃ a b, Doubled a pre ∧ Doubled b post ∧ t = a ++ ascii "%s" ++ b

end Nbd.Spec

namespace Nbd.Props

open Nbd.Spec

/-! ### C46: numbers -/

theorem strtolInt_written {t : List Byte} {n : Int} (h : WrittenInt t n) (h1 : -2 ^ 31 ≤ n) (h2 : n < 2 ^ 31) : strtolInt t = n := by
  obtain ⟨ds, m, hd, ⟨rfl | rfl, rfl⟩ | ⟨rfl, rfl⟩⟩ := h
  · exact strtolInt_decimal hd (by omega)
  · have hv : digitsVal ds 0 = m := by rw [digitsVal_eq ds hd.digits, hd.value]
    unfold strtolInt
    simp only []
    rw [hv, show min (m : Int) (2 ^ 63 - 1) = m by omega]
    omega
  · have hv : digitsVal ds 0 = m := by rw [digitsVal_eq ds hd.digits, hd.value]
    unfold strtolInt
    simp only []
    rw [hv, show max (-(m : Int)) (-2 ^ 63) = -m by omega]
    omega

/-- **C46** for the numbers of an entry (partial as `C46_entry_partial`): block size, timeout and number of connections are
the numbers written in the entry, sign and all, if they fit an `int`. -/
theorem C46_numbers_partial (start : TabClient) (pre post : List TabEntry) (e : TabEntry)
    (hw : ∀ x ∈ pre ++ e :: post, EntryWords x) (he : stripDev e.dev = stripDev start.dev)
    (hpre : ∀ x ∈ pre, stripDev x.dev ≠ stripDev start.dev) (hpost : ∀ x ∈ post, stripDev x.dev ≠ stripDev start.dev)
    (v : List Byte) (n : Int) (hn : WrittenInt v n) (h1 : -2 ^ 31 ≤ n) (h2 : n < 2 ^ 31) :
    ∃ c, getFromConfig start (some ((pre ++ e :: post).map writeEntry).flatten) = some c ∧
      (lastProp (ascii "bs") e.opts = some v → c.bs = n) ∧
      (lastProp (ascii "timeout") e.opts = some v → c.timeout = n) ∧
      (lastProp (ascii "conns") e.opts = some v → c.nconn = n) := by
  obtain ⟨c, hc, hf⟩ := C46_entry_partial start pre post e hw he hpre hpost
  refine ⟨c, hc, ?_, ?_, ?_⟩
  · intro h; rw [hf.bs, h]; exact strtolInt_written hn h1 h2
  · intro h; rw [hf.timeout, h]; exact strtolInt_written hn h1 h2
  · intro h; rw [hf.nconn, h]; exact strtolInt_written hn h1 h2

theorem thirty : Decimal (ascii "30") 30 := ⟨by decide, by decide, by decide⟩

-- The hypotheses are met by a table with a timeout of -30.
example : ∃ c, getFromConfig (tabStart (ascii "nbd0")) (some (ascii "nbd1 a b\nnbd0 server disk timeout=-30\n")) = some c ∧ c.timeout = -30 := by
  obtain ⟨c, hc, -, h, -⟩ := C46_numbers_partial (tabStart (ascii "nbd0")) [⟨ascii "nbd1", ascii "a", ascii "b", []⟩] []
    ⟨ascii "nbd0", ascii "server", ascii "disk", [.prop (ascii "timeout") (ascii "-30")]⟩
    (by
      intro x hx
      simp only [List.cons_append, List.nil_append, List.mem_cons, List.not_mem_nil, or_false] at hx
      rcases hx with rfl | rfl
      · exact ⟨by decide, by decide, by decide, by decide⟩
      · exact ⟨by decide, by decide, by decide, by decide⟩)
    (by decide) (by decide) (by simp) (ascii "-30") (-30) ⟨_, _, thirty, .inr ⟨rfl, rfl⟩⟩ (by decide) (by decide)
  exact ⟨c, by rw [← hc]; rfl, h (by decide)⟩

/-! ### C52, C70: `%%` -/

theorem printfS_doubled {a u : List Byte} (h : Doubled a u) (rest : List Byte) (arg : Option (List Byte)) :
    printfS (a ++ rest) arg = prepend u (printfS rest arg) := by
  unfold Doubled at h
  subst h
  induction u with
  | nil => cases h : printfS rest arg <;> simp [prepend, h]
  | cons b u ih =>
    rw [List.flatMap_cons, List.append_assoc]
    by_cases hb : b = 37
    · subst hb
      simp only [if_true]
      have hp : ∀ r, printfS (37 :: 37 :: r) arg = prepend [37] (printfS r arg) := by
        intro r; conv => lhs; unfold printfS
        rw [if_pos rfl, if_pos rfl]
      refine (hp (u.flatMap (fun b => if b = 37 then [37, 37] else [b]) ++ rest)).trans ?_
      rw [ih]
      cases printfS rest arg <;> rfl
    · simp only [hb, if_false]
      refine (printfS_cons b (u.flatMap (fun b => if b = 37 then [37, 37] else [b]) ++ rest) hb arg).trans ?_
      rw [ih]
      cases printfS rest arg <;> rfl

theorem printfS_once {t pre post : List Byte} (h : MarkedOnce t pre post) (x : List Byte) :
    printfS t (some x) = .val (pre ++ x ++ post) := by
  obtain ⟨a, b, ha, hb, rfl⟩ := h
  rw [List.append_assoc, printfS_doubled ha]
  have : printfS (ascii "%s" ++ b) (some x) = prepend x (printfS b none) := by
    show printfS (37 :: 115 :: b) (some x) = _
    rw [printfS, if_pos rfl, if_neg (by decide), if_pos rfl]
  rw [this]
  have hb' := printfS_doubled hb [] none
  rw [List.append_nil] at hb'
  rw [hb']
  simp [prepend, printfS]

/-- **C52** for the default style, with `%%` in the name: a client is served the file whose name has the client's address in place
of `%s` and a single `%` in place of each `%%`. -/
theorem C52_percent {v6 : List Byte → List Byte → List Byte} (hv : V6Text v6) (n : Nat) {t pre post : List Byte}
    (ht : MarkedOnce t pre post) {p : Peer} (hp : PeerOk p) :
    ∃ f name, setPeername v6 .iplit n t p = .val (some f, name) ∧ IsAddress v6 p name ∧ IsFileFor v6 .iplit n pre post p f := by
  refine ⟨_, _, by unfold setPeername; simp only []; rw [printfS_once ht], peerName_is hv hp, _, peerName_is hv hp, ?_⟩
  cases p <;> rfl

/-- **C70** with `%%` in a command: the shell gets a single `%` for it. -/
theorem C70_percent {c pre post : List Byte} (h : MarkedOnce c pre post) (file : List Byte) :
    runCommand (some c) (some file) = .val (some (pre ++ file ++ post)) := by
  have hne : c ≠ [] := by
    obtain ⟨a, b, _, _, rfl⟩ := h
    simp [ascii]
  cases c with
  | nil => exact absurd rfl hne
  | cons x c =>
    unfold runCommand
    simp only [Option.getD_some]
    rw [printfS_once h]

-- A name with both.
example : MarkedOnce (ascii "/srv/100%%/%s.img") (ascii "/srv/100%/") (ascii ".img") := ⟨ascii "/srv/100%%/", ascii ".img", rfl, rfl, rfl⟩

/-- **C52** is false for `iphash`: no file is assigned to any client. The address with slashes for dots goes into the client's name instead. -/
theorem C52_false_iphash_name {v6 : List Byte → List Byte → List Byte} (hv : V6Text v6) (n : Nat) (t : List Byte) {p : Peer} (hp : PeerOk p) :
    ∃ name addr, setPeername v6 .iphash n t p = .val (none, name) ∧ IsAddress v6 p addr ∧ name.length = addr.length ∧
      ∀ i (h : i < name.length) (h' : i < addr.length), name[i] = if addr[i] = 46 then 47 else addr[i] := by
  refine ⟨_, peerName v6 p, rfl, peerName_is hv hp, by simp, ?_⟩
  intro i h h'
  simp

/-! ### C36: the longest name -/

/-- **C36**, the limit: a client that asks for an export with a name of more than 4096 bytes is disconnected; it has been sent nothing and
nothing has been opened for it. -/
theorem C36_long_name (e : Endian) (env : NEnv) (cf : NConf) (s : NState) (name rest : List Byte)
    (hf : s.tls = true ∨ cf.forcedTls = false) (hn : 4096 < name.length) (hlt : name.length < 2 ^ 32)
    (h : s.inp = optRequest 1 name ++ rest) :
    ∃ s', oneOption e env cf s = .stop .closed s' ∧ s'.plainOut = s.plainOut ∧ s'.tlsOut = s.tlsOut ∧ s'.server = s.server ∧ s'.ex = s.ex ∧
      s'.commits = s.commits ∧ s'.servers = s.servers := by
  rw [optRequest_eq] at h
  refine ⟨s.heard (name ++ rest), ?_, rfl, rfl, rfl, rfl, rfl, rfl⟩
  rw [oneOption_begin e env cf 1 (by decide) (hf.imp_right .inl) h]
  unfold dispatch
  rw [if_pos (by decide)]
  unfold handleExportName
  rw [NM.bind_ok (recv32_ok (s := s.heard _) (rest := name ++ rest) e name.length hlt
    (by rw [NState.heard_inp, List.append_assoc]))]
  simp only []
  rw [if_pos (by omega)]
  rfl

/-- **C36**, names that are not there: a client that asks for an export that no visible export is named is disconnected; it has been
sent nothing and nothing has been opened for it. -/
theorem C36_unknown (e : Endian) (env : NEnv) (cf : NConf) (s : NState) (name rest : List Byte)
    (hf : s.tls = true ∨ cf.forcedTls = false) (hn : name.length ≤ 4096) (h0 : (0 : Byte) ∉ name)
    (h : s.inp = optRequest 1 name ++ rest)
    (hno : ∀ sv ∈ s.servers, sv.name = name → has sv.flags F_FORCEDTLS = true ∧ s.tls = false) :
    ∃ s', oneOption e env cf s = .stop .exited s' ∧ s'.plainOut = s.plainOut ∧ s'.tlsOut = s.tlsOut ∧ s'.server = s.server ∧ s'.ex = s.ex ∧
      s'.commits = s.commits ∧ s'.servers = s.servers := by
  refine ⟨_, exportName_unknown e env cf hf hn h0 h ?_, rfl, rfl, rfl, rfl, rfl, rfl⟩
  rw [List.find?_eq_none]
  intro sv hsv hx
  rw [Bool.and_eq_true, beq_iff_eq] at hx
  obtain ⟨h1, h2⟩ := hno sv hsv hx.2
  have hv := hx.1
  unfold visible at hv
  rw [h1, h2] at hv
  cases hv

-- The hypotheses are met by a new connection.
example (e : Endian) (env : NEnv) (cf : NConf) (hcf : cf.forcedTls = false) (servers : List SrvExport) :=
  C36_long_name e env cf (NState.fresh servers false (optRequest 1 (List.replicate 4097 65)) none) (List.replicate 4097 65) []
    (.inr hcf) (by rw [List.length_replicate]; omega) (by rw [List.length_replicate]; omega) (by rw [List.append_nil]; rfl)

example (e : Endian) (env : NEnv) (cf : NConf) (hcf : cf.forcedTls = false) :=
  C36_unknown e env cf (NState.fresh [] false (optRequest 1 (ascii "disk")) none) (ascii "disk") []
    (.inr hcf) (by decide) (by decide) (by rw [List.append_nil]; rfl) (by intro sv h; cases h)

end Nbd.Props
