import Verif.CliNego
import Verif.NegoExact
/-!
# What the client does, exactly
-/

set_option autoImplicit false

namespace Nbd

namespace CM

theorem bind_eq {α β : Type} (m : CM α) (f : α → CM β) (s : CState) :
    (m >>= f) s = match m s with
      | .ok a s => f a s
      | .stop r s => .stop r s := rfl

theorem bind_ok {α β : Type} {m : CM α} {f : α → CM β} {s s' : CState} {a : α} (h : m s = .ok a s') :
    (m >>= f) s = f a s' := by rw [bind_eq, h]

theorem bind_stop {α β : Type} {m : CM α} {f : α → CM β} {s s' : CState} {r : CEnd} (h : m s = .stop r s') :
    (m >>= f) s = .stop r s' := by rw [bind_eq, h]

theorem pure_eq {α : Type} (a : α) (s : CState) : (pure a : CM α) s = .ok a s := rfl

theorem get_eq (s : CState) : CM.get s = .ok s s := rfl

theorem modify_eq (f : CState → CState) (s : CState) : CM.modify f s = .ok () (f s) := rfl

/-- What code guarantees of the state it leaves, from states with `P`. -/
structure Hoare {α : Type} (P : CState → Prop) (m : CM α) (Q : α → CState → Prop) (E : CEnd → CState → Prop) : Prop where
  h : ∀ s, P s → match m s with
    | .ok a s' => Q a s'
    | .stop r s' => E r s'

section
variable {α β : Type} {P : CState → Prop} {Q : α → CState → Prop} {R : β → CState → Prop} {E : CEnd → CState → Prop}

theorem Hoare.bind {m : CM α} {f : α → CM β} (hm : Hoare P m Q E) (hf : ∀ a, Hoare (Q a) (f a) R E) :
    Hoare P (m >>= f) R E := by
  refine ⟨fun s hs => ?_⟩
  have h1 := hm.h s hs
  rw [bind_eq]
  cases hq : m s with
  | ok a s' => rw [hq] at h1; exact (hf a).h s' h1
  | stop r s' => rw [hq] at h1; exact h1

theorem Hoare.pure {a : α} (h : ∀ s, P s → Q a s) : Hoare P (Pure.pure a : CM α) Q E := ⟨h⟩

theorem Hoare.stop {r : CEnd} (h : ∀ s, P s → E r s) : Hoare P (CM.stop r : CM α) Q E := ⟨h⟩

theorem Hoare.get {Q : CState → CState → Prop} (h : ∀ s, P s → Q s s) : Hoare P CM.get Q E := ⟨h⟩

theorem Hoare.modify {Q : Unit → CState → Prop} {f : CState → CState} (h : ∀ s, P s → Q () (f s)) :
    Hoare P (CM.modify f) Q E := ⟨h⟩

theorem Hoare.ite {c : Prop} [Decidable c] {a b : CM α} (h1 : c → Hoare P a Q E) (h2 : ¬ c → Hoare P b Q E) :
    Hoare P (if c then a else b) Q E := by
  split
  · exact h1 (by assumption)
  · exact h2 (by assumption)

theorem Hoare.pre {m : CM α} {P' : CState → Prop} (h : Hoare P m Q E) (hp : ∀ s, P' s → P s) : Hoare P' m Q E :=
  ⟨fun s hs => h.h s (hp s hs)⟩

theorem Hoare.post {m : CM α} {Q' : α → CState → Prop} {E' : CEnd → CState → Prop} (h : Hoare P m Q E)
    (hq : ∀ a s, Q a s → Q' a s) (he : ∀ r s, E r s → E' r s) : Hoare P m Q' E' := by
  refine ⟨fun s hs => ?_⟩
  have := h.h s hs
  cases hm : m s with
  | ok a s' => rw [hm] at this; exact hq _ _ this
  | stop r s' => rw [hm] at this; exact he _ _ this

end

end CM

open CM

/-! ### Sending and receiving -/

/-- The state after sending. -/
def CState.said (s : CState) (bs : List Byte) : CState :=
  if s.tls then { s with tlsOut := s.tlsOut ++ bs } else { s with plainOut := s.plainOut ++ bs }

/-- The state after reading up to `rest`. -/
def CState.heard (s : CState) (rest : List Byte) : CState := { s with inp := rest }

theorem csend_eq (bs : List Byte) (s : CState) : csend bs s = .ok () (s.said bs) := rfl

theorem CState.said_said (s : CState) (a b : List Byte) : (s.said a).said b = s.said (a ++ b) := by
  unfold CState.said
  cases h : s.tls <;> simp [List.append_assoc]

@[simp] theorem CState.said_inp (s : CState) (b : List Byte) : (s.said b).inp = s.inp := by
  unfold CState.said; split <;> rfl
@[simp] theorem CState.said_tls (s : CState) (b : List Byte) : (s.said b).tls = s.tls := by
  unfold CState.said; split <;> rfl
@[simp] theorem CState.said_tlsIn (s : CState) (b : List Byte) : (s.said b).tlsIn = s.tlsIn := by
  unfold CState.said; split <;> rfl
@[simp] theorem CState.said_size (s : CState) (b : List Byte) : (s.said b).size = s.size := by
  unfold CState.said; split <;> rfl
@[simp] theorem CState.said_flags (s : CState) (b : List Byte) : (s.said b).flags = s.flags := by
  unfold CState.said; split <;> rfl
@[simp] theorem CState.said_printed (s : CState) (b : List Byte) : (s.said b).printed = s.printed := by
  unfold CState.said; split <;> rfl
@[simp] theorem CState.heard_inp (s : CState) (a : List Byte) : (s.heard a).inp = a := rfl

theorem cread_ok {s : CState} {a rest : List Byte} (n : Nat) (h : s.inp = a ++ rest) (hn : a.length = n) :
    cread n s = .ok a (s.heard rest) := by
  unfold cread
  rw [h, List.take_left' hn, List.drop_left' hn]
  rfl

theorem creadFull_ok {s : CState} {a rest : List Byte} (n : Nat) (h : s.inp = a ++ rest) (hn : a.length = n) :
    creadFull n s = .ok a (s.heard rest) := by
  unfold creadFull
  rw [bind_ok (cread_ok n h hn), if_neg (by omega), pure_eq]

theorem csendRequest_eq (e : Endian) (opt : Nat) (data : List Byte) (ho : opt < 2 ^ 32) (hd : data.length < 2 ^ 32)
    (s : CState) : csendRequest e opt data.length data s = .ok () (s.said (Spec.optRequest opt data)) := by
  unfold csendRequest Spec.optRequest
  rw [csend_eq, store64_htonll, store32_htonl, store32_htonl, UInt32.toNat_ofNat', UInt32.toNat_ofNat',
    Nat.mod_eq_of_lt ho, Nat.mod_eq_of_lt hd]
  rfl

theorem csendInfo_eq (e : Endian) (opt : Nat) (name : List Byte) (ho : opt < 2 ^ 32) (hn : name.length < 2 ^ 31)
    (s : CState) : csendInfo e opt name s = .ok () (s.said (Spec.optRequest opt (Spec.infoData name []))) := by
  unfold csendInfo csendRequest
  have hl : 4 + name.length + 2 + 0 * 2 < 2 ^ 32 := by omega
  rw [bind_ok (csend_eq _ _), bind_ok (csend_eq _ _), bind_ok (csend_eq _ _), csend_eq, CState.said_said,
    CState.said_said, CState.said_said, store64_htonll, store32_htonl, store32_htonl, store32_htonl, store16_htons,
    UInt32.toNat_ofNat', UInt32.toNat_ofNat', UInt32.toNat_ofNat',
    Nat.mod_eq_of_lt ho, Nat.mod_eq_of_lt hl, Nat.mod_eq_of_lt (show name.length < 2 ^ 32 by omega)]
  unfold Spec.optRequest Spec.infoData
  have h1 : (toBE 4 name.length ++ name ++ toBE 2 ([] : List Nat).length ++ ([] : List Nat).flatMap (toBE 2)).length
      = 4 + name.length + 2 + 0 * 2 := by simp; omega
  rw [h1]
  simp only [List.append_assoc, List.append_nil, List.flatMap_nil]
  rfl

theorem repMagic (e : Endian) : ntohll e (load64 e (toBE 8 0x3e889045565a9)) = REP_MAGIC := by
  apply UInt64.toNat_inj.mp
  rw [ntohll_load64 e _ (toBE_length 8 _), beVal_toBE]
  rfl

theorem ntohll_toBE (e : Endian) (v : Nat) (hv : v < 2 ^ 64) : (ntohll e (load64 e (toBE 8 v))).toNat = v := by
  rw [ntohll_load64 e _ (toBE_length 8 _), beVal_toBE, Nat.mod_eq_of_lt (by omega)]

/-- The client after `parse_sizes`. -/
def CState.sized (s : CState) (size flags : Nat) : CState := { s with size := size, flags := flags }

@[simp] theorem CState.sized_inp (s : CState) (a b : Nat) : (s.sized a b).inp = s.inp := rfl
@[simp] theorem CState.sized_size (s : CState) (a b : Nat) : (s.sized a b).size = a := rfl
@[simp] theorem CState.sized_flags (s : CState) (a b : Nat) : (s.sized a b).flags = b := rfl

theorem parseSizes_eq (e : Endian) (size flags : Nat) (hs : size < 2 ^ 64) (hf : flags < 2 ^ 16) (s : CState) :
    parseSizes e (toBE 8 size ++ toBE 2 flags) s = .ok () (s.sized size flags) := by
  unfold parseSizes
  rw [modify_eq, List.take_left' (toBE_length 8 _), List.drop_left' (toBE_length 8 _),
    List.take_of_length_le (by rw [toBE_length]; omega), ntohll_toBE e _ hs, ntohs_toBE e _ hf]
  rfl

/-- Reading one reply. -/
theorem readReply_ok {s : CState} {data rest : List Byte} (e : Endian) (opt type : Nat) (ht : type < 2 ^ 32)
    (hd : data.length < 4096) (h : s.inp = Spec.optReply opt type data ++ rest) :
    readReply e s = .ok ⟨type, data.length, data⟩ (s.heard rest) := by
  have hh : s.inp = (toBE 8 0x3e889045565a9 ++ toBE 4 opt ++ toBE 4 type ++ toBE 4 data.length) ++ (data ++ rest) := by
    rw [h]; unfold Spec.optReply; simp only [List.append_assoc]
  unfold readReply
  rw [bind_ok (cread_ok 20 hh (by simp))]
  simp only []
  rw [if_neg (by simp)]
  have h8 : (toBE 8 0x3e889045565a9 ++ toBE 4 opt ++ toBE 4 type ++ toBE 4 data.length).take 8 = toBE 8 0x3e889045565a9 := by
    simp only [List.append_assoc]; exact List.take_left' (toBE_length 8 _)
  have h12 : ((toBE 8 0x3e889045565a9 ++ toBE 4 opt ++ toBE 4 type ++ toBE 4 data.length).drop 12).take 4 = toBE 4 type := by
    rw [List.append_assoc, List.drop_left' (by simp), List.take_left' (toBE_length 4 _)]
  have h16 : ((toBE 8 0x3e889045565a9 ++ toBE 4 opt ++ toBE 4 type ++ toBE 4 data.length).drop 16).take 4 = toBE 4 data.length := by
    rw [List.drop_left' (by simp), List.take_of_length_le (by simp)]
  rw [h8, repMagic, if_neg (by simp), h12, h16, ntohl_toBE e _ ht, ntohl_toBE e _ (by omega)]
  by_cases h0 : 0 < data.length
  · rw [if_pos ⟨h0, hd⟩, bind_ok (cread_ok (s := s.heard _) (a := data) (rest := rest) _ rfl rfl)]
    rfl
  · rw [if_neg (by omega)]
    have : data = [] := List.length_eq_zero_iff.mp (by omega)
    subst this
    rfl

/-- The reply with the export's size and flags. -/
theorem goStep_info {s : CState} {rest : List Byte} (e : Endian) (c : CliConf) (gz : Bool) (errm errh : List Byte)
    (opt size flags : Nat) (hs : size < 2 ^ 64) (hf : flags < 2 ^ 16)
    (h : s.inp = Spec.optReply opt 3 (Spec.infoExport size flags) ++ rest) :
    goStep e c gz errm errh s = .ok false ((s.heard rest).sized size flags) := by
  have hl : (Spec.infoExport size flags).length = 12 := by unfold Spec.infoExport; simp
  unfold goStep
  rw [bind_ok (readReply_ok e opt 3 (by decide) (by omega) h)]
  simp only []
  rw [if_neg (by decide), if_pos (by decide), hl, if_neg (by decide)]
  have h2 : (Spec.infoExport size flags).take 2 = toBE 2 0 := by
    unfold Spec.infoExport; rw [List.append_assoc]; exact List.take_left' (toBE_length 2 _)
  have h3 : (Spec.infoExport size flags).drop 2 = toBE 8 size ++ toBE 2 flags := by
    unfold Spec.infoExport; rw [List.append_assoc]; exact List.drop_left' (toBE_length 2 _)
  rw [h2, ntohs_toBE e 0 (by decide), if_pos (by rfl), if_neg (by decide), h3, bind_ok (parseSizes_eq e size flags hs hf _)]
  rfl

/-- The final acknowledgement. -/
theorem goStep_ack {s : CState} {rest : List Byte} (e : Endian) (c : CliConf) (gz : Bool) (errm errh : List Byte)
    (opt : Nat) (h : s.inp = Spec.optReply opt 1 [] ++ rest) :
    goStep e c gz errm errh s = .ok true (s.heard rest) := by
  unfold goStep
  rw [bind_ok (readReply_ok e opt 1 (by decide) (by decide) h)]
  simp only []
  rw [if_neg (by decide), if_neg (by decide)]
  rfl

theorem cerr_ok {α : Type} (errm errh text : List Byte) (s : CState) (h : errNonfatal text errm errh ≠ .ub) :
    cerr (α := α) errm errh text s = .stop .failed s := by
  unfold cerr
  generalize errNonfatal text errm errh = q at h ⊢
  cases q with
  | ub => exact absurd rfl h
  | val _ => rfl
  | exit => rfl

/-- An error other than "unsupported", with a text that can be printed. -/
theorem goStep_error {s : CState} {rest text : List Byte} (e : Endian) (c : CliConf) (gz : Bool) (errm errh : List Byte)
    (opt type : Nat) (ht : type < 2 ^ 32) (herr : has type 0x80000000 = true) (hu : type ≠ 0x80000001)
    (hl : text.length < 4096) (what : List Byte)
    (hwhat : what = if type = 0x80000002 then msgPolicy else msgUnknown)
    (hok : errNonfatal ((what ++ cstr (text.take (text.length - 1))).take 1023) errm errh ≠ .ub)
    (h : s.inp = Spec.optReply opt type text ++ rest) :
    goStep e c gz errm errh s = .stop .failed (s.heard rest) := by
  unfold goStep
  rw [bind_ok (readReply_ok e opt type ht hl h)]
  simp only []
  rw [if_pos herr, if_neg (show ¬ type = REP_ERR_UNSUP.toNat from hu)]
  have hsaid : ∀ s' : CState, cerrSaid (α := Bool) errm errh what ⟨type, text.length, text⟩ s' = .stop .failed s' := by
    intro s'
    unfold cerrSaid
    simp only []
    by_cases h0 : text.length = 0
    · rw [if_pos h0]; rfl
    · rw [if_neg h0, if_neg (by omega), if_neg (by rw [List.length_take]; omega)]
      exact cerr_ok errm errh _ s' hok
  by_cases h2 : type = 0x80000002
  · rw [if_pos (show type = REP_ERR_POLICY.toNat from h2)]
    rw [if_pos h2] at hwhat
    rw [← hwhat, hsaid]
  · rw [if_neg (show ¬ type = REP_ERR_POLICY.toNat from h2)]
    rw [if_neg h2] at hwhat
    rw [← hwhat, hsaid]

theorem goLoop_more {s s' : CState} (e : Endian) (c : CliConf) (gz : Bool) (errm errh : List Byte) (n : Nat)
    (h : goStep e c gz errm errh s = .ok false s') :
    goLoop e c gz errm errh (n + 1) s = goLoop e c gz errm errh n s' := by
  rw [goLoop]
  rw [bind_ok h]
  rfl

theorem goLoop_done {s s' : CState} (e : Endian) (c : CliConf) (gz : Bool) (errm errh : List Byte) (n : Nat)
    (h : goStep e c gz errm errh s = .ok true s') :
    goLoop e c gz errm errh (n + 1) s = .stop (.ready s'.size s'.flags) s' := by
  unfold goLoop
  rw [bind_ok h]
  rfl

theorem goLoop_stop {s s' : CState} {r : CEnd} (e : Endian) (c : CliConf) (gz : Bool) (errm errh : List Byte) (n : Nat)
    (h : goStep e c gz errm errh s = .stop r s') : goLoop e c gz errm errh (n + 1) s = .stop r s' := by
  unfold goLoop
  rw [bind_stop h]

/-- GO answered with size and flags. -/
theorem goLoop_ok {s : CState} {rest : List Byte} (e : Endian) (c : CliConf) (gz : Bool) (errm errh : List Byte)
    (opt size flags n : Nat) (hs : size < 2 ^ 64) (hf : flags < 2 ^ 16)
    (h : s.inp = Spec.optReply opt 3 (Spec.infoExport size flags) ++ Spec.optReply opt 1 [] ++ rest) :
    goLoop e c gz errm errh (n + 2) s = .stop (.ready size flags) ((s.heard rest).sized size flags) := by
  rw [List.append_assoc] at h
  rw [goLoop_more e c gz errm errh (n + 1) (goStep_info e c gz errm errh opt size flags hs hf h),
    goLoop_done e c gz errm errh n (goStep_ack (rest := rest) e c gz errm errh opt rfl)]
  rfl

/-- EXPORT_NAME answered without zeroes. -/
theorem csendExportName_ok {s : CState} {rest : List Byte} (e : Endian) (c : CliConf)
    (hn : c.name.length < 2 ^ 32) (size flags : Nat) (hs : size < 2 ^ 64) (hf : flags < 2 ^ 16)
    (h : s.inp = toBE 8 size ++ toBE 2 flags ++ rest) :
    csendExportName e c true s = .stop (.ready size flags)
      (((s.said (Spec.optRequest 1 c.name)).heard rest).sized size flags) := by
  unfold csendExportName
  rw [bind_ok (csendRequest_eq e OPT_EXPORT_NAME c.name (by decide) hn s),
    bind_ok (cread_ok (s := s.said _) (a := toBE 8 size ++ toBE 2 flags) (rest := rest) 10 (by rw [CState.said_inp, h]) (by simp))]
  simp only []
  rw [if_neg (by simp), bind_ok (parseSizes_eq e size flags hs hf _)]
  rfl

/-- The greeting. -/
theorem cliGreet_ok {s : CState} {rest : List Byte} (e : Endian) (c : CliConf)
    (h : s.inp = INIT_PASSWD ++ toBE 8 0x49484156454F5054 ++ toBE 2 3 ++ rest) :
    cliGreet e c s = .ok true ((s.heard rest).said (toBE 4 3)) := by
  rw [List.append_assoc, List.append_assoc] at h
  unfold cliGreet
  rw [bind_ok (cread_ok 8 h rfl)]
  rw [if_neg (by simp)]
  simp only []
  rw [bind_ok (creadFull_ok (s := s.heard _) (a := toBE 8 0x49484156454F5054) (rest := toBE 2 3 ++ rest) 8 rfl (by simp))]
  have hm : ¬ ntohll e (load64 e (toBE 8 0x49484156454F5054)) = CLISERV_MAGIC := by cases e <;> decide
  rw [if_neg hm]
  rw [bind_ok (creadFull_ok (s := (s.heard _).heard _) (a := toBE 2 3) (rest := rest) 2 rfl (by simp))]
  have hg : ntohs e (load16 e (toBE 2 3)) = 3 := by cases e <;> decide
  simp only [hg]
  rw [if_neg (fun h => h.2 (by decide))]
  have hz : has (UInt16.toNat 3) (UInt16.toNat GFLAG_NO_ZEROES) = true := by decide
  rw [hz]
  simp only [if_true]
  rw [bind_ok (csend_eq _ _), store32_htonl]
  rfl

/-- STARTTLS acknowledged. -/
theorem cliSecure_ok {s : CState} {rest : List Byte} (e : Endian) (h : s.inp = Spec.optReply 5 1 [] ++ rest) :
    cliSecure e s = .ok () { s with tls := true, inp := s.tlsIn, tlsIn := [] } := by
  have h' : s.inp = toBE 8 0x3e889045565a9 ++ (toBE 4 5 ++ (toBE 4 1 ++ (toBE 4 0 ++ rest))) := by
    rw [h]; unfold Spec.optReply; simp only [List.append_assoc, List.nil_append, List.length_nil]
  unfold cliSecure
  rw [bind_ok (creadFull_ok 8 h' (by simp)), repMagic, if_neg (by simp)]
  simp only []
  rw [bind_ok (creadFull_ok (s := s.heard _) (a := toBE 4 5) 4 rfl (by simp))]
  rw [if_neg (by cases e <;> decide)]
  rw [bind_ok (creadFull_ok (s := (s.heard _).heard _) (a := toBE 4 1) 4 rfl (by simp))]
  rw [if_neg (by cases e <;> decide)]
  rw [bind_ok (creadFull_ok (s := ((s.heard _).heard _).heard _) (a := toBE 4 0) 4 rfl (by simp))]
  rw [if_neg (by cases e <;> decide)]
  rw [modify_eq]
  rfl

theorem cliStarttls_eq (e : Endian) (s : CState) : cliStarttls e s = cliSecure e (s.said (Spec.optRequest 5 [])) := by
  unfold cliStarttls
  have hreq : csendRequest e OPT_STARTTLS 0 [] s = .ok () (s.said (Spec.optRequest 5 [])) :=
    csendRequest_eq e OPT_STARTTLS [] (by decide) (by decide) s
  rw [bind_ok hreq]

end Nbd
