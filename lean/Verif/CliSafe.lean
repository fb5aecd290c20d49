import Verif.Talk
/-!
# What a hostile server can do to the client
-/

set_option autoImplicit false

namespace Nbd.Spec

/-- What a server can answer GO with, without making the client use memory outside its buffers: anything that is not a
reply; and replies among which
* export information (type 3) is 2 to 4095 bytes long, and at least 12 if it is about the export,
* errors other than "unsupported" are shorter than 4096 bytes and their text has no percent sign. -/
inductive Harmless : List Byte → Prop
  | short (bs : List Byte) : bs.length < 20 → Harmless bs
  | nonsense (bs : List Byte) : beVal (bs.take 8) ≠ 0x3e889045565a9 → Harmless bs
  | reply (opt type size : Nat) (body : List Byte) (ho : opt < 2 ^ 32) (ht : type < 2 ^ 32) (hs : size < 2 ^ 32)
      (hinfo : type = 3 → 2 ≤ size ∧ size < 4096 ∧ (beVal (body.take 2) = 0 → 12 ≤ size))
      (herr : type.testBit 31 = true → type ≠ 0x80000001 → size < 4096 ∧ (37 : Byte) ∉ body.take size)
      (hrest : Harmless (body.drop (if size < 4096 then size else 0))) :
      Harmless (toBE 8 0x3e889045565a9 ++ toBE 4 opt ++ toBE 4 type ++ toBE 4 size ++ body)

end Nbd.Spec

namespace Nbd

open CM Spec

theorem cread_eq (n : Nat) (s : CState) : cread n s = .ok (s.inp.take n) { s with inp := s.inp.drop n } := rfl

theorem stop_eq {α : Type} (r : CEnd) (s : CState) : (CM.stop r : CM α) s = .stop r s := rfl

theorem creadFull_short (n : Nat) (s : CState) (h : (s.inp.take n).length < n) :
    creadFull n s = .stop .garbage { s with inp := s.inp.drop n } := by
  unfold creadFull
  rw [bind_ok (cread_eq n s), if_pos h]; rfl

theorem creadFull_full (n : Nat) (s : CState) (h : ¬ (s.inp.take n).length < n) :
    creadFull n s = .ok (s.inp.take n) { s with inp := s.inp.drop n } := by
  unfold creadFull
  rw [bind_ok (cread_eq n s), if_neg h]; rfl

/-- Reading any reply. -/
theorem readReply_any {s : CState} {body : List Byte} (e : Endian) (opt type size : Nat) (ht : type < 2 ^ 32)
    (hs : size < 2 ^ 32)
    (h : s.inp = toBE 8 0x3e889045565a9 ++ toBE 4 opt ++ toBE 4 type ++ toBE 4 size ++ body) :
    readReply e s = .ok ⟨type, size, if size < 4096 then body.take size else []⟩
      (s.heard (body.drop (if size < 4096 then size else 0))) := by
  unfold readReply
  rw [bind_ok (cread_ok 20 h (by simp))]
  simp only []
  rw [if_neg (by simp)]
  have h8 : (toBE 8 0x3e889045565a9 ++ toBE 4 opt ++ toBE 4 type ++ toBE 4 size).take 8 = toBE 8 0x3e889045565a9 := by
    simp only [List.append_assoc]; exact List.take_left' (toBE_length 8 _)
  have h12 : ((toBE 8 0x3e889045565a9 ++ toBE 4 opt ++ toBE 4 type ++ toBE 4 size).drop 12).take 4 = toBE 4 type := by
    rw [List.append_assoc, List.drop_left' (by simp), List.take_left' (toBE_length 4 _)]
  have h16 : ((toBE 8 0x3e889045565a9 ++ toBE 4 opt ++ toBE 4 type ++ toBE 4 size).drop 16).take 4 = toBE 4 size := by
    rw [List.drop_left' (by simp), List.take_of_length_le (by simp)]
  rw [h8, repMagic, if_neg (by simp), h12, h16, ntohl_toBE e _ ht, ntohl_toBE e _ hs]
  by_cases h0 : 0 < size ∧ size < 4096
  · rw [if_pos h0, if_pos h0.2, if_pos h0.2]
    rfl
  · rw [if_neg h0]
    by_cases h1 : size < 4096
    · have : size = 0 := by omega
      subst this
      rw [if_pos h1, if_pos h1]
      rfl
    · rw [if_neg h1, if_neg h1]
      rfl

theorem readReply_short {s : CState} (e : Endian) (h : s.inp.length < 20) :
    readReply e s = .stop .failed { s with inp := s.inp.drop 20 } := by
  unfold readReply
  rw [bind_ok (cread_eq 20 s)]
  simp only []
  rw [if_pos (by rw [List.length_take]; omega)]
  rfl

theorem readReply_nonsense {s : CState} (e : Endian) (h : beVal (s.inp.take 8) ≠ 0x3e889045565a9) :
    readReply e s = .stop .failed { s with inp := s.inp.drop 20 } := by
  by_cases hl : s.inp.length < 20
  · exact readReply_short e hl
  unfold readReply
  rw [bind_ok (cread_eq 20 s)]
  simp only []
  rw [if_neg (by rw [List.length_take]; omega), if_pos]
  · rfl
  · rw [List.take_take, Nat.min_eq_left (by decide)]
    intro hm
    have := congrArg UInt64.toNat hm
    rw [ntohll_load64 e _ (by rw [List.length_take]; omega)] at this
    exact h this

theorem strstr2_none (c : Byte) (l : List Byte) (h : (37 : Byte) ∉ l) : strstr2 c l = none := by
  induction l with
  | nil => rfl
  | cons a l ih =>
    simp only [List.mem_cons, not_or] at h
    cases l with
    | nil => rfl
    | cons b l =>
      unfold strstr2
      rw [if_neg (fun hh => h.1 hh.1.symm), ih h.2]
      rfl

theorem errNonfatal_noPercent (text errm errh : List Byte) (h0 : (0 : Byte) ∉ text) (h : (37 : Byte) ∉ text) :
    errNonfatal text errm errh ≠ .ub := by
  rw [errNonfatal_plain text errm errh h0 (strstr2_none _ _ h) (strstr2_none _ _ h)]; simp

theorem cstr_no_zero (l : List Byte) : (0 : Byte) ∉ cstr l := by
  intro h
  unfold cstr at h
  have := List.all_takeWhile (p := fun b : Byte => decide (b ≠ 0)) (l := l)
  rw [List.all_eq_true] at this
  have := this 0 h
  simp at this

theorem cstr_subset (l : List Byte) (b : Byte) (h : b ∈ cstr l) : b ∈ l :=
  (List.takeWhile_prefix _).subset h

theorem cerrSaid_ne {α : Type} (errm errh what : List Byte) (hw : (0 : Byte) ∉ what ∧ (37 : Byte) ∉ what) (r : CReply)
    (hs : r.datasize < 4096) (hd : (37 : Byte) ∉ r.data) (s : CState) :
    ∃ q, cerrSaid (α := α) errm errh what r s = .stop q s ∧ q ≠ .ub := by
  unfold cerrSaid
  by_cases h0 : r.datasize = 0
  · rw [if_pos h0]; exact ⟨_, rfl, by simp⟩
  · rw [if_neg h0, if_neg (by omega)]
    by_cases h1 : (r.data.take (r.datasize - 1)).length < r.datasize - 1 ∧ (0 : Byte) ∉ r.data.take (r.datasize - 1)
    · exact ⟨.garbage, by simp only [if_pos h1]; rfl, by simp⟩
    simp only [if_neg h1]
    refine ⟨_, cerr_ok errm errh _ s (errNonfatal_noPercent _ _ _ ?_ ?_), by simp⟩
    · intro h
      have := List.mem_of_mem_take h
      rw [List.mem_append] at this
      exact this.elim hw.1 (cstr_no_zero _)
    · intro h
      have := List.mem_of_mem_take h
      rw [List.mem_append] at this
      exact this.elim hw.2 fun h => hd (List.mem_of_mem_take (cstr_subset _ _ h))

/-- One reply of a harmless server. -/
theorem goStep_safe (e : Endian) (c : CliConf) (gz : Bool) (errm errh : List Byte) (s : CState) (h : Harmless s.inp) :
    match (generalizing := false) goStep e c gz errm errh s with
    | .ok b s' => b = false → Harmless s'.inp
    | .stop r _ => r ≠ .ub := by
  have hx : ∀ (x : List Byte), Harmless x → x = s.inp → match (generalizing := false) goStep e c gz errm errh s with
    | .ok b s' => b = false → Harmless s'.inp
    | .stop r _ => r ≠ .ub := by
    intro x hx hxs
    cases hx with
    | short _ hl =>
      unfold goStep
      rw [bind_stop (readReply_short e (hxs ▸ hl))]
      simp
    | nonsense _ hl =>
      unfold goStep
      rw [bind_stop (readReply_nonsense e (hxs ▸ hl))]
      simp
    | reply opt type size body ho ht hs hinfo herr hrest =>
      unfold goStep
      rw [bind_ok (readReply_any e opt type size ht hs hxs.symm)]
      have hbit : has type 0x80000000 = type.testBit 31 := Props.has_two_pow type 31
      simp only []
      by_cases h31 : type.testBit 31 = true
      · rw [if_pos (by rw [hbit]; exact h31)]
        by_cases hu : type = 0x80000001
        · rw [if_pos (show type = REP_ERR_UNSUP.toNat from hu)]
          have hh := (CM.Hoare.csendExportName (P := fun _ => True) (E := fun r _ => r ≠ .ub)
            ⟨fun _ _ _ => trivial, fun _ _ _ => trivial, fun _ _ _ _ => trivial, fun _ _ _ => trivial, fun _ _ => trivial⟩
            (fun r _ hr _ => hr) e c gz).h (s.heard (body.drop (if size < 4096 then size else 0))) trivial
          rw [bind_eq]
          cases hq : csendExportName e c gz (s.heard (body.drop (if size < 4096 then size else 0))) with
          | ok a s' => intro hb; cases hb
          | stop r s' => rw [hq] at hh; exact hh
        · rw [if_neg (show ¬ type = REP_ERR_UNSUP.toNat from hu)]
          obtain ⟨h1, h2⟩ := herr h31 hu
          have hd : (37 : Byte) ∉ (CReply.mk type size (if size < 4096 then body.take size else [])).data := by
            simp only [h1, if_true]; exact h2
          by_cases hp : type = REP_ERR_POLICY.toNat
          · rw [if_pos hp]
            obtain ⟨q, hq, hne⟩ := cerrSaid_ne (α := Bool) errm errh msgPolicy (by decide +kernel) _ h1 hd
              (s.heard (body.drop (if size < 4096 then size else 0)))
            rw [hq]; exact hne
          · rw [if_neg hp]
            obtain ⟨q, hq, hne⟩ := cerrSaid_ne (α := Bool) errm errh msgUnknown (by decide +kernel) _ h1 hd
              (s.heard (body.drop (if size < 4096 then size else 0)))
            rw [hq]; exact hne
      · rw [if_neg (by rw [hbit]; exact h31)]
        by_cases h3 : type = 3
        · rw [if_pos (show type = REP_INFO.toNat from h3)]
          obtain ⟨h4, h5, h6⟩ := hinfo h3
          rw [if_pos h5, if_pos h5]
          by_cases hl2 : (body.take size).length < 2
          · rw [if_pos hl2, if_pos ⟨h4, h5⟩]; show CEnd.garbage ≠ _; simp
          · rw [if_neg hl2]
            rw [List.length_take] at hl2
            have h2 : (body.take size).take 2 = body.take 2 := by rw [List.take_take, Nat.min_eq_left h4]
            by_cases hk : (ntohs e (load16 e ((body.take size).take 2))).toNat = INFO_EXPORT
            · rw [if_pos hk]
              rw [h2, ntohs_load16 e _ (by rw [List.length_take]; omega)] at hk
              have h12 := h6 hk
              by_cases hl12 : (body.take size).length < 12
              · rw [if_pos hl12, if_pos h12]; show CEnd.garbage ≠ _; simp
              · rw [if_neg hl12]
                rw [if_pos h5] at hrest
                exact fun _ => hrest
            · rw [if_neg hk]
              rw [if_pos h5] at hrest
              exact fun _ => hrest
        · rw [if_neg (show ¬ type = REP_INFO.toNat from h3)]
          exact fun _ => hrest
  exact hx s.inp h rfl

theorem goLoop_safe (e : Endian) (c : CliConf) (gz : Bool) (errm errh : List Byte) (n : Nat) (s : CState)
    (h : Harmless s.inp) : (goLoop e c gz errm errh n s).fin.1 ≠ .ub := by
  induction n generalizing s with
  | zero => show CEnd.running ≠ _; simp
  | succ n ih =>
    have hs := goStep_safe e c gz errm errh s h
    cases hq : goStep e c gz errm errh s with
    | stop r s' =>
      rw [hq] at hs
      rw [goLoop_stop e c gz errm errh n hq]
      exact hs
    | ok b s' =>
      rw [hq] at hs
      cases b with
      | true => rw [goLoop_done e c gz errm errh n hq]; show CEnd.ready _ _ ≠ _; simp
      | false => rw [goLoop_more e c gz errm errh n hq]; exact ih s' (hs rfl)

/-- Where the greeting leaves the client. -/
theorem cliGreet_where (e : Endian) (c : CliConf) (inp tlsIn : List Byte) :
    CM.Hoare (fun s => s = ⟨inp, tlsIn, [], [], false, 0, 0, []⟩) (cliGreet e c)
      (fun _ s => s.inp = inp.drop 18 ∧ s.tlsIn = tlsIn ∧ inp.take 8 = INIT_PASSWD ∧
        beVal ((inp.drop 8).take 8) ≠ 0x00420281861253) (fun r _ => r = .failed ∨ r = .garbage) := by
  refine ⟨fun s hs => ?_⟩
  subst hs
  unfold cliGreet
  rw [bind_ok (cread_eq 8 _)]
  simp only []
  by_cases h1 : inp.take 8 ≠ INIT_PASSWD
  · rw [if_pos h1, bind_stop (stop_eq _ _)]; simp
  · rw [if_neg h1]
    have h1 : inp.take 8 = INIT_PASSWD := Decidable.not_not.mp h1
    by_cases h2 : ((inp.drop 8).take 8).length < 8
    · rw [bind_stop (creadFull_short 8 _ h2)]; simp
    · rw [bind_ok (creadFull_full 8 _ h2)]
      simp only []
      by_cases h3 : ntohll e (load64 e ((inp.drop 8).take 8)) = CLISERV_MAGIC
      · rw [if_pos h3, bind_stop (stop_eq _ _)]; simp
      · rw [if_neg h3]
        have h3' : beVal ((inp.drop 8).take 8) ≠ 0x00420281861253 := by
          intro hb
          apply h3
          apply UInt64.toNat_inj.mp
          rw [ntohll_load64 e _ (by rw [List.length_take] at h2 ⊢; omega), hb]
          rfl
        by_cases h4 : ((((inp.drop 8).drop 8)).take 2).length < 2
        · rw [bind_stop (creadFull_short 2 _ h4)]; simp
        · rw [bind_ok (creadFull_full 2 _ h4)]
          simp only []
          have hfin : ((inp.drop 8).drop 8).drop 2 = inp.drop 18 := by rw [List.drop_drop, List.drop_drop]
          by_cases h5 : c.list = true ∧ ntohs e (load16 e (((inp.drop 8).drop 8).take 2)) &&& GFLAG_FIXED_NEWSTYLE ≠
              GFLAG_FIXED_NEWSTYLE
          · rw [if_pos h5, bind_stop (stop_eq _ _)]; simp
          · rw [if_neg h5]; exact ⟨hfin, rfl, h1, h3'⟩

/-- Everything the client does keeps what holds everywhere. -/
theorem CStable.true : CStable (fun _ => True) :=
  ⟨fun _ _ _ => trivial, fun _ _ _ => trivial, fun _ _ _ _ => trivial, fun _ _ _ => trivial, fun _ _ => trivial⟩

/-- After STARTTLS the client reads from the TLS session. -/
theorem cliStarttls_where (e : Endian) (tlsIn : List Byte) :
    CM.Hoare (fun s => s.tlsIn = tlsIn) (cliStarttls e) (fun _ s => s.inp = tlsIn) (fun r _ => r = .failed ∨ r = .garbage) := by
  have hfull : ∀ n, CM.Hoare (fun s : CState => s.tlsIn = tlsIn) (creadFull n) (fun _ s => s.tlsIn = tlsIn)
      (fun r _ => r = .failed ∨ r = .garbage) := by
    intro n
    refine ⟨fun s hs => ?_⟩
    by_cases h : (s.inp.take n).length < n
    · rw [creadFull_short n s h]; simp
    · rw [creadFull_full n s h]; exact hs
  have hstop : ∀ (m : CM Unit), CM.Hoare (fun s : CState => s.tlsIn = tlsIn) (do CM.stop .failed; m) (fun _ s => s.inp = tlsIn)
      (fun r _ => r = .failed ∨ r = .garbage) := fun m => ⟨fun s _ => by rw [bind_stop (stop_eq _ _)]; simp⟩
  refine CM.Hoare.bind (Q := fun _ s => s.tlsIn = tlsIn) ⟨fun s h => by
    show CState.tlsIn (if s.tls then _ else _) = tlsIn
    split <;> exact h⟩ fun _ => ?_
  unfold cliSecure
  refine (hfull 8).bind fun m => ?_
  refine CM.Hoare.ite (fun _ => hstop _) fun _ => ?_
  refine (hfull 4).bind fun m => ?_
  refine CM.Hoare.ite (fun _ => hstop _) fun _ => ?_
  refine (hfull 4).bind fun m => ?_
  refine CM.Hoare.ite (fun _ => hstop _) fun _ => ?_
  refine (hfull 4).bind fun m => ?_
  refine CM.Hoare.ite (fun _ => hstop _) fun _ => ?_
  exact CM.Hoare.modify fun s h => h

/-- Code that leaves at most `k` bytes unread, or ends (without running out of turns). -/
structure CEats {α : Type} (j k : Nat) (m : CM α) : Prop where
  h : CM.Hoare (fun s => s.inp.length ≤ j) m (fun _ s => s.inp.length ≤ k) (fun r _ => r ≠ .running)

section
variable {α β : Type} {j k l : Nat}

theorem CEats.bind {m : CM α} {f : α → CM β} (hm : CEats j k m) (hf : ∀ a, CEats k l (f a)) : CEats j l (m >>= f) :=
  ⟨hm.h.bind fun a => (hf a).h⟩

theorem CEats.pure (a : α) : CEats j j (Pure.pure a : CM α) := ⟨CM.Hoare.pure fun _ h => h⟩

theorem CEats.stop (r : CEnd) (hr : r ≠ .running) : CEats j k (CM.stop r : CM α) := ⟨CM.Hoare.stop fun _ _ => hr⟩

theorem CEats.stopped {r : CEnd} {f : Unit → CM β} (hr : r ≠ .running) : CEats j k (CM.stop r >>= f) :=
  ⟨⟨fun s _ => by rw [bind_stop (stop_eq _ _)]; exact hr⟩⟩

theorem CEats.ite {c : Prop} [Decidable c] {a b : CM α} (h1 : CEats j k a) (h2 : CEats j k b) : CEats j k (if c then a else b) :=
  ⟨CM.Hoare.ite (fun _ => h1.h) fun _ => h2.h⟩

theorem CEats.csend (bs : List Byte) : CEats j j (csend bs) := by
  refine ⟨⟨fun s h => ?_⟩⟩
  show (CState.inp (if s.tls then _ else _)).length ≤ j
  split <;> exact h

theorem CEats.mod (f : CState → CState) (hf : ∀ s, (f s).inp = s.inp) : CEats j j (CM.modify f) :=
  ⟨CM.Hoare.modify fun s h => by rw [hf]; exact h⟩

theorem CEats.parseSizes (e : Endian) (b : List Byte) : CEats j j (parseSizes e b) := CEats.mod _ fun _ => rfl

theorem CEats.cread (n : Nat) : CEats j j (cread n) :=
  ⟨⟨fun s h => by show (s.inp.drop n).length ≤ j; rw [List.length_drop]; omega⟩⟩

theorem CEats.creadFull (n : Nat) : CEats (j + n) j (creadFull n) := by
  refine ⟨⟨fun s h => ?_⟩⟩
  by_cases hn : (s.inp.take n).length < n
  · rw [creadFull_short n s hn]; simp
  · rw [creadFull_full n s hn]
    show (s.inp.drop n).length ≤ j
    rw [List.length_drop]; omega

theorem CEats.creadFull' (n : Nat) : CEats j j (Nbd.creadFull n) := by
  refine ⟨⟨fun s h => ?_⟩⟩
  by_cases hn : (s.inp.take n).length < n
  · rw [creadFull_short n s hn]; simp
  · rw [creadFull_full n s hn]
    show (s.inp.drop n).length ≤ j
    rw [List.length_drop]; omega

theorem CEats.weaken {m : CM α} (h : CEats j k m) (hk : k ≤ l) : CEats j l m :=
  ⟨h.h.post (fun _ _ h => Nat.le_trans h hk) fun _ _ h => h⟩

theorem CEats.csendRequest (e : Endian) (o n : Nat) (d : List Byte) : CEats j j (csendRequest e o n d) := CEats.csend _

theorem CEats.readReply (e : Endian) : CEats (j + 20) j (readReply e) := by
  unfold Nbd.readReply
  refine ⟨⟨fun s h => ?_⟩⟩
  rw [bind_ok (cread_eq 20 s)]
  simp only []
  by_cases hl : (s.inp.take 20).length < 20
  · rw [if_pos hl, bind_stop (stop_eq _ _)]; simp
  · rw [if_neg hl]
    have h2 : (s.inp.drop 20).length ≤ j := by rw [List.length_drop]; omega
    refine (CEats.h ?_).h { s with inp := s.inp.drop 20 } h2
    refine CEats.ite (CEats.stopped (by simp)) (CEats.ite ?_ (CEats.pure _))
    exact (CEats.cread _).bind fun _ => CEats.pure _

theorem CEats.csendExportName (e : Endian) (c : CliConf) (gz : Bool) : CEats j j (csendExportName e c gz) := by
  unfold Nbd.csendExportName
  refine (CEats.csendRequest ..).bind fun _ => (CEats.cread 10).bind fun b => ?_
  refine CEats.ite (CEats.stopped (by split <;> simp)) ?_
  refine (CEats.parseSizes e b).bind fun _ => ?_
  have hlast : CEats j j (do let s ← CM.get; CM.stop (.ready s.size s.flags) : CM Unit) :=
    ⟨⟨fun s _ => by rw [bind_ok (get_eq s)]; simp [stop_eq]⟩⟩
  exact CEats.ite ((CEats.cread 124).bind fun _ => hlast) hlast

theorem CEats.cerrSaid (errm errh what : List Byte) (r : CReply) : CEats j k (cerrSaid (α := α) errm errh what r) := by
  unfold Nbd.cerrSaid
  refine CEats.ite (CEats.stop _ (by simp)) (CEats.ite (CEats.stop _ (by simp)) ?_)
  refine CEats.ite (CEats.stop _ (by simp)) ?_
  unfold cerr
  split
  · exact CEats.stop _ (by simp)
  · exact CEats.stop _ (by simp)

theorem CEats.goStep (e : Endian) (c : CliConf) (gz : Bool) (errm errh : List Byte) :
    CEats (j + 20) j (goStep e c gz errm errh) := by
  unfold Nbd.goStep
  refine (CEats.readReply e).bind fun r => ?_
  refine CEats.ite (CEats.ite ((CEats.csendExportName e c gz).bind fun _ => CEats.pure _)
    (CEats.ite (CEats.cerrSaid ..) (CEats.cerrSaid ..))) ?_
  refine CEats.ite (CEats.ite (CEats.stop _ (by split <;> simp)) ?_) (CEats.pure _)
  refine CEats.ite (CEats.ite (CEats.stop _ (by split <;> simp)) ?_) (CEats.pure _)
  exact (CEats.parseSizes e _).bind fun _ => CEats.pure _

theorem goLoop_ends (e : Endian) (c : CliConf) (gz : Bool) (errm errh : List Byte) (n : Nat) (s : CState)
    (h : s.inp.length < n) : (goLoop e c gz errm errh n s).fin.1 ≠ .running := by
  induction n generalizing s with
  | zero => omega
  | succ n ih =>
    cases hq : Nbd.goStep e c gz errm errh s with
    | stop r s' =>
      rw [goLoop_stop e c gz errm errh n hq]
      have := (CEats.goStep (j := s.inp.length) e c gz errm errh).h.h s (by omega)
      rw [hq] at this
      exact this
    | ok b s' =>
      cases b with
      | true => rw [goLoop_done e c gz errm errh n hq]; show CEnd.ready _ _ ≠ _; simp
      | false =>
        rw [goLoop_more e c gz errm errh n hq]
        refine ih s' ?_
        by_cases hl : s.inp.length < 20
        · have := readReply_short e hl
          unfold Nbd.goStep at hq
          rw [bind_stop this] at hq
          cases hq
        · have := (CEats.goStep (j := s.inp.length - 20) e c gz errm errh).h.h s (by omega)
          rw [hq] at this
          simp only [] at this
          omega

theorem CEats.listStep (e : Endian) : CEats (j + 8) j (listStep e) := by
  unfold Nbd.listStep
  refine (CEats.creadFull 8).bind fun m => (CEats.creadFull' 4).bind fun _ => (CEats.creadFull' 4).bind fun t =>
    (CEats.creadFull' 4).bind fun l => ?_
  have hstr : ∀ cap n, CEats j j (creadStr cap n) := by
    intro cap n
    unfold creadStr
    exact CEats.ite (CEats.stop _ (by simp)) (CEats.cread _)
  have hrest : CEats j j (do listEntry e (ntohl e (load32 e l)).toNat; return false) := by
    refine CEats.bind (k := j) ?_ fun _ => CEats.pure _
    unfold listEntry
    refine (CEats.creadFull' 4).bind fun l => ?_
    unfold listName
    refine CEats.ite (CEats.stop _ (by simp)) ?_
    refine (hstr _ _).bind fun _ => (CEats.mod (fun s => { s with printed := s.printed ++ [cstr _] }) fun _ => rfl).bind fun _ => ?_
    refine CEats.ite ?_ (CEats.pure _)
    unfold listDescr
    exact CEats.ite (CEats.stop _ (by simp)) ((hstr _ _).bind fun _ => CEats.pure _)
  have hend : CEats j j (do
      if (ntohl e (load32 e t)).toNat = REP_ACK.toNat then return true
      if (ntohl e (load32 e t)).toNat ≠ REP_SERVER.toNat then CM.stop .failed
      listEntry e (ntohl e (load32 e l)).toNat
      return false) := CEats.ite (CEats.pure _) (CEats.ite (CEats.stopped (by simp)) hrest)
  refine CEats.ite (CEats.stopped (by simp)) (CEats.ite ?_ hend)
  refine CEats.bind (k := j) ?_ fun _ => hend
  unfold listError
  exact CEats.ite ((hstr _ _).bind fun _ => CEats.stop _ (by simp)) (CEats.stop _ (by simp))

theorem listLoop_ends (e : Endian) (n : Nat) (s : CState) (h : s.inp.length < n) :
    (listLoop e n s).fin.1 ≠ .running := by
  induction n generalizing s with
  | zero => omega
  | succ n ih =>
    have hn : listLoop e (n + 1) = (do
      if ← Nbd.listStep e then
        Nbd.csendRequest e OPT_ABORT 0 []
        CM.stop .listed
      listLoop e n) := by rw [listLoop]
    rw [hn]
    cases hq : Nbd.listStep e s with
    | stop r s' =>
      rw [bind_stop hq]
      have := (CEats.listStep (j := s.inp.length) e).h.h s (by omega)
      rw [hq] at this
      exact this
    | ok b s' =>
      rw [bind_ok hq]
      cases b with
      | true => show CEnd.listed ≠ _; simp
      | false =>
        refine ih s' ?_
        by_cases hl : s.inp.length < 8
        · have : Nbd.creadFull 8 s = _ := creadFull_short 8 s (by rw [List.length_take]; omega)
          unfold Nbd.listStep at hq
          rw [bind_stop this] at hq
          cases hq
        · have := (CEats.listStep (j := s.inp.length - 8) e).h.h s (by omega)
          rw [hq] at this
          simp only [] at this
          omega

end

end Nbd
