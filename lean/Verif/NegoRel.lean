import Verif.NegoLemmas
/-!
# What a client without TLS can see of the exports

Two lists of exports that differ only in exports that require TLS are indistinguishable.
-/

set_option autoImplicit false

namespace Nbd

open NM

/-- `name` belongs to an export that requires TLS. -/
def HiddenName (svs : List SrvExport) (name : List Byte) : Prop :=
  ∃ sv ∈ svs, has sv.flags F_FORCEDTLS = true ∧ sv.name = name

/-- Two configurations that a client saying `I` without TLS cannot tell apart: the exports that do
not require TLS are the same, and the names said are names of TLS-only exports in both or in
neither. -/
structure SameVisible (I : List Byte) (svs svs' : List SrvExport) : Prop where
  vis : svs.filter (visible false) = svs'.filter (visible false)
  names : ∀ name, name <:+: I → (HiddenName svs name ↔ HiddenName svs' name)

/-- The relation between the two runs. -/
structure Alike (I : List Byte) (s t : NState) : Prop where
  eq : t = { s with servers := t.servers }
  same : SameVisible I s.servers t.servers
  inp : s.tls = false → s.inp <:+ I

/-- Before TLS. -/
def AlikeP (I : List Byte) (s t : NState) : Prop := Alike I s t ∧ s.tls = false

variable {I : List Byte}

/-- The same state with other exports. -/
def NState.withServers (s : NState) (svs : List SrvExport) : NState := { s with servers := svs }

/-- Code that does not look at the exports. -/
structure Blind {α : Type} (m : NM α) : Prop where
  h : ∀ s svs, m (NState.withServers s svs) =
    match m s with
    | .ok a s' => .ok a (s'.withServers svs)
    | .stop r s' => .stop r (s'.withServers svs)

theorem Blind.bind {α β : Type} {m : NM α} {f : α → NM β} (hm : Blind m) (hf : ∀ a, Blind (f a)) :
    Blind (m >>= f) := by
  refine ⟨fun s svs => ?_⟩
  rw [bind_eq, bind_eq, hm.h s svs]
  cases m s with
  | ok a s' => exact (hf a).h s' svs
  | stop r s' => rfl

theorem Blind.pure {α : Type} (a : α) : Blind (Pure.pure a : NM α) := ⟨fun _ _ => rfl⟩
theorem Blind.stop {α : Type} (r : NEnd) : Blind (NM.stop r : NM α) := ⟨fun _ _ => rfl⟩
theorem Blind.ite {α : Type} {c : Prop} [Decidable c] {a b : NM α} (h1 : Blind a) (h2 : Blind b) :
    Blind (if c then a else b) := by split <;> assumption
theorem Blind.recv (n : Nat) : Blind (recv n) := by
  refine ⟨fun s svs => ?_⟩
  unfold Nbd.recv
  by_cases h : s.inp.length < n
  · rw [if_pos h, if_pos (show (s.withServers svs).inp.length < n from h)]
  · rw [if_neg h, if_neg (show ¬ (s.withServers svs).inp.length < n from h)]; rfl
theorem Blind.skip (n : Nat) : Blind (skip n) := by
  refine ⟨fun s svs => ?_⟩
  unfold Nbd.skip
  by_cases h : s.inp.length < n
  · rw [if_pos h, if_pos (show (s.withServers svs).inp.length < n from h)]
  · rw [if_neg h, if_neg (show ¬ (s.withServers svs).inp.length < n from h)]; rfl
theorem Blind.send (bs : List Byte) : Blind (send bs) := by
  refine ⟨fun s svs => ?_⟩
  unfold Nbd.send NState.withServers
  cases s.tls <;> rfl
theorem Blind.recv32 (e : Endian) : Blind (recv32 e) := (Blind.recv 4).bind fun _ => Blind.pure _
theorem Blind.recv16 (e : Endian) : Blind (recv16 e) := (Blind.recv 2).bind fun _ => Blind.pure _
theorem Blind.consumeLen (e : Endian) : Blind (consumeLen e) := (Blind.recv32 e).bind fun _ => Blind.skip _
theorem Blind.sendReplyN (e : Endian) (opt : Nat) (t : UInt32) (n : Nat) (d : List Byte) :
    Blind (sendReplyN e opt t n d) := Blind.send _
theorem Blind.sendReply (e : Endian) (opt : Nat) (t : UInt32) (d : List Byte) :
    Blind (sendReply e opt t d) := Blind.send _
theorem Blind.getBind {α : Type} {f : NState → NM α} (h : ∀ s, Blind (f s))
    (h' : ∀ s svs, f (NState.withServers s svs) = f s) : Blind (NM.get >>= f) := by
  refine ⟨fun s svs => ?_⟩
  rw [bind_ok (get_eq _), bind_ok (get_eq _), h']
  exact (h s).h s svs
theorem Blind.modify {f : NState → NState} (h : ∀ s svs, f (NState.withServers s svs) = (f s).withServers svs) :
    Blind (NM.modify f) := ⟨fun s svs => by rw [modify_eq, modify_eq, h]⟩
theorem Blind.sendExportInfo (e : Endian) (sv : SrvExport) (z : Bool) : Blind (sendExportInfo e sv z) := by
  apply Blind.getBind
  · intro s
    refine (Blind.send _).bind fun _ => (Blind.send _).bind fun _ => ?_
    split
    · exact Blind.send _
    · exact Blind.pure _
  · intros; rfl
theorem Blind.sendInfo (e : Endian) (opt : Nat) (sv : SrvExport) (r : List Byte) : Blind (sendInfo e opt sv r) :=
  (Blind.sendReplyN ..).bind fun _ => (Blind.send _).bind fun _ => Blind.sendExportInfo ..
theorem Blind.infoRequests (e : Endian) (opt : Nat) (sv : SrvExport) (n : Nat) (b : Bool) :
    Blind (infoRequests e opt sv n b) := by
  induction n generalizing b with
  | zero => exact Blind.pure _
  | succ n ih =>
    refine (Blind.recv 2).bind fun _ => ?_
    split
    · exact (Blind.sendInfo ..).bind fun _ => ih _
    · exact ih _
theorem Blind.infoCheckLen (e : Endian) (opt len namelen : Nat) : Blind (infoCheckLen e opt len namelen) := by
  unfold Nbd.infoCheckLen
  split
  · exact (Blind.sendReply ..).bind fun _ => Blind.skip _
  · exact Blind.pure _
theorem Blind.infoCheckName (e : Endian) (opt namelen : Nat) : Blind (infoCheckName e opt namelen) := by
  unfold Nbd.infoCheckName
  split
  · exact (Blind.sendReply ..).bind fun _ => Blind.skip _
  · exact Blind.pure _
theorem Blind.handleStructuredReply (e : Endian) : Blind (handleStructuredReply e) := by
  refine (Blind.recv32 e).bind fun _ => ?_
  split
  · exact (Blind.sendReply ..).bind fun _ => Blind.skip _
  · apply Blind.getBind
    · intro s
      split
      · exact Blind.sendReply ..
      · exact (Blind.modify fun _ _ => rfl).bind fun _ => Blind.sendReply ..
    · intros; rfl
theorem Blind.handleStarttls (e : Endian) : Blind (handleStarttls e) := by
  refine (Blind.recv 4).bind fun _ => ?_
  simp only []
  have hrest : Blind (do
      Nbd.sendReply e OPT_STARTTLS REP_ACK []
      let s ← NM.get
      match s.tlsIn with
      | none => NM.stop .closed
      | some inp =>
        NM.modify fun s => { s with tls := true, inp := inp, tlsIn := none, server := none, structured := false }) := by
    refine (Blind.sendReply ..).bind fun _ => ?_
    apply Blind.getBind
    · intro s
      split
      · exact Blind.stop _
      · exact Blind.modify fun _ _ => rfl
    · intros; rfl
  split
  · refine (Blind.skip _).bind fun _ => (Blind.sendReply ..).bind fun _ => ?_
    exact (Blind.stop _).bind fun _ => hrest
  · exact hrest

/-! ### From blind code to related runs -/

theorem visible_iff (tls : Bool) (sv : SrvExport) :
    visible tls sv = true ↔ has sv.flags F_FORCEDTLS = false ∨ tls = true := by
  unfold visible; cases has sv.flags F_FORCEDTLS <;> cases tls <;> simp

/-- The unread input only ever shrinks, and TLS is not started. -/
structure Eats {α : Type} (m : NM α) : Prop where
  h : ∀ s, (m s).state.inp <:+ s.inp ∧ (m s).state.tls = s.tls

theorem Eats.bind {α β : Type} {m : NM α} {f : α → NM β} (hm : Eats m) (hf : ∀ a, Eats (f a)) :
    Eats (m >>= f) := by
  refine ⟨fun s => ?_⟩
  have h := hm.h s
  rw [bind_eq]
  cases hq : m s with
  | ok a s' =>
    rw [hq] at h
    have h' := (hf a).h s'
    exact ⟨h'.1.trans h.1, h'.2.trans h.2⟩
  | stop r s' => rw [hq] at h; exact h
theorem Eats.pure {α : Type} (a : α) : Eats (Pure.pure a : NM α) := ⟨fun s => ⟨List.suffix_refl _, rfl⟩⟩
theorem Eats.stop {α : Type} (r : NEnd) : Eats (NM.stop r : NM α) := ⟨fun s => ⟨List.suffix_refl _, rfl⟩⟩
theorem Eats.get : Eats NM.get := ⟨fun s => ⟨List.suffix_refl _, rfl⟩⟩
theorem Eats.recv (n : Nat) : Eats (recv n) := by
  refine ⟨fun s => ?_⟩
  unfold Nbd.recv
  split
  · exact ⟨List.suffix_refl _, rfl⟩
  · exact ⟨List.drop_suffix _ _, rfl⟩
theorem Eats.skip (n : Nat) : Eats (skip n) := by
  refine ⟨fun s => ?_⟩
  unfold Nbd.skip
  split
  · exact ⟨List.suffix_refl _, rfl⟩
  · exact ⟨List.drop_suffix _ _, rfl⟩
theorem Eats.send (bs : List Byte) : Eats (send bs) := by
  refine ⟨fun s => ?_⟩
  rw [send_eq]
  exact ⟨by simp [NRes.state], by simp [NRes.state]⟩
theorem Eats.modify {f : NState → NState} (h : ∀ s, (f s).inp = s.inp ∧ (f s).tls = s.tls) : Eats (NM.modify f) := by
  refine ⟨fun s => ?_⟩
  rw [modify_eq]; exact ⟨by simp [NRes.state, (h s).1], (h s).2⟩
theorem Eats.recv32 (e : Endian) : Eats (recv32 e) := (Eats.recv 4).bind fun _ => Eats.pure _
theorem Eats.recv16 (e : Endian) : Eats (recv16 e) := (Eats.recv 2).bind fun _ => Eats.pure _
theorem Eats.consumeLen (e : Endian) : Eats (consumeLen e) := (Eats.recv32 e).bind fun _ => Eats.skip _
theorem Eats.sendReply (e : Endian) (opt : Nat) (t : UInt32) (d : List Byte) :
    Eats (sendReply e opt t d) := Eats.send _
theorem Eats.sendExportInfo (e : Endian) (sv : SrvExport) (z : Bool) : Eats (sendExportInfo e sv z) := by
  refine Eats.get.bind fun s => (Eats.send _).bind fun _ => (Eats.send _).bind fun _ => ?_
  split
  · exact Eats.send _
  · exact Eats.pure _
theorem Eats.sendInfo (e : Endian) (opt : Nat) (sv : SrvExport) (r : List Byte) : Eats (sendInfo e opt sv r) :=
  (Eats.send _).bind fun _ => (Eats.send _).bind fun _ => Eats.sendExportInfo ..
theorem Eats.infoRequests (e : Endian) (opt : Nat) (sv : SrvExport) (n : Nat) (b : Bool) :
    Eats (infoRequests e opt sv n b) := by
  induction n generalizing b with
  | zero => exact Eats.pure _
  | succ n ih =>
    refine (Eats.recv 2).bind fun _ => ?_
    split
    · exact (Eats.sendInfo ..).bind fun _ => ih _
    · exact ih _
theorem Eats.infoCheckLen (e : Endian) (opt len namelen : Nat) : Eats (infoCheckLen e opt len namelen) := by
  unfold Nbd.infoCheckLen
  split
  · exact (Eats.sendReply ..).bind fun _ => Eats.skip _
  · exact Eats.pure _
theorem Eats.infoCheckName (e : Endian) (opt namelen : Nat) : Eats (infoCheckName e opt namelen) := by
  unfold Nbd.infoCheckName
  split
  · exact (Eats.sendReply ..).bind fun _ => Eats.skip _
  · exact Eats.pure _
theorem Eats.handleStructuredReply (e : Endian) : Eats (handleStructuredReply e) := by
  refine (Eats.recv32 e).bind fun _ => ?_
  split
  · exact (Eats.sendReply ..).bind fun _ => Eats.skip _
  · refine Eats.get.bind fun s => ?_
    split
    · exact Eats.sendReply ..
    · refine Eats.bind ?_ fun _ => Eats.sendReply ..
      exact Eats.modify fun _ => ⟨rfl, rfl⟩
theorem Eats.commitClient (env : NEnv) (cf : NConf) (sv : SrvExport) : Eats (commitClient env cf sv) := by
  unfold Nbd.commitClient
  refine Eats.get.bind fun s => ?_
  simp only []
  repeat' first
    | exact Eats.pure _
    | exact Eats.stop _
    | exact Eats.modify fun _ => ⟨rfl, rfl⟩
    | refine Eats.bind ?_ fun _ => ?_
    | split
theorem Eats.infoName (e : Endian) (env : NEnv) (opt namelen : Nat) : Eats (infoName e env opt namelen) := by
  unfold Nbd.infoName
  split
  · split
    · split
      · exact Eats.stop _
      · exact (Eats.recv _).bind fun _ => Eats.pure _
    · exact (Eats.sendReply ..).bind fun _ => Eats.pure _
  · exact Eats.pure _
theorem Eats.sendList (e : Endian) (tls : Bool) (svs : List SrvExport) : Eats (sendList e tls svs) := by
  induction svs with
  | nil => exact Eats.pure _
  | cons sv svs ih =>
    unfold Nbd.sendList
    simp only []
    split
    · split
      · exact (Eats.stop _).bind fun _ => (Eats.sendReply ..).bind fun _ => ih
      · exact (Eats.sendReply ..).bind fun _ => ih
    · exact ih


theorem Alike.eq' {s t : NState} (h : Alike I s t) : t = s.withServers t.servers := h.eq

theorem Blind.servers {α : Type} {m : NM α} (h : Blind m) (s : NState) : (m s).state.servers = s.servers := by
  have := h.h s s.servers
  have h0 : s.withServers s.servers = s := rfl
  rw [h0] at this
  cases hq : m s with
  | ok a s' => rw [hq] at this; simp only [NRes.ok.injEq] at this; rw [show (NRes.ok a s').state = s' from rfl, this.2]; rfl
  | stop a s' => rw [hq] at this; simp only [NRes.stop.injEq] at this; rw [show (NRes.stop a s').state = s' from rfl, this.2]; rfl

/-- Code that ignores the exports runs alike. -/
theorem Blind.rel {α : Type} {m : NM α} (hb : Blind m) (he : Eats m) :
    Rel (AlikeP I) (AlikeP I) Eq m m := by
  refine ⟨fun s t h => ?_⟩
  obtain ⟨h, h0⟩ := h
  have h1 := hb.h s t.servers
  rw [← h.eq'] at h1
  have h2 := he.h s
  have h3 := hb.servers s
  cases hq : m s with
  | ok a s' =>
    rw [hq] at h1 h2 h3
    simp only [NRes.state] at h2 h3
    refine .inl ⟨a, a, s', _, rfl, h1, rfl, ⟨rfl, ?_, fun _ => h2.1.trans (h.inp h0)⟩, by rw [h2.2, h0]⟩
    rw [h3]; exact h.same
  | stop a s' =>
    rw [hq] at h1 h2 h3
    simp only [NRes.state] at h2 h3
    refine .inr ⟨a, s', _, rfl, h1, ⟨rfl, ?_, fun _ => h2.1.trans (h.inp h0)⟩, by rw [h2.2, h0]⟩
    rw [h3]; exact h.same

theorem sendList_filter (e : Endian) (tls : Bool) (svs : List SrvExport) :
    sendList e tls svs = sendList e tls (svs.filter (visible tls)) := by
  induction svs with
  | nil => rfl
  | cons sv svs ih =>
    rw [List.filter_cons]
    by_cases h : visible tls sv = true
    · rw [if_pos h, sendList, sendList]; simp only [h, if_true, ih]
    · rw [if_neg h, sendList, if_neg h, ih]

theorem Blind.sendList (e : Endian) (tls : Bool) (svs : List SrvExport) : Blind (sendList e tls svs) := by
  induction svs with
  | nil => exact Blind.pure _
  | cons sv svs ih =>
    unfold Nbd.sendList
    simp only []
    split
    · split
      · exact (Blind.stop _).bind fun _ => (Blind.sendReply ..).bind fun _ => ih
      · exact (Blind.sendReply ..).bind fun _ => ih
    · exact ih

theorem Blind.infoName (e : Endian) (env : NEnv) (opt namelen : Nat) : Blind (infoName e env opt namelen) := by
  unfold Nbd.infoName
  split
  · split
    · split
      · exact Blind.stop _
      · exact (Blind.recv _).bind fun _ => Blind.pure _
    · exact (Blind.sendReply ..).bind fun _ => Blind.pure _
  · exact Blind.pure _

/-- What the lookup of INFO and GO depends on. -/
theorem infoLookup_eq (tls : Bool) (name : List Byte) (svs : List SrvExport) (found : Option SrvExport)
    (err : UInt32 × List Byte) :
    infoLookup tls name svs found err =
      ((infoLookup tls name (svs.filter (visible tls)) found err).1,
        if svs.any (fun sv => !visible tls sv && sv.name == name) then
          (REP_ERR_TLS_REQD, ascii "TLS is required for that export") else err) := by
  induction svs generalizing found err with
  | nil => simp [infoLookup]
  | cons sv svs ih =>
    rw [infoLookup, List.filter_cons, List.any_cons]
    have herr : ∀ (l : List SrvExport) (f : Option SrvExport) (e1 e2 : UInt32 × List Byte),
        (infoLookup tls name l f e1).1 = (infoLookup tls name l f e2).1 := by
      intro l
      induction l with
      | nil => intros; rfl
      | cons x l ihl =>
        intro f e1 e2
        rw [infoLookup, infoLookup]
        split
        · split
          · exact ihl ..
          · exact ihl ..
        · exact ihl ..
    by_cases hn : (sv.name == name) = true
    · rw [if_pos hn]
      by_cases hv : visible tls sv = true
      · rw [if_pos hv, ih, if_pos hv, infoLookup, if_pos hn, if_pos hv]
        simp [hv]
      · rw [if_neg hv, ih, if_neg hv, herr _ _ _ err]
        simp only [Bool.not_eq_true] at hv
        simp [hn, hv]
    · rw [if_neg hn, ih]
      simp only [Bool.not_eq_true] at hn
      rw [hn]
      by_cases hv : visible tls sv = true
      · rw [if_pos hv, infoLookup, hn]; simp
      · rw [if_neg hv]; simp

theorem hiddenName_iff (svs : List SrvExport) (name : List Byte) :
    svs.any (fun sv => !visible false sv && sv.name == name) = true ↔ HiddenName svs name := by
  simp only [List.any_eq_true, Bool.and_eq_true, Bool.not_eq_true', beq_iff_eq, HiddenName]
  constructor
  · rintro ⟨sv, h1, h2, h3⟩
    refine ⟨sv, h1, ?_, h3⟩
    unfold visible at h2; simpa using h2
  · rintro ⟨sv, h1, h2, h3⟩
    exact ⟨sv, h1, by unfold visible; simpa using h2, h3⟩

theorem infoLookup_same {svs svs' : List SrvExport} (h : SameVisible I svs svs') (name : List Byte)
    (hn : name <:+: I) (found : Option SrvExport) (err : UInt32 × List Byte) :
    infoLookup false name svs found err = infoLookup false name svs' found err := by
  rw [infoLookup_eq, infoLookup_eq false name svs', h.vis]
  have h1 := h.names name hn
  rw [← hiddenName_iff, ← hiddenName_iff] at h1
  by_cases h2 : svs.any (fun sv => !visible false sv && sv.name == name) = true
  · rw [if_pos h2, if_pos (h1.mp h2)]
  · rw [if_neg h2, if_neg (fun h => h2 (h1.mpr h))]

theorem find_same {svs svs' : List SrvExport} (h : SameVisible I svs svs') (name : List Byte) :
    svs.find? (fun sv => visible false sv && sv.name == name) =
    svs'.find? (fun sv => visible false sv && sv.name == name) := by
  have key : ∀ l : List SrvExport, l.find? (fun sv => visible false sv && sv.name == name) =
      (l.filter (visible false)).find? (fun sv => sv.name == name) := by
    intro l
    induction l with
    | nil => rfl
    | cons x l ih =>
      rw [List.find?_cons, List.filter_cons]
      cases hv : visible false x
      · simpa using ih
      · simp only [Bool.true_and, if_true, List.find?_cons]
        split
        · rfl
        · exact ih
  rw [key, key, h.vis]

theorem has_markRo (flags : Nat) :
    has (flags ||| F_AUTOREADONLY ||| F_READONLY) F_FORCEDTLS = has flags F_FORCEDTLS := by
  have : (flags ||| F_AUTOREADONLY ||| F_READONLY) &&& F_FORCEDTLS = flags &&& F_FORCEDTLS := by
    apply Nat.eq_of_testBit_eq
    intro i
    rw [show F_FORCEDTLS = 2 ^ 14 from rfl, show F_AUTOREADONLY = 2 ^ 3 from rfl, show F_READONLY = 2 ^ 0 from rfl]
    simp only [Nat.testBit_and, Nat.testBit_or, Nat.testBit_two_pow]
    by_cases h : 14 = i
    · subst h; simp
    · simp [h]
  unfold has
  rw [this]

theorem filter_markRo (id : Nat) (svs : List SrvExport) :
    (markRo id svs).filter (visible false) = markRo id (svs.filter (visible false)) := by
  unfold markRo
  rw [List.filter_map]
  congr 1
  apply List.filter_congr
  intro x _
  simp only [Function.comp]
  split
  · unfold visible; simp only []; rw [has_markRo]
  · rfl

theorem hiddenName_markRo (id : Nat) (svs : List SrvExport) (name : List Byte) :
    HiddenName (markRo id svs) name ↔ HiddenName svs name := by
  unfold HiddenName markRo
  simp only [List.mem_map]
  constructor
  · rintro ⟨sv, ⟨x, hx, rfl⟩, h2, h3⟩
    refine ⟨x, hx, ?_, ?_⟩
    · split at h2
      · rwa [has_markRo] at h2
      · exact h2
    · split at h3 <;> exact h3
  · rintro ⟨sv, hx, h2, h3⟩
    refine ⟨_, ⟨sv, hx, rfl⟩, ?_, ?_⟩
    · split
      · rw [has_markRo]; exact h2
      · exact h2
    · split <;> exact h3

theorem SameVisible.markRo {svs svs' : List SrvExport} (h : SameVisible I svs svs') (id : Nat) :
    SameVisible I (markRo id svs) (markRo id svs') := by
  refine ⟨by rw [filter_markRo, filter_markRo, h.vis], fun name hn => ?_⟩
  rw [hiddenName_markRo, hiddenName_markRo]; exact h.names name hn

theorem AlikeP.upd {s t : NState} (h : AlikeP I s t) (f : NState → NState) (ro : Bool) (id : Nat)
    (hf : ∀ x : NState, (f x).servers = if ro then Nbd.markRo id x.servers else x.servers)
    (hf' : ∀ (x : NState) svs, (f (x.withServers svs)).withServers [] = (f x).withServers [])
    (hinp : ∀ x : NState, (f x).inp = x.inp ∧ (f x).tls = x.tls) : AlikeP I (f s) (f t) := by
  obtain ⟨h, h0⟩ := h
  refine ⟨⟨?_, ?_, ?_⟩, by rw [(hinp s).2, h0]⟩
  · have h1 := hf' s t.servers
    rw [← h.eq'] at h1
    have h2 : (f t) = ((f t).withServers []).withServers (f t).servers := rfl
    rw [h1] at h2
    exact h2
  · rw [hf, hf]
    cases ro
    · exact h.same
    · exact h.same.markRo id
  · rw [(hinp s).1, (hinp s).2]; exact h.inp

theorem commitClient_rel (env : NEnv) (cf : NConf) (sv : SrvExport) :
    Rel (AlikeP I) (AlikeP I) Eq (commitClient env cf sv) (commitClient env cf sv) := by
  unfold commitClient
  have hid : ∀ s t : NState, AlikeP I s t → AlikeP I s t := fun _ _ h => h
  refine Rel.get.bind hid fun s t hst => ?_
  have hc : t.commits = s.commits := by rw [hst.1.eq']; rfl
  rw [hc]
  simp only []
  refine (Rel.modify fun s t h => ?_).bind hid fun _ _ _ => ?_
  · exact h.upd (fun s => { s with server := some sv, exportsize := OFFT_MAX, commits := s.commits + 1 })
      false 0 (fun _ => rfl) (fun _ _ => rfl) (fun _ => ⟨rfl, rfl⟩)
  generalize env.attempt s.commits sv = at'
  have hrest : Rel (AlikeP I) (AlikeP I) Eq
      (do
        if has sv.flags F_WAIT && !at'.threadOk then
          NM.modify fun s => { s with exportsize := sv.expected }
          return none
        match setupExport sv.flags sv.expected at'.exportname at'.probes with
        | none =>
          NM.modify fun s => { s with
            exportsize := at'.leftSize
            servers := if at'.leftRo then Nbd.markRo sv.id s.servers else s.servers }
          return none
        | some ex =>
          NM.modify fun s => { s with
            exportsize := ex.exportsize
            ex := some ex
            server := some { sv with flags := ex.flags }
            servers := if ex.flags ≠ sv.flags then Nbd.markRo sv.id s.servers else s.servers }
          if (has ex.flags F_COPYONWRITE || has ex.flags F_WAIT) && !at'.diffOk then NM.stop .exited
          return some { sv with flags := ex.flags } : NM (Option SrvExport)) 
      (do
        if has sv.flags F_WAIT && !at'.threadOk then
          NM.modify fun s => { s with exportsize := sv.expected }
          return none
        match setupExport sv.flags sv.expected at'.exportname at'.probes with
        | none =>
          NM.modify fun s => { s with
            exportsize := at'.leftSize
            servers := if at'.leftRo then Nbd.markRo sv.id s.servers else s.servers }
          return none
        | some ex =>
          NM.modify fun s => { s with
            exportsize := ex.exportsize
            ex := some ex
            server := some { sv with flags := ex.flags }
            servers := if ex.flags ≠ sv.flags then Nbd.markRo sv.id s.servers else s.servers }
          if (has ex.flags F_COPYONWRITE || has ex.flags F_WAIT) && !at'.diffOk then NM.stop .exited
          return some { sv with flags := ex.flags } : NM (Option SrvExport)) := by
    split
    · refine (Rel.modify fun s t h => ?_).bind hid fun _ _ _ => Rel.pure hid rfl
      exact h.upd (fun s => { s with exportsize := sv.expected }) false 0 (fun _ => rfl) (fun _ _ => rfl)
        (fun _ => ⟨rfl, rfl⟩)
    · split
      · refine (Rel.modify fun s t h => ?_).bind hid fun _ _ _ => Rel.pure hid rfl
        exact h.upd (fun s => { s with
          exportsize := at'.leftSize
          servers := if at'.leftRo then Nbd.markRo sv.id s.servers else s.servers }) at'.leftRo sv.id
          (fun _ => rfl) (fun _ _ => rfl) (fun _ => ⟨rfl, rfl⟩)
      · rename_i ex _
        refine (Rel.modify fun s t h => ?_).bind hid fun _ _ _ => ?_
        · exact h.upd (fun s => { s with
            exportsize := ex.exportsize
            ex := some ex
            server := some { sv with flags := ex.flags }
            servers := if ex.flags ≠ sv.flags then Nbd.markRo sv.id s.servers else s.servers })
            (decide (ex.flags ≠ sv.flags)) sv.id (fun x => by simp only [decide_eq_true_eq]) (fun _ _ => rfl)
            (fun _ => ⟨rfl, rfl⟩)
        · split
          · exact (Rel.stop hid _).bind (Q := Eq) hid fun _ _ _ => Rel.pure hid rfl
          · exact Rel.pure hid rfl
  split
  · refine (Rel.stop hid _).bind (Q := Eq) hid fun _ _ _ => ?_
    repeat' first
      | exact hrest
      | exact Rel.pure hid rfl
      | split
  · repeat' first
      | exact hrest
      | exact Rel.pure hid rfl
      | split


theorem alikeP_alike (s t : NState) (h : AlikeP I s t) : Alike I s t := h.1

theorem cstr_infix (bs : List Byte) : cstr bs <:+: bs := (List.takeWhile_prefix _).isInfix

/-- Names read are parts of the input. -/
theorem recv_rel (n : Nat) : Rel (AlikeP I) (AlikeP I) (fun a b => a = b ∧ a <:+: I) (recv n) (recv n) := by
  refine ⟨fun s t h => ?_⟩
  rcases (Blind.recv n).rel (Eats.recv n) |>.h s t h with ⟨a, b, s', t', h1, h2, h3, h4⟩ | h
  · refine .inl ⟨a, b, s', t', h1, h2, ⟨h3, ?_⟩, h4⟩
    unfold recv at h1
    split at h1
    · cases h1
    · cases h1
      exact ((List.take_prefix _ _).isInfix).trans (h.1.inp h.2).isInfix
  · exact .inr h

theorem infoName_rel (e : Endian) (env : NEnv) (opt namelen : Nat) :
    Rel (AlikeP I) (AlikeP I) (fun a b => a = b ∧ ∀ n, a = some n → n <:+: I)
      (infoName e env opt namelen) (infoName e env opt namelen) := by
  have hid : ∀ s t : NState, AlikeP I s t → AlikeP I s t := fun _ _ h => h
  unfold infoName
  split
  · split
    · split
      · exact Rel.stop hid _
      · refine (recv_rel _).bind hid fun a b h => Rel.pure hid ?_
        refine ⟨by rw [h.1], fun n hn => ?_⟩
        cases hn
        exact (cstr_infix _).trans h.2
    · refine (Blind.rel (Blind.sendReply ..) (Eats.sendReply ..)).bind hid fun _ _ _ => Rel.pure hid ?_
      exact ⟨rfl, by simp⟩
  · exact Rel.pure hid ⟨rfl, fun n hn => by cases hn; exact List.nil_infix⟩

theorem handleExportName_rel (e : Endian) (env : NEnv) (cf : NConf) :
    Rel (AlikeP I) (AlikeP I) Eq (handleExportName e env cf) (handleExportName e env cf) := by
  have hid : ∀ s t : NState, AlikeP I s t → AlikeP I s t := fun _ _ h => h
  unfold handleExportName
  refine (Blind.rel (Blind.recv32 e) (Eats.recv32 e)).bind hid fun namelen _ h => ?_
  subst h
  simp only []
  have hrest : Rel (AlikeP I) (AlikeP I) Eq
      (do
        let name := cstr (← recv namelen)
        let s ← NM.get
        match s.servers.find? (fun sv => visible s.tls sv && sv.name == name) with
        | none => NM.stop .exited
        | some sv =>
          match ← commitClient env cf sv with
          | none => NM.stop .closed
          | some sv =>
            sendExportInfo e sv true
            NM.stop .serving : NM Unit)
      (do
        let name := cstr (← recv namelen)
        let s ← NM.get
        match s.servers.find? (fun sv => visible s.tls sv && sv.name == name) with
        | none => NM.stop .exited
        | some sv =>
          match ← commitClient env cf sv with
          | none => NM.stop .closed
          | some sv =>
            sendExportInfo e sv true
            NM.stop .serving : NM Unit) := by
    refine (recv_rel _).bind hid fun a b h => ?_
    obtain ⟨rfl, -⟩ := h
    simp only []
    refine Rel.get.bind hid fun s t hst => ?_
    have ht : t.tls = false := by rw [hst.1.eq']; exact hst.2
    rw [hst.2, ht, find_same hst.1.same]
    split
    · exact Rel.stop hid _
    · refine (commitClient_rel env cf _).bind hid fun a b h => ?_
      subst h
      split
      · exact Rel.stop hid _
      · exact (Blind.rel (Blind.sendExportInfo ..) (Eats.sendExportInfo ..)).bind hid fun _ _ _ => Rel.stop hid _
  split
  · exact (Rel.stop hid _).bind (Q := Eq) hid fun _ _ _ => hrest
  · exact hrest

theorem handleList_rel (e : Endian) (cf : NConf) :
    Rel (AlikeP I) (AlikeP I) Eq (handleList e cf) (handleList e cf) := by
  have hid : ∀ s t : NState, AlikeP I s t → AlikeP I s t := fun _ _ h => h
  have hsr : ∀ opt ty d, Rel (AlikeP I) (AlikeP I) Eq (sendReply e opt ty d) (sendReply e opt ty d) :=
    fun _ _ _ => Blind.rel (Blind.sendReply ..) (Eats.sendReply ..)
  unfold handleList
  refine (Blind.rel (Blind.recv32 e) (Eats.recv32 e)).bind hid fun len _ h => ?_
  subst h
  simp only []
  have hrest : Rel (AlikeP I) (AlikeP I) Eq
      (if (!cf.list) = true then
        sendReply e OPT_LIST REP_ERR_POLICY (ascii "Listing of exports denied by server configuration")
      else do
        let s ← NM.get
        sendList e s.tls s.servers
        sendReply e OPT_LIST REP_ACK [])
      (if (!cf.list) = true then
        sendReply e OPT_LIST REP_ERR_POLICY (ascii "Listing of exports denied by server configuration")
      else do
        let s ← NM.get
        sendList e s.tls s.servers
        sendReply e OPT_LIST REP_ACK []) := by
    split
    · exact hsr ..
    · refine Rel.get.bind hid fun s t hst => ?_
      have ht : t.tls = false := by rw [hst.1.eq']; exact hst.2
      rw [hst.2, ht, sendList_filter, hst.1.same.vis, ← sendList_filter]
      exact (Blind.rel (Blind.sendList ..) (Eats.sendList ..)).bind hid fun _ _ _ => hsr ..
  split
  · exact (hsr ..).bind hid fun _ _ _ => hrest
  · exact hrest

theorem handleInfo_rel (e : Endian) (env : NEnv) (cf : NConf) (opt : Nat) :
    Rel (AlikeP I) (AlikeP I) Eq (handleInfo e env cf opt) (handleInfo e env cf opt) := by
  have hid : ∀ s t : NState, AlikeP I s t → AlikeP I s t := fun _ _ h => h
  have hsr : ∀ opt ty d, Rel (AlikeP I) (AlikeP I) Eq (sendReply e opt ty d) (sendReply e opt ty d) :=
    fun _ _ _ => Blind.rel (Blind.sendReply ..) (Eats.sendReply ..)
  have hsk : ∀ n, Rel (AlikeP I) (AlikeP I) Eq (skip n) (skip n) :=
    fun _ => Blind.rel (Blind.skip _) (Eats.skip _)
  have hrq : ∀ sv n, Rel (AlikeP I) (AlikeP I) Eq (infoRequests e opt sv n false) (infoRequests e opt sv n false) :=
    fun _ _ => Blind.rel (Blind.infoRequests ..) (Eats.infoRequests ..)
  have hsi : ∀ sv r, Rel (AlikeP I) (AlikeP I) Eq (sendInfo e opt sv r) (sendInfo e opt sv r) :=
    fun _ _ => Blind.rel (Blind.sendInfo ..) (Eats.sendInfo ..)
  unfold handleInfo
  refine (Blind.rel (Blind.recv32 e) (Eats.recv32 e)).bind hid fun len _ h => ?_
  subst h
  refine (Blind.rel (Blind.recv32 e) (Eats.recv32 e)).bind hid fun namelen _ h => ?_
  subst h
  refine (Blind.rel (Blind.infoCheckLen ..) (Eats.infoCheckLen ..)).bind hid fun _ _ _ => ?_
  refine (Blind.rel (Blind.infoCheckName ..) (Eats.infoCheckName ..)).bind hid fun _ _ _ => ?_
  refine (infoName_rel ..).bind hid fun nm _ h => ?_
  obtain ⟨rfl, hn⟩ := h
  split
  · exact Rel.pure hid rfl
  · rename_i name
    refine Rel.get.bind hid fun s t hst => ?_
    have ht : t.tls = false := by rw [hst.1.eq']; exact hst.2
    refine (Blind.rel (Blind.recv16 e) (Eats.recv16 e)).bind hid fun n _ h => ?_
    subst h
    rw [hst.2, ht, infoLookup_same hst.1.same name (hn name rfl)]
    split
    · exact (hsk _).bind hid fun _ _ _ => hsr ..
    · rename_i sv _ _
      split
      · refine (commitClient_rel env cf _).bind hid fun a b h => ?_
        subst h
        split
        · exact (hsk _).bind hid fun _ _ _ => hsr ..
        · refine (hrq _ _).bind hid fun a b h => ?_
          subst h
          split
          · exact (hsi ..).bind hid fun _ _ _ => (hsr ..).bind hid fun _ _ _ => Rel.stop hid _
          · exact (hsr ..).bind hid fun _ _ _ => Rel.stop hid _
      · refine (hrq _ _).bind hid fun a b h => ?_
        subst h
        split
        · exact (hsi ..).bind hid fun _ _ _ => hsr ..
        · exact hsr ..

/-- STARTTLS itself also runs alike; afterwards TLS may be on. -/
theorem handleStarttls_rel (e : Endian) : Rel (AlikeP I) (Alike I) Eq (handleStarttls e) (handleStarttls e) := by
  refine ⟨fun s t h => ?_⟩
  obtain ⟨h, h0⟩ := h
  have h1 := (Blind.handleStarttls e).h s t.servers
  rw [← h.eq'] at h1
  have h3 := (Blind.handleStarttls e).servers s
  have hin : (handleStarttls e s).state.tls = false → (handleStarttls e s).state.inp <:+ s.inp := by
    unfold handleStarttls
    rw [bind_eq]
    have hr := (Eats.recv 4).h s
    cases hq : recv 4 s with
    | stop r s' => rw [hq] at hr; exact fun _ => hr.1
    | ok bs s' =>
      rw [hq] at hr
      simp only []
      have hrest : ∀ x : NState, ((do
          Nbd.sendReply e OPT_STARTTLS REP_ACK []
          let s ← NM.get
          match s.tlsIn with
          | none => NM.stop .closed
          | some inp =>
            NM.modify fun s => { s with tls := true, inp := inp, tlsIn := none, server := none, structured := false }
          : NM Unit) x).state.tls = false → ((do
          Nbd.sendReply e OPT_STARTTLS REP_ACK []
          let s ← NM.get
          match s.tlsIn with
          | none => NM.stop .closed
          | some inp =>
            NM.modify fun s => { s with tls := true, inp := inp, tlsIn := none, server := none, structured := false }
          : NM Unit) x).state.inp <:+ x.inp := by
        intro x
        rw [bind_eq]
        have hsr := (Eats.sendReply e OPT_STARTTLS REP_ACK []).h x
        cases hq : Nbd.sendReply e OPT_STARTTLS REP_ACK [] x with
        | stop r s' => rw [hq] at hsr; exact fun _ => hsr.1
        | ok bs s' =>
          rw [hq] at hsr
          simp only []
          rw [bind_ok (get_eq _)]
          cases htl : s'.tlsIn with
          | none => exact fun _ => hsr.1
          | some i => intro h; simp [modify_eq, NRes.state] at h
      split
      · intro ht
        have hE : Eats (do
            skip (if load e bs < 2 ^ 31 then load e bs else 2 ^ 64 - 2 ^ 32 + load e bs)
            sendReply e OPT_STARTTLS REP_ERR_INVALID (ascii "Sending a STARTTLS command with data is invalid")
            NM.stop .closed : NM Unit) :=
          (Eats.skip _).bind fun _ => (Eats.sendReply ..).bind fun _ => Eats.stop _
        refine List.IsSuffix.trans ?_ hr.1
        rw [bind_eq]
        have hsk := (Eats.skip (if load e bs < 2 ^ 31 then load e bs else 2 ^ 64 - 2 ^ 32 + load e bs)).h s'
        cases hq2 : skip (if load e bs < 2 ^ 31 then load e bs else 2 ^ 64 - 2 ^ 32 + load e bs) s' with
        | stop r s2 => rw [hq2] at hsk; exact hsk.1
        | ok a s2 =>
          rw [hq2] at hsk
          refine List.IsSuffix.trans ?_ hsk.1
          simp only []
          have hsr := (Eats.sendReply e OPT_STARTTLS REP_ERR_INVALID
            (ascii "Sending a STARTTLS command with data is invalid")).h s2
          rw [bind_eq]
          cases hq3 : sendReply e OPT_STARTTLS REP_ERR_INVALID
            (ascii "Sending a STARTTLS command with data is invalid") s2 with
          | stop r s3 => rw [hq3] at hsr; exact hsr.1
          | ok a s3 => rw [hq3] at hsr; simp only []; rw [bind_eq, stop_eq]; exact hsr.1
      · intro ht
        exact (hrest s' ht).trans hr.1
  cases hq : handleStarttls e s with
  | ok a s' =>
    rw [hq] at h1 hin h3
    simp only [NRes.state] at hin h3
    refine .inl ⟨a, a, s', _, rfl, h1, rfl, ⟨rfl, ?_, fun ht => (hin ht).trans (h.inp h0)⟩⟩
    rw [h3]; exact h.same
  | stop a s' =>
    rw [hq] at h1 hin h3
    simp only [NRes.state] at hin h3
    refine .inr ⟨a, s', _, rfl, h1, ⟨rfl, ?_, fun ht => (hin ht).trans (h.inp h0)⟩⟩
    rw [h3]; exact h.same

theorem oneOption_rel (e : Endian) (env : NEnv) (cf : NConf) :
    Rel (AlikeP I) (Alike I) Eq (oneOption e env cf) (oneOption e env cf) := by
  have hid : ∀ s t : NState, AlikeP I s t → AlikeP I s t := fun _ _ h => h
  have hw : ∀ s t : NState, AlikeP I s t → Alike I s t := fun _ _ h => h.1
  have hsr : ∀ opt ty d, Rel (AlikeP I) (AlikeP I) Eq (sendReply e opt ty d) (sendReply e opt ty d) :=
    fun _ _ _ => Blind.rel (Blind.sendReply ..) (Eats.sendReply ..)
  have hcl : Rel (AlikeP I) (AlikeP I) Eq (consumeLen e) (consumeLen e) :=
    Blind.rel (Blind.consumeLen _) (Eats.consumeLen _)
  have hcr : ∀ opt ty d, Rel (AlikeP I) (Alike I) Eq (do consumeLen e; sendReply e opt ty d)
      (do consumeLen e; sendReply e opt ty d) :=
    fun _ _ _ => hcl.bind hw fun _ _ _ => (hsr ..).weaken hw
  unfold oneOption
  refine (Blind.rel (Blind.recv 8) (Eats.recv 8)).bind hw fun m _ h => ?_
  subst h
  simp only []
  have hrest : Rel (AlikeP I) (Alike I) Eq
      (do
        let opt ← recv32 e
        let s ← NM.get
        if !s.tls && cf.forcedTls && opt ≠ OPT_STARTTLS then
          if opt = OPT_EXPORT_NAME then NM.stop .closed
          if opt = OPT_ABORT then NM.stop .closed
          consumeLen e
          sendReply e opt REP_ERR_TLS_REQD (ascii "TLS is required on this server")
        else dispatch e env cf opt)
      (do
        let opt ← recv32 e
        let s ← NM.get
        if !s.tls && cf.forcedTls && opt ≠ OPT_STARTTLS then
          if opt = OPT_EXPORT_NAME then NM.stop .closed
          if opt = OPT_ABORT then NM.stop .closed
          consumeLen e
          sendReply e opt REP_ERR_TLS_REQD (ascii "TLS is required on this server")
        else dispatch e env cf opt) := by
    refine (Blind.rel (Blind.recv32 e) (Eats.recv32 e)).bind hw fun opt _ h => ?_
    subst h
    refine Rel.get.bind hw fun s t hst => ?_
    have ht : t.tls = false := by rw [hst.1.eq']; exact hst.2
    rw [hst.2, ht]
    split
    · simp only []
      split
      · refine (Rel.stop hid _).bind (Q := Eq) hw fun _ _ _ => ?_
        split
        · exact (Rel.stop hid _).bind (Q := Eq) hw fun _ _ _ => hcr ..
        · exact hcr ..
      · split
        · exact (Rel.stop hid _).bind (Q := Eq) hw fun _ _ _ => hcr ..
        · exact hcr ..
    · unfold dispatch
      split
      · exact (handleExportName_rel e env cf).weaken hw
      · split
        · exact (handleList_rel e cf).weaken hw
        · split
          · exact Rel.stop hw _
          · split
            · refine Rel.get.bind hw fun s t hst => ?_
              have ht : t.tls = false := by rw [hst.1.eq']; exact hst.2
              rw [hst.2, ht]
              split
              · exact hcr ..
              · split
                · exact hcr ..
                · exact handleStarttls_rel e
            · split
              · exact (handleInfo_rel e env cf opt).weaken hw
              · split
                · exact (Blind.rel (Blind.handleStructuredReply e) (Eats.handleStructuredReply e)).weaken hw
                · exact hcr ..
  split
  · exact (Rel.stop hid _).bind (Q := Eq) hw fun _ _ _ => hrest
  · exact hrest

end Nbd
