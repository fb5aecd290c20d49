import Verif.NegoRel
import Verif.SetupLemmas
/-!
# Pre- and postconditions for negotiation code
-/

set_option autoImplicit false

namespace Nbd

open NM

/-- From a state satisfying `P`, `m` goes on with `Q` or ends with `E`. -/
structure Hoare (P : NState → Prop) {α : Type} (m : NM α) (Q : α → NState → Prop)
    (E : NEnd → NState → Prop) : Prop where
  h : ∀ s, P s → match m s with
    | .ok a s' => Q a s'
    | .stop r s' => E r s'

section

variable {P : NState → Prop} {E : NEnd → NState → Prop}

theorem Hoare.bind {α β : Type} {m : NM α} {f : α → NM β} {Q : α → NState → Prop} {Q' : β → NState → Prop}
    (hm : Hoare P m Q E) (hf : ∀ a, Hoare (Q a) (f a) Q' E) : Hoare P (m >>= f) Q' E := by
  refine ⟨fun s hs => ?_⟩
  have h := hm.h s hs
  rw [bind_eq]
  cases hq : m s with
  | ok a s' => rw [hq] at h; exact (hf a).h s' h
  | stop r s' => rw [hq] at h; exact h

theorem Hoare.pure {α : Type} {a : α} {Q : α → NState → Prop} (h : ∀ s, P s → Q a s) :
    Hoare P (Pure.pure a : NM α) Q E := ⟨fun s hs => h s hs⟩

theorem Hoare.stop {α : Type} {r : NEnd} {Q : α → NState → Prop} (h : ∀ s, P s → E r s) :
    Hoare P (NM.stop r : NM α) Q E := ⟨fun s hs => h s hs⟩

theorem Hoare.get {Q : NState → NState → Prop} (h : ∀ s, P s → Q s s) : Hoare P NM.get Q E := ⟨fun s hs => h s hs⟩

theorem Hoare.modify {f : NState → NState} {Q : Unit → NState → Prop} (h : ∀ s, P s → Q () (f s)) :
    Hoare P (NM.modify f) Q E := ⟨fun s hs => h s hs⟩

theorem Hoare.weaken {α : Type} {m : NM α} {Q Q' : α → NState → Prop} {P' : NState → Prop} {E' : NEnd → NState → Prop}
    (h : Hoare P m Q E) (hp : ∀ s, P' s → P s) (hq : ∀ a s, Q a s → Q' a s) (he : ∀ r s, E r s → E' r s) :
    Hoare P' m Q' E' := by
  refine ⟨fun s hs => ?_⟩
  have := h.h s (hp s hs)
  cases hm : m s with
  | ok a s' => rw [hm] at this; exact hq _ _ this
  | stop r s' => rw [hm] at this; exact he _ _ this

end

theorem Hoare.state {P : NState → Prop} {α : Type} {m : NM α} {R : NState → Prop}
    (h : Hoare P m (fun _ => R) (fun _ => R)) (s : NState) (hs : P s) : R (m s).state := by
  have := h.h s hs
  cases hm : m s with
  | ok a s' => rw [hm] at this; exact this
  | stop r s' => rw [hm] at this; exact this

/-- A property of the state that the basic steps keep. -/
structure Stable (P : NState → Prop) : Prop where
  heard : ∀ s n, P s → P { s with inp := s.inp.drop n }
  said : ∀ s bs, P s → P (s.said bs)

section

variable {P : NState → Prop} {E : NEnd → NState → Prop} (st : Stable P)
  (hE : ∀ r s, r ≠ .serving → r ≠ .ub → P s → E r s)

include hE

theorem Hoare.stop' {α : Type} {r : NEnd} {Q : α → NState → Prop} (hr : r ≠ .serving ∧ r ≠ .ub) :
    Hoare P (NM.stop r : NM α) Q E := Hoare.stop fun s hs => hE r s hr.1 hr.2 hs

include st

theorem Hoare.recv (n : Nat) : Hoare P (recv n) (fun _ => P) E := by
  refine ⟨fun s hs => ?_⟩
  unfold Nbd.recv
  by_cases h : s.inp.length < n
  · rw [if_pos h]; exact hE _ s (by decide) (by decide) hs
  · rw [if_neg h]; exact st.heard s n hs

theorem Hoare.skip (n : Nat) : Hoare P (skip n) (fun _ => P) E := by
  refine ⟨fun s hs => ?_⟩
  unfold Nbd.skip
  by_cases h : s.inp.length < n
  · rw [if_pos h]; exact hE _ s (by decide) (by decide) hs
  · rw [if_neg h]; exact st.heard s n hs

omit hE in
theorem Hoare.send (bs : List Byte) : Hoare P (send bs) (fun _ => P) E :=
  ⟨fun s hs => by rw [send_eq]; exact st.said s bs hs⟩

theorem Hoare.recv32 (e : Endian) : Hoare P (recv32 e) (fun _ => P) E :=
  (Hoare.recv st hE 4).bind fun _ => Hoare.pure fun _ h => h

theorem Hoare.recv16 (e : Endian) : Hoare P (recv16 e) (fun _ => P) E :=
  (Hoare.recv st hE 2).bind fun _ => Hoare.pure fun _ h => h

theorem Hoare.consumeLen (e : Endian) : Hoare P (consumeLen e) (fun _ => P) E :=
  (Hoare.recv32 st hE e).bind fun _ => Hoare.skip st hE _

omit hE in
theorem Hoare.sendReply (e : Endian) (opt : Nat) (t : UInt32) (d : List Byte) :
    Hoare P (sendReply e opt t d) (fun _ => P) E := Hoare.send st _

omit hE in
theorem Hoare.sendExportInfo (e : Endian) (sv : SrvExport) (z : Bool) :
    Hoare P (sendExportInfo e sv z) (fun _ => P) E := by
  refine (Hoare.get (Q := fun _ => P) fun _ h => h).bind fun s =>
    (Hoare.send st _).bind fun _ => (Hoare.send st _).bind fun _ => ?_
  split
  · exact Hoare.send st _
  · exact Hoare.pure fun _ h => h

omit hE in
theorem Hoare.sendInfo (e : Endian) (opt : Nat) (sv : SrvExport) (r : List Byte) :
    Hoare P (sendInfo e opt sv r) (fun _ => P) E :=
  (Hoare.send st _).bind fun _ => (Hoare.send st _).bind fun _ => Hoare.sendExportInfo st ..

theorem Hoare.infoRequests (e : Endian) (opt : Nat) (sv : SrvExport) (n : Nat) (b : Bool) :
    Hoare P (infoRequests e opt sv n b) (fun _ => P) E := by
  induction n generalizing b with
  | zero => exact Hoare.pure fun _ h => h
  | succ n ih =>
    refine (Hoare.recv st hE 2).bind fun _ => ?_
    split
    · exact (Hoare.sendInfo st ..).bind fun _ => ih _
    · exact ih _

theorem Hoare.infoCheckLen (e : Endian) (opt len namelen : Nat) :
    Hoare P (infoCheckLen e opt len namelen) (fun _ => P) E := by
  unfold Nbd.infoCheckLen
  split
  · exact (Hoare.sendReply st ..).bind fun _ => Hoare.skip st hE _
  · exact Hoare.pure fun _ h => h

theorem Hoare.infoCheckName (e : Endian) (opt namelen : Nat) :
    Hoare P (infoCheckName e opt namelen) (fun _ => P) E := by
  unfold Nbd.infoCheckName
  split
  · exact (Hoare.sendReply st ..).bind fun _ => Hoare.skip st hE _
  · exact Hoare.pure fun _ h => h

/-- Either undefined behaviour is allowed for, or the peer says less than 4 GiB and no export has a
name longer than 1020 bytes. -/
def Tame (P : NState → Prop) (E : NEnd → NState → Prop) : Prop :=
  (∀ s, P s → E .ub s) ∨ (∀ s, P s → s.inp.length < 2 ^ 32 - 1 ∧ ∀ sv ∈ s.servers, sv.name.length ≤ 1020)

omit st hE in
theorem Tame.mono {P' : NState → Prop} (hU : Tame P E) (h : ∀ s, P' s → P s) : Tame P' E := by
  rcases hU with hU | hU
  · exact .inl fun s hs => hU s (h s hs)
  · exact .inr fun s hs => hU s (h s hs)

theorem Hoare.infoCheckName' (hU : Tame P E) (e : Endian) (opt namelen : Nat) :
    Hoare P (Nbd.infoCheckName e opt namelen) (fun _ s => P s ∧ ((∀ s, P s → E .ub s) ∨ namelen + 1 ≠ 2 ^ 32)) E := by
  rcases hU with hU | hU
  · exact Hoare.weaken (Hoare.infoCheckName st hE e opt namelen) (fun _ h => h) (fun _ _ h => ⟨h, .inl hU⟩)
      (fun _ _ h => h)
  · unfold Nbd.infoCheckName
    split
    · refine (Hoare.sendReply st ..).bind fun _ => ⟨fun s hs => ?_⟩
      have hl := (hU s hs).1
      unfold Nbd.skip
      by_cases h : s.inp.length < namelen
      · rw [if_pos h]; exact hE _ s (by decide) (by decide) hs
      · rw [if_neg h]; exact ⟨st.heard s namelen hs, .inr (by omega)⟩
    · exact Hoare.pure fun _ h => ⟨h, .inr (by omega)⟩

theorem Hoare.infoName (e : Endian) (env : NEnv) (opt namelen : Nat) (hn : (∀ s, P s → E .ub s) ∨ namelen + 1 ≠ 2 ^ 32) :
    Hoare P (infoName e env opt namelen) (fun _ => P) E := by
  unfold Nbd.infoName
  split
  · split
    · split
      · exact Hoare.stop (hn.resolve_right fun h => h (by assumption))
      · exact (Hoare.recv st hE _).bind fun _ => Hoare.pure fun _ h => h
    · exact (Hoare.sendReply st ..).bind fun _ => Hoare.pure fun _ h => h
  · exact Hoare.pure fun _ h => h

omit hE in
theorem Hoare.sendList (e : Endian) (tls : Bool) (svs : List SrvExport)
    (hn : (∀ s, P s → E .ub s) ∨ ∀ sv ∈ svs, sv.name.length ≤ 1020) :
    Hoare P (sendList e tls svs) (fun _ => P) E := by
  induction svs with
  | nil => exact Hoare.pure fun _ h => h
  | cons sv svs ih =>
    have ih := ih (hn.imp_right fun h sv hsv => h sv (List.mem_cons_of_mem _ hsv))
    unfold Nbd.sendList
    simp only []
    split
    · split
      · exact (Hoare.stop (Q := fun _ => P) (hn.resolve_right fun h => by
          have := h sv List.mem_cons_self
          omega)).bind fun _ => (Hoare.sendReply st ..).bind fun _ => ih
      · exact (Hoare.sendReply st ..).bind fun _ => ih
    · exact ih

theorem Hoare.handleList (hU : Tame P E) (e : Endian) (cf : NConf) : Hoare P (handleList e cf) (fun _ => P) E := by
  unfold Nbd.handleList
  refine (Hoare.recv32 st hE e).bind fun len => ?_
  simp only []
  have hrest : Hoare P (if (!cf.list) = true then
        Nbd.sendReply e OPT_LIST REP_ERR_POLICY (ascii "Listing of exports denied by server configuration")
      else do
        let s ← NM.get
        Nbd.sendList e s.tls s.servers
        Nbd.sendReply e OPT_LIST REP_ACK []) (fun _ => P) E := by
    split
    · exact Hoare.sendReply st ..
    · refine Hoare.bind (Q := fun s s' => P s' ∧ P s) (Hoare.get fun _ h => ⟨h, h⟩) fun s => ?_
      refine ⟨fun s' h' => ?_⟩
      have hm : (∀ s, P s → E .ub s) ∨ ∀ sv ∈ s.servers, sv.name.length ≤ 1020 :=
        hU.imp_right fun h => (h s h'.2).2
      exact ((Hoare.sendList st e s.tls s.servers hm).bind fun _ => Hoare.sendReply st ..).h s' h'.1
  split
  · exact (Hoare.sendReply st ..).bind fun _ => hrest
  · exact hrest

theorem Hoare.handleStructuredReply (hstr : ∀ s, P s → P { s with structured := true }) (e : Endian) :
    Hoare P (handleStructuredReply e) (fun _ => P) E := by
  unfold Nbd.handleStructuredReply
  refine (Hoare.recv32 st hE e).bind fun _ => ?_
  split
  · exact (Hoare.sendReply st ..).bind fun _ => Hoare.skip st hE _
  · refine (Hoare.get (Q := fun _ => P) fun _ h => h).bind fun s => ?_
    split
    · exact Hoare.sendReply st ..
    · exact (Hoare.modify (Q := fun _ => P) hstr).bind fun _ => Hoare.sendReply st ..

theorem Hoare.handleStarttls (htls : ∀ s i, P s → s.tlsIn = some i → P { s with
      tls := true, inp := i, tlsIn := none, server := none, structured := false }) (e : Endian) :
    Hoare P (handleStarttls e) (fun _ => P) E := by
  unfold Nbd.handleStarttls
  refine (Hoare.recv st hE 4).bind fun bs => ?_
  simp only []
  have hrest : Hoare P (do
      Nbd.sendReply e OPT_STARTTLS REP_ACK []
      let s ← NM.get
      match s.tlsIn with
      | none => NM.stop .closed
      | some inp =>
        NM.modify fun s => { s with tls := true, inp := inp, tlsIn := none, server := none, structured := false })
      (fun _ => P) E := by
    refine (Hoare.sendReply st ..).bind fun _ =>
      (Hoare.get (Q := fun s s' => P s' ∧ s' = s) fun _ h => ⟨h, rfl⟩).bind fun s => ?_
    split
    · exact Hoare.stop fun s h => hE _ _ (by decide) (by decide) h.1
    · rename_i i hi
      exact Hoare.modify fun s h => htls _ _ h.1 (by rw [h.2]; exact hi)
  split
  · exact (Hoare.skip st hE _).bind fun _ => (Hoare.sendReply st ..).bind fun _ =>
      (Hoare.stop' hE (Q := fun _ => P) (by decide)).bind fun _ => hrest
  · exact hrest

omit st hE in
theorem infoLookup_mem (tls : Bool) (name : List Byte) (svs : List SrvExport) (found : Option SrvExport)
    (err : UInt32 × List Byte) (sv : SrvExport) (h : (infoLookup tls name svs found err).1 = some sv) :
    (sv ∈ svs ∧ visible tls sv = true ∧ sv.name = name) ∨ found = some sv := by
  induction svs generalizing found err with
  | nil => exact .inr h
  | cons x svs ih =>
    rw [infoLookup] at h
    split at h
    · rename_i hn
      split at h
      · rename_i hv
        rcases ih _ _ h with ⟨h1, h2, h3⟩ | h1
        · exact .inl ⟨List.mem_cons_of_mem _ h1, h2, h3⟩
        · cases h1; exact .inl ⟨List.mem_cons_self, hv, by simpa using hn⟩
      · rcases ih _ _ h with ⟨h1, h2, h3⟩ | h1
        · exact .inl ⟨List.mem_cons_of_mem _ h1, h2, h3⟩
        · exact .inr h1
    · rcases ih _ _ h with ⟨h1, h2, h3⟩ | h1
      · exact .inl ⟨List.mem_cons_of_mem _ h1, h2, h3⟩
      · exact .inr h1

/-- What has to be known about `commit_client`: `P` is kept, and `G` holds if it succeeds. -/
structure Commits (env : NEnv) (cf : NConf) (P : NState → Prop) (G : SrvExport → NState → Prop)
    (E : NEnd → NState → Prop) : Prop where
  commit : ∀ sv, Hoare (fun s => P s ∧ sv ∈ s.servers ∧ visible s.tls sv = true) (commitClient env cf sv)
    (fun r s => P s ∧ ∀ sv', r = some sv' → G sv' s) E
  stable : ∀ sv, Stable (fun s => P s ∧ G sv s)
  serve : ∀ sv s, P s → G sv s → E .serving s

variable {env : NEnv} {cf : NConf} {G : SrvExport → NState → Prop} (hc : Commits env cf P G E)

include hc

theorem Hoare.handleExportName (e : Endian) : Hoare P (handleExportName e env cf) (fun _ => P) E := by
  unfold Nbd.handleExportName
  refine (Hoare.recv32 st hE e).bind fun namelen => ?_
  simp only []
  have hrest : Hoare P
      (do
        let name := cstr (← Nbd.recv namelen)
        let s ← NM.get
        match s.servers.find? (fun sv => visible s.tls sv && sv.name == name) with
        | none => NM.stop .exited
        | some sv =>
          match ← commitClient env cf sv with
          | none => NM.stop .closed
          | some sv =>
            Nbd.sendExportInfo e sv true
            NM.stop .serving : NM Unit) (fun _ => P) E := by
    refine (Hoare.recv st hE _).bind fun bs => ?_
    simp only []
    refine (Hoare.get (Q := fun s s' => P s ∧ s' = s) fun _ h => ⟨h, rfl⟩).bind fun s => ?_
    split
    · exact Hoare.stop fun s' h => hE _ _ (by decide) (by decide) (by rw [h.2]; exact h.1)
    · rename_i sv hsv
      have hmem := List.mem_of_find?_eq_some hsv
      have hp := List.find?_some hsv
      simp only [Bool.and_eq_true] at hp
      refine Hoare.bind (Hoare.weaken (hc.commit sv) (fun s' h => ?_) (fun _ _ h => h) (fun _ _ h => h)) fun r => ?_
      · rw [h.2]; exact ⟨h.1, hmem, hp.1⟩
      · split
        · exact Hoare.stop fun s' h => hE _ _ (by decide) (by decide) h.1
        · rename_i sv'
          refine Hoare.bind (Q := fun _ s => P s ∧ G sv' s) (Hoare.weaken (Hoare.sendExportInfo (hc.stable sv') ..)
            (fun s' h => ?_) (fun _ _ h => h) (fun _ _ h => h)) fun _ => ?_
          · exact ⟨h.1, h.2 sv' rfl⟩
          · exact Hoare.stop fun s' h => hc.serve sv' s' h.1 h.2
  split
  · exact (Hoare.stop' hE (Q := fun _ => P) (by decide)).bind fun _ => hrest
  · exact hrest

theorem Hoare.handleInfo (hU : Tame P E) (e : Endian) (opt : Nat) : Hoare P (handleInfo e env cf opt) (fun _ => P) E := by
  unfold Nbd.handleInfo
  refine (Hoare.recv32 st hE e).bind fun len => ?_
  refine (Hoare.recv32 st hE e).bind fun namelen => ?_
  refine (Hoare.infoCheckLen st hE ..).bind fun _ => ?_
  refine (Hoare.infoCheckName' st hE hU ..).bind fun _ => ?_
  refine Hoare.bind (Q := fun _ => P) ⟨fun s h => (Hoare.infoName st hE e env opt namelen h.2).h s h.1⟩ fun nm => ?_
  split
  · exact Hoare.pure fun _ h => h
  · rename_i name
    refine (Hoare.get (Q := fun s s' => P s' ∧ s'.servers = s.servers ∧ s'.tls = s.tls)
      fun _ h => ⟨h, rfl, rfl⟩).bind fun s => ?_
    have st2 : Stable (fun s' => P s' ∧ s'.servers = s.servers ∧ s'.tls = s.tls) :=
      ⟨fun s' n h => ⟨st.heard _ _ h.1, h.2⟩, fun s' bs h => ⟨st.said _ _ h.1, by simpa using h.2⟩⟩
    have hE2 : ∀ r s', r ≠ .serving → r ≠ .ub → (P s' ∧ s'.servers = s.servers ∧ s'.tls = s.tls) → E r s' :=
      fun r s' hr hu h => hE r s' hr hu h.1
    refine (Hoare.recv16 st2 hE2 e).bind fun n => ?_
    split
    · refine Hoare.weaken (P := P) ?_ (fun _ h => h.1) (fun _ _ h => h) (fun _ _ h => h)
      exact (Hoare.skip st hE _).bind fun _ => Hoare.sendReply st ..
    · rename_i sv err hsv
      have hmem := infoLookup_mem s.tls name s.servers none _ sv (by rw [hsv])
      rcases hmem with hmem | hmem
      · split
        · refine Hoare.bind (Hoare.weaken (hc.commit sv) (fun s' h => ?_) (fun _ _ h => h) (fun _ _ h => h)) fun r => ?_
          · rw [h.2.1, h.2.2]; exact ⟨h.1, hmem.1, hmem.2.1⟩
          · split
            · refine Hoare.weaken (P := P) ?_ (fun _ h => h.1) (fun _ _ h => h) (fun _ _ h => h)
              exact (Hoare.skip st hE _).bind fun _ => Hoare.sendReply st ..
            · rename_i sv'
              have st3 := hc.stable sv'
              have hE3 : ∀ r s', r ≠ .serving → r ≠ .ub → (P s' ∧ G sv' s') → E r s' :=
                fun r s' hr hu h => hE r s' hr hu h.1
              have hend : Hoare (fun s' => P s' ∧ G sv' s') (do
                  Nbd.sendReply e opt REP_ACK []
                  NM.stop .serving : NM Unit) (fun _ => P) E :=
                (Hoare.sendReply st3 ..).bind fun _ => Hoare.stop fun s' h => hc.serve sv' s' h.1 h.2
              refine Hoare.bind (Q := fun _ s' => P s' ∧ G sv' s') (Hoare.weaken (Hoare.infoRequests st3 hE3 ..)
                (fun s' h => ⟨h.1, h.2 sv' rfl⟩) (fun _ _ h => h) (fun _ _ h => h)) fun b => ?_
              simp only []
              split
              · exact (Hoare.sendInfo st3 ..).bind fun _ => hend
              · exact hend
        · refine Hoare.weaken (P := P) ?_ (fun _ h => h.1) (fun _ _ h => h) (fun _ _ h => h)
          refine (Hoare.infoRequests st hE ..).bind fun b => ?_
          simp only []
          split
          · exact (Hoare.sendInfo st ..).bind fun _ => Hoare.sendReply st ..
          · exact Hoare.sendReply st ..
      · cases hmem

theorem Hoare.dispatch (hU : Tame P E) (hstr : ∀ s, P s → P { s with structured := true })
    (htls : ∀ s i, P s → s.tlsIn = some i → P { s with
      tls := true, inp := i, tlsIn := none, server := none, structured := false })
    (e : Endian) (opt : Nat) : Hoare P (dispatch e env cf opt) (fun _ => P) E := by
  have hcr : ∀ opt ty d, Hoare P (do Nbd.consumeLen e; Nbd.sendReply e opt ty d) (fun _ => P) E :=
    fun _ _ _ => (Hoare.consumeLen st hE e).bind fun _ => Hoare.sendReply st ..
  unfold Nbd.dispatch
  split
  · exact Hoare.handleExportName st hE hc e
  · split
    · exact Hoare.handleList st hE hU e cf
    · split
      · exact Hoare.stop' hE (by decide)
      · split
        · refine (Hoare.get (Q := fun _ => P) fun _ h => h).bind fun s => ?_
          split
          · exact hcr ..
          · split
            · exact hcr ..
            · exact Hoare.handleStarttls st hE htls e
        · split
          · exact Hoare.handleInfo st hE hc hU e opt
          · split
            · exact Hoare.handleStructuredReply st hE hstr e
            · exact hcr ..

theorem Hoare.oneOption (hU : Tame P E) (hstr : ∀ s, P s → P { s with structured := true })
    (htls : ∀ s i, P s → s.tlsIn = some i → P { s with
      tls := true, inp := i, tlsIn := none, server := none, structured := false })
    (e : Endian) : Hoare P (oneOption e env cf) (fun _ => P) E := by
  have hcr : ∀ opt ty d, Hoare P (do Nbd.consumeLen e; Nbd.sendReply e opt ty d) (fun _ => P) E :=
    fun _ _ _ => (Hoare.consumeLen st hE e).bind fun _ => Hoare.sendReply st ..
  unfold Nbd.oneOption
  refine (Hoare.recv st hE 8).bind fun m => ?_
  simp only []
  have hrest : Hoare P (do
        let opt ← Nbd.recv32 e
        let s ← NM.get
        if !s.tls && cf.forcedTls && opt ≠ OPT_STARTTLS then
          if opt = OPT_EXPORT_NAME then NM.stop .closed
          if opt = OPT_ABORT then NM.stop .closed
          Nbd.consumeLen e
          Nbd.sendReply e opt REP_ERR_TLS_REQD (ascii "TLS is required on this server")
        else Nbd.dispatch e env cf opt) (fun _ => P) E := by
    refine (Hoare.recv32 st hE e).bind fun opt => ?_
    refine (Hoare.get (Q := fun _ => P) fun _ h => h).bind fun s => ?_
    split
    · simp only []
      have hab : Hoare P (if opt = OPT_ABORT then do
            NM.stop .closed
            Nbd.consumeLen e
            Nbd.sendReply e opt REP_ERR_TLS_REQD (ascii "TLS is required on this server")
          else do
            Nbd.consumeLen e
            Nbd.sendReply e opt REP_ERR_TLS_REQD (ascii "TLS is required on this server")) (fun _ => P) E := by
        split
        · exact (Hoare.stop' hE (Q := fun _ => P) (by decide)).bind fun _ => hcr ..
        · exact hcr ..
      split
      · exact (Hoare.stop' hE (Q := fun _ => P) (by decide)).bind fun _ => hab
      · exact hab
    · exact Hoare.dispatch st hE hc hU hstr htls e opt
  split
  · exact (Hoare.stop' hE (Q := fun _ => P) (by decide)).bind fun _ => hrest
  · exact hrest

theorem Hoare.optionLoop (hU : Tame P E) (hstr : ∀ s, P s → P { s with structured := true })
    (htls : ∀ s i, P s → s.tlsIn = some i → P { s with
      tls := true, inp := i, tlsIn := none, server := none, structured := false })
    (e : Endian) (n : Nat) : Hoare P (optionLoop e env cf n) (fun _ => P) E := by
  induction n with
  | zero => exact Hoare.stop' hE (by decide)
  | succ n ih => exact (Hoare.oneOption st hE hc hU hstr htls e).bind fun _ => ih

end

end Nbd
