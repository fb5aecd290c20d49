import Verif.NegoServe
/-!
# Whole option loops: what a plaintext peer can learn, forced TLS, undefined behaviour
-/

set_option autoImplicit false

namespace Nbd

open NM

/-! ### Two configurations -/

/-- The outcomes of two runs that differ in TLS-only exports. -/
structure SameSeen (r r' : NRes Unit) : Prop where
  plainOut : r'.state.plainOut = r.state.plainOut
  tls : r'.state.tls = r.state.tls
  rest : r.state.tls = false →
    r'.state.exportsize = r.state.exportsize ∧ r'.state.server = r.state.server ∧ r'.state.ex = r.state.ex ∧
    r'.state.structured = r.state.structured ∧
    (∀ a s, r = .stop a s → ∃ t, r' = .stop a t) ∧ (∀ a s, r = .ok a s → ∃ t, r' = .ok a t)

theorem Alike.seen {I : List Byte} {s t : NState} (h : Alike I s t) :
    t.plainOut = s.plainOut ∧ t.tls = s.tls ∧ t.exportsize = s.exportsize ∧ t.server = s.server ∧ t.ex = s.ex ∧
      t.structured = s.structured := by
  rw [h.eq']; exact ⟨rfl, rfl, rfl, rfl, rfl, rfl⟩

theorem loop_seen {I : List Byte} (e : Endian) (env : NEnv) (cf : NConf) (n : Nat) :
    ∀ s t, AlikeP I s t → SameSeen (optionLoop e env cf n s) (optionLoop e env cf n t) := by
  induction n with
  | zero =>
    intro s t h
    obtain ⟨h1, h2, h3, h4, h5, h6⟩ := h.1.seen
    exact ⟨h1, h2, fun _ => ⟨h3, h4, h5, h6, fun a s h => by cases h; exact ⟨t, rfl⟩, fun a s h => by cases h⟩⟩
  | succ n ih =>
    intro s t h
    show SameSeen ((oneOption e env cf >>= fun _ => optionLoop e env cf n) s)
      ((oneOption e env cf >>= fun _ => optionLoop e env cf n) t)
    rcases (oneOption_rel e env cf).h s t h with ⟨a, b, s', t', h1, h2, _, h4⟩ | ⟨r, s', t', h1, h2, h4⟩
    · rw [bind_ok h1, bind_ok h2]
      cases htls : s'.tls with
      | false => exact ih s' t' ⟨h4, htls⟩
      | true =>
        have hd := (dark_loop e env cf s'.plainOut n).state s' ⟨htls, rfl⟩
        have hd' := (dark_loop e env cf s'.plainOut n).state t' ⟨by rw [h4.seen.2.1, htls], h4.seen.1⟩
        exact ⟨by rw [hd.2, hd'.2], by rw [hd.1, hd'.1], fun h => by rw [hd.1] at h; cases h⟩
    · rw [bind_stop h1, bind_stop h2]
      obtain ⟨h1, h2, h3, h5, h6, h7⟩ := h4.seen
      exact ⟨h1, h2, fun _ => ⟨h3, h5, h6, h7, fun a s h => by cases h; exact ⟨t', rfl⟩, fun a s h => by cases h⟩⟩

theorem Blind.greet (e : Endian) : Blind (greet e) := by
  refine (Blind.send _).bind fun _ => (Blind.send _).bind fun _ => (Blind.send _).bind fun _ =>
    (Blind.recv32 e).bind fun _ => ?_
  split
  · exact Blind.modify fun _ _ => rfl
  · exact Blind.pure _

theorem Eats.greet (e : Endian) : Eats (greet e) := by
  refine (Eats.send _).bind fun _ => (Eats.send _).bind fun _ => (Eats.send _).bind fun _ =>
    (Eats.recv32 e).bind fun _ => ?_
  split
  · exact Eats.modify fun _ => ⟨rfl, rfl⟩
  · exact Eats.pure _

theorem negotiate_seen (e : Endian) (env : NEnv) (cf : NConf) (n : Nat) (svs svs' : List SrvExport)
    (nz : Bool) (inp : List Byte) (tlsIn : Option (List Byte)) (h : SameVisible inp svs svs') :
    SameSeen (negotiate e env cf n (.fresh svs nz inp tlsIn)) (negotiate e env cf n (.fresh svs' nz inp tlsIn)) := by
  have h0 : AlikeP inp (.fresh svs nz inp tlsIn) (.fresh svs' nz inp tlsIn) :=
    ⟨⟨rfl, h, fun _ => List.suffix_refl _⟩, rfl⟩
  show SameSeen ((greet e >>= fun _ => optionLoop e env cf n) _) ((greet e >>= fun _ => optionLoop e env cf n) _)
  rcases ((Blind.greet e).rel (Eats.greet e)).h _ _ h0 with ⟨a, b, s', t', h1, h2, _, h4⟩ | ⟨r, s', t', h1, h2, h4⟩
  · rw [bind_ok h1, bind_ok h2]; exact loop_seen e env cf n s' t' h4
  · rw [bind_stop h1, bind_stop h2]
    obtain ⟨h1, h2, h3, h5, h6, h7⟩ := h4.1.seen
    exact ⟨h1, h2, fun _ => ⟨h3, h5, h6, h7, fun a s h => by cases h; exact ⟨t', rfl⟩, fun a s h => by cases h⟩⟩

/-! ### Forced TLS -/

/-- `oneOption` as it behaves on a plaintext connection when TLS is forced. -/
def forcedOption (e : Endian) (cf : NConf) : NM Unit := do
  let magic := ntohll e (load64 e (← recv 8))
  if magic ≠ OPTS_MAGIC then NM.stop .closed
  else do
    let opt ← recv32 e
    if opt ≠ OPT_STARTTLS then
      if opt = OPT_EXPORT_NAME ∨ opt = OPT_ABORT then NM.stop .closed
      else do
        consumeLen e
        sendReply e opt REP_ERR_TLS_REQD (ascii "TLS is required on this server")
    else if !cf.keyfile then do
      consumeLen e
      sendReply e opt REP_ERR_POLICY (ascii "TLS not allowed on this server")
    else handleStarttls e

theorem oneOption_forced (e : Endian) (env : NEnv) (cf : NConf) (hf : cf.forcedTls = true) (s : NState)
    (hs : s.tls = false) : oneOption e env cf s = forcedOption e cf s := by
  unfold oneOption forcedOption
  rw [bind_eq, bind_eq]
  cases hr : recv 8 s with
  | stop r s' => rfl
  | ok bs s1 =>
    have h1 : s1.tls = false := by have := (Eats.recv 8).h s; rw [hr] at this; rw [show s1.tls = s.tls from this.2, hs]
    simp only []
    split
    · rfl
    · rw [bind_eq, bind_eq]
      cases hr2 : recv32 e s1 with
      | stop r s' => rfl
      | ok opt s2 =>
        have h2 : s2.tls = false := by
          have := (Eats.recv32 e).h s1; rw [hr2] at this; rw [show s2.tls = s1.tls from this.2, h1]
        simp only []
        rw [bind_ok (get_eq _)]
        by_cases h5 : opt = OPT_STARTTLS
        · rw [if_neg (by simp [h5]), if_neg (by simp [h5])]
          subst h5
          unfold dispatch
          rw [if_neg (by decide), if_neg (by decide), if_neg (by decide), if_pos rfl, bind_ok (get_eq _), if_neg (by simp [h2])]
        · rw [if_pos (by simp [h5, h2, hf]), if_pos h5]
          by_cases ho : opt = OPT_EXPORT_NAME
          · subst ho; rfl
          · by_cases ha : opt = OPT_ABORT
            · rw [if_neg ho, if_pos ha, if_pos (.inr ha)]; rfl
            · rw [if_neg ho, if_neg ha, if_neg (by simp [ho, ha])]

theorem Blind.forcedOption (e : Endian) (cf : NConf) : Blind (forcedOption e cf) := by
  refine (Blind.recv 8).bind fun _ => ?_
  simp only []
  split
  · exact Blind.stop _
  · refine (Blind.recv32 e).bind fun opt => ?_
    split
    · split
      · exact Blind.stop _
      · exact (Blind.consumeLen e).bind fun _ => Blind.sendReply ..
    · split
      · exact (Blind.consumeLen e).bind fun _ => Blind.sendReply ..
      · exact Blind.handleStarttls e

/-- Nothing has been negotiated. -/
structure Virgin (svs : List SrvExport) (s : NState) : Prop where
  tls : s.tls = false
  tlsOut : s.tlsOut = []
  structured : s.structured = false
  exportsize : s.exportsize = 0
  server : s.server = none
  ex : s.ex = none
  servers : s.servers = svs
  commits : s.commits = 0

theorem Virgin.heard {svs : List SrvExport} {s : NState} (h : Virgin svs s) (i : List Byte) :
    Virgin svs { s with inp := i } := ⟨h.tls, h.tlsOut, h.structured, h.exportsize, h.server, h.ex, h.servers, h.commits⟩

theorem Virgin.said {svs : List SrvExport} {s : NState} (h : Virgin svs s) (bs : List Byte) :
    Virgin svs (s.said bs) := by
  refine ⟨by simpa using h.tls, ?_, by simpa using h.structured, by simpa using h.exportsize, by simpa using h.server,
    by simpa using h.ex, by simpa using h.servers, by simpa using h.commits⟩
  unfold NState.said
  rw [if_neg (by rw [h.tls]; decide)]
  exact h.tlsOut

theorem virgin_stable (svs : List SrvExport) : Stable (Virgin svs) :=
  ⟨fun _ _ h => h.heard _, fun _ _ h => h.said _⟩

/-- Either TLS has started, or nothing has been negotiated and the client is not served. -/
def VirginEnd (svs : List SrvExport) (r : NEnd) (s : NState) : Prop :=
  s.tls = true ∨ (Virgin svs s ∧ r ≠ .serving)

theorem virgin_forced (svs : List SrvExport) (e : Endian) (cf : NConf) :
    Hoare (Virgin svs) (forcedOption e cf) (fun _ s => s.tls = true ∨ Virgin svs s) (VirginEnd svs) := by
  have st := virgin_stable svs
  have hE : ∀ (r : NEnd) s, r ≠ .serving → r ≠ .ub → Virgin svs s → VirginEnd svs r s :=
    fun r s h _ h' => .inr ⟨h', h⟩
  have hcr : ∀ opt ty d, Hoare (Virgin svs) (do Nbd.consumeLen e; Nbd.sendReply e opt ty d)
      (fun _ s => s.tls = true ∨ Virgin svs s) (VirginEnd svs) :=
    fun _ _ _ => Hoare.weaken ((Hoare.consumeLen st hE e).bind fun _ => Hoare.sendReply st ..)
      (fun _ h => h) (fun _ _ h => .inr h) (fun _ _ h => h)
  refine (Hoare.recv st hE 8).bind fun _ => ?_
  simp only []
  split
  · exact Hoare.stop' hE (by decide)
  · refine (Hoare.recv32 st hE e).bind fun opt => ?_
    split
    · split
      · exact Hoare.stop' hE (by decide)
      · exact hcr ..
    · split
      · exact hcr ..
      · have := Hoare.handleStarttls (P := fun s => s.tls = true ∨ Virgin svs s) (E := VirginEnd svs)
          ⟨fun s n h => h.imp_right fun h => st.heard s n h, fun s bs h => h.imp (fun h => by simpa using h) fun h => st.said s bs h⟩
          (fun r s hr _ h => h.imp_right fun h => ⟨h, hr⟩) (fun _ _ _ _ => .inl rfl) e
        exact Hoare.weaken this (fun _ h => .inr h) (fun _ _ h => h) (fun _ _ h => h)

theorem tls_commits (env : NEnv) (cf : NConf) :
    Commits env cf (fun s => s.tls = true) (fun _ _ => True) (fun _ s => s.tls = true) := by
  refine ⟨fun sv => ⟨fun s hs => ?_⟩, fun sv => ⟨fun s n h => h, fun s bs h => by simpa using h⟩, fun _ _ h _ => h⟩
  have h := (commitClient_spec env cf sv s).h s rfl
  cases hq : commitClient env cf sv s with
  | ok r s' => rw [hq] at h; exact ⟨by rw [h.1.tls]; exact hs.1, fun _ _ => trivial⟩
  | stop r s' => rw [hq] at h; show s'.tls = true; rw [h.1.tls]; exact hs.1

theorem tls_loop (e : Endian) (env : NEnv) (cf : NConf) (n : Nat) :
    Hoare (fun s => s.tls = true) (optionLoop e env cf n) (fun _ s => s.tls = true) (fun _ s => s.tls = true) :=
  Hoare.optionLoop ⟨fun _ _ h => h, fun _ _ h => by simpa using h⟩ (fun _ _ _ _ h => h) (tls_commits env cf)
    (.inl fun _ h => h) (fun _ h => h) (fun _ _ _ _ => rfl) e n

theorem virgin_loop (svs : List SrvExport) (e : Endian) (env : NEnv) (cf : NConf) (hf : cf.forcedTls = true) (n : Nat) :
    Hoare (Virgin svs) (optionLoop e env cf n) (fun _ s => s.tls = true ∨ Virgin svs s) (VirginEnd svs) := by
  induction n with
  | zero => exact Hoare.stop fun s h => .inr ⟨h, by decide⟩
  | succ n ih =>
    refine Hoare.bind (Q := fun _ s => s.tls = true ∨ Virgin svs s) ⟨fun s hs => ?_⟩ fun _ => ?_
    · rw [oneOption_forced e env cf hf s hs.tls]
      exact (virgin_forced svs e cf).h s hs
    · refine ⟨fun s hs => ?_⟩
      rcases hs with hs | hs
      · have := (tls_loop e env cf n).h s hs
        cases hq : optionLoop e env cf n s with
        | ok a s' => rw [hq] at this; exact .inl this
        | stop a s' => rw [hq] at this; exact .inl this
      · exact ih.h s hs

theorem negotiate_virgin (svs : List SrvExport) (e : Endian) (env : NEnv) (cf : NConf) (hf : cf.forcedTls = true) (n : Nat) :
    Hoare (Virgin svs) (negotiate e env cf n) (fun _ s => s.tls = true ∨ Virgin svs s) (VirginEnd svs) :=
  (Hoare.greet (virgin_stable svs) (fun r s h _ h' => .inr ⟨h', h⟩)
    (fun s h => ⟨h.tls, h.tlsOut, h.structured, h.exportsize, h.server, h.ex, h.servers, h.commits⟩) e).bind fun _ =>
    virgin_loop svs e env cf hf n

/-- With forced TLS, what the plaintext peer sees does not depend on the exports at all. -/
theorem forced_loop_seen (e : Endian) (env : NEnv) (cf : NConf) (hf : cf.forcedTls = true) (n : Nat) :
    ∀ (s : NState) svs, s.tls = false →
      SameSeen (optionLoop e env cf n s) (optionLoop e env cf n (s.withServers svs)) := by
  induction n with
  | zero =>
    intro s svs h
    exact ⟨rfl, rfl, fun _ => ⟨rfl, rfl, rfl, rfl, fun a s h => by cases h; exact ⟨_, rfl⟩, fun a s h => by cases h⟩⟩
  | succ n ih =>
    intro s svs h
    show SameSeen ((oneOption e env cf >>= fun _ => optionLoop e env cf n) s)
      ((oneOption e env cf >>= fun _ => optionLoop e env cf n) (s.withServers svs))
    rw [bind_eq, bind_eq, oneOption_forced e env cf hf s h, oneOption_forced e env cf hf (s.withServers svs) h,
      (Blind.forcedOption e cf).h]
    cases hq : forcedOption e cf s with
    | stop r s' =>
      exact ⟨rfl, rfl, fun _ => ⟨rfl, rfl, rfl, rfl, fun a s h => by cases h; exact ⟨_, rfl⟩, fun a s h => by cases h⟩⟩
    | ok a s' =>
      simp only []
      cases htls : s'.tls with
      | false => exact ih s' svs htls
      | true =>
        have hd := (dark_loop e env cf s'.plainOut n).state s' ⟨htls, rfl⟩
        have hd' := (dark_loop e env cf s'.plainOut n).state (s'.withServers svs) ⟨htls, rfl⟩
        exact ⟨by rw [hd.2, hd'.2], by rw [hd.1, hd'.1], fun h => by rw [hd.1] at h; cases h⟩

theorem forced_seen (e : Endian) (env : NEnv) (cf : NConf) (hf : cf.forcedTls = true) (n : Nat)
    (svs svs' : List SrvExport) (nz : Bool) (inp : List Byte) (tlsIn : Option (List Byte)) :
    SameSeen (negotiate e env cf n (.fresh svs nz inp tlsIn)) (negotiate e env cf n (.fresh svs' nz inp tlsIn)) := by
  show SameSeen ((greet e >>= fun _ => optionLoop e env cf n) _)
    ((greet e >>= fun _ => optionLoop e env cf n) ((NState.fresh svs nz inp tlsIn).withServers svs'))
  have ht := (Eats.greet e).h (.fresh svs nz inp tlsIn)
  rw [bind_eq, bind_eq, (Blind.greet e).h]
  cases hq : greet e (.fresh svs nz inp tlsIn) with
  | stop r s' =>
    exact ⟨rfl, rfl, fun _ => ⟨rfl, rfl, rfl, rfl, fun a s h => by cases h; exact ⟨_, rfl⟩, fun a s h => by cases h⟩⟩
  | ok a s' =>
    rw [hq] at ht
    exact forced_loop_seen e env cf hf n s' svs' ht.2

/-! ### Undefined behaviour -/

/-- The peer says less than 4 GiB and no export has a name longer than 1020 bytes. -/
structure Small (s : NState) : Prop where
  inp : s.inp.length < 2 ^ 32 - 1
  tlsIn : ∀ i, s.tlsIn = some i → i.length < 2 ^ 32 - 1
  names : ∀ sv ∈ s.servers, sv.name.length ≤ 1020

/-- Undefined behaviour happens only when the parent's answer is missing or used twice. -/
def AnswerUb (env : NEnv) (cf : NConf) (r : NEnd) (s : NState) : Prop :=
  r = .ub → cf.dontfork = false ∧ (2 ≤ s.commits ∨ ∃ sv, (env.attempt 0 sv).acl = none)

theorem small_markRo {s : NState} (h : Small s) (id : Nat) : ∀ sv ∈ markRo id s.servers, sv.name.length ≤ 1020 := by
  intro sv hsv
  unfold markRo at hsv
  rw [List.mem_map] at hsv
  obtain ⟨x, hx, rfl⟩ := hsv
  have := h.names x hx
  split <;> exact this

theorem small_stable : Stable Small :=
  ⟨fun s n h => ⟨by have := h.inp; simp only [List.length_drop]; omega, h.tlsIn, h.names⟩,
   fun s bs h => ⟨by simpa using h.inp, by simpa using h.tlsIn, by simpa using h.names⟩⟩

theorem commitClient_ub (env : NEnv) (cf : NConf) (sv : SrvExport) (s s' : NState)
    (h : commitClient env cf sv s = .stop .ub s') :
    cf.dontfork = false ∧ s'.commits = s.commits + 1 ∧ (s.commits ≠ 0 ∨ (env.attempt s.commits sv).acl = none) := by
  have key : Hoare (fun x => x = s) (commitClient env cf sv) (fun _ _ => True)
      (fun r s' => r = .ub → cf.dontfork = false ∧ s'.commits = s.commits + 1 ∧
        (s.commits ≠ 0 ∨ (env.attempt s.commits sv).acl = none)) := by
    unfold commitClient
    refine Hoare.bind (Q := fun x y => x = s ∧ y = s) (Hoare.get fun x h => ⟨h, h⟩) fun x => ?_
    refine Hoare.bind (Q := fun _ y => x = s ∧ y.commits = s.commits + 1)
      (Hoare.modify fun y hy => ⟨hy.1, by rw [hy.2]⟩) fun _ => ?_
    generalize hat : env.attempt x.commits sv = a
    simp only []
    have hp : ∀ (P : NState → Prop) E (r : Option SrvExport),
        Hoare P (Pure.pure r : NM (Option SrvExport)) (fun _ _ => True) E := fun _ _ _ => Hoare.pure fun _ _ => trivial
    split
    · rename_i h1
      simp only [Bool.and_eq_true, Bool.not_eq_true', Bool.or_eq_true, decide_eq_true_eq] at h1
      refine Hoare.bind (Q := fun _ _ => False) (Hoare.stop fun y hy _ => ?_) fun _ => ⟨fun _ h => h.elim⟩
      obtain ⟨rfl, hy⟩ := hy
      exact ⟨h1.1, hy, by rw [hat]; exact h1.2⟩
    · split
      · exact hp ..
      split
      · exact hp ..
      split
      · exact hp ..
      split
      · exact hp ..
      split
      · exact Hoare.bind (Q := fun _ _ => True) (Hoare.modify fun _ _ => trivial) fun _ => hp ..
      cases setupExport sv.flags sv.expected a.exportname a.probes with
      | none => exact Hoare.bind (Q := fun _ _ => True) (Hoare.modify fun _ _ => trivial) fun _ => hp ..
      | some ex =>
        refine Hoare.bind (Q := fun _ _ => True) (Hoare.modify fun _ _ => trivial) fun _ => ?_
        split
        · exact Hoare.bind (Q := fun _ _ => True) (Hoare.stop fun _ _ h => by cases h) fun _ => hp ..
        · exact hp ..
  have := key.h s rfl
  rw [h] at this
  exact this rfl

theorem small_commits (env : NEnv) (cf : NConf) : Commits env cf Small (fun _ _ => True) (AnswerUb env cf) := by
  refine ⟨fun sv => ⟨fun s hs => ?_⟩, fun sv => ⟨fun s n h => ⟨small_stable.heard _ _ h.1, trivial⟩,
    fun s bs h => ⟨small_stable.said _ _ h.1, trivial⟩⟩, fun _ _ _ _ h => by cases h⟩
  have h := (commitClient_spec env cf sv s).h s rfl
  cases hq : commitClient env cf sv s with
  | ok r s' =>
    rw [hq] at h
    refine ⟨⟨by rw [h.1.inp]; exact hs.1.inp, by rw [h.1.tlsIn]; exact hs.1.tlsIn, ?_⟩, fun _ _ => trivial⟩
    rcases h.1.servers with h2 | h2
    · rw [h2]; exact hs.1.names
    · rw [h2]; exact small_markRo hs.1 _
  | stop r s' =>
    intro hr
    subst hr
    obtain ⟨h1, h2, h3⟩ := commitClient_ub env cf sv s s' hq
    refine ⟨h1, ?_⟩
    by_cases hz : s.commits = 0
    · rw [hz] at h3; exact .inr ⟨sv, h3.resolve_left fun h => h rfl⟩
    · exact .inl (by omega)

theorem negotiate_small (e : Endian) (env : NEnv) (cf : NConf) (n : Nat) :
    Hoare Small (negotiate e env cf n) (fun _ => Small) (AnswerUb env cf) := by
  have hE : ∀ (r : NEnd) s, r ≠ .serving → r ≠ .ub → Small s → AnswerUb env cf r s := fun r s _ hr _ h => absurd h hr
  refine (Hoare.greet small_stable hE (fun s h => ⟨h.inp, h.tlsIn, h.names⟩) e).bind fun _ => ?_
  exact Hoare.optionLoop small_stable hE (small_commits env cf)
    (.inr fun s h => ⟨h.inp, h.names⟩) (fun s h => ⟨h.inp, h.tlsIn, h.names⟩)
    (fun s i h hi => ⟨h.tlsIn i hi, (fun _ h => by cases h), h.names⟩) e n

end Nbd
