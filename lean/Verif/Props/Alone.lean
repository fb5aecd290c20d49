import Verif.Alone
import Verif.Props.Nego
/-!
# C98: a server that does not fork
-/

set_option autoImplicit false

namespace Nbd.Spec

/-- `x` is the export `y` of the configuration file: the same name and size setting, and the same flags unless its file was found to be
not writable, in which case it is read-only. -/
def IsConfigured (y x : SrvExport) : Prop :=
  x.id = y.id ∧ x.name = y.name ∧ x.expected = y.expected ∧
    (x.flags = y.flags ∨ x.flags = y.flags ||| F_AUTOREADONLY ||| F_READONLY)

/-- What becomes of a connection that does not stop the server: it is closed, or could not be used at all. -/
def TurnedAway (r : Option (NEnd × NState)) : Prop := r = none ∨ ∃ s, r = some (.closed, s)

end Nbd.Spec

namespace Nbd.Props

open Nbd.Spec

/-- **C98**, one client (partial: see `C98_false_gone` for what else stops the server). With `-d` every connection
but the last one the server looks at is turned away, so at most one client is served, and nobody is looked at after it. -/
theorem C98_one_partial (e : Endian) (cf : NConf) (cs : List Caller) (svs : List SrvExport) (nz : Bool) (i : Nat)
    (h : i + 1 < (alone e cf cs svs nz).length) :
    ∃ r, (alone e cf cs svs nz)[i]? = some r ∧ TurnedAway r := by
  induction cs generalizing svs nz i with
  | nil => simp [alone] at h
  | cons c cs ih =>
    unfold alone at h ⊢
    by_cases hu : c.usable = true
    · rw [if_pos hu] at h ⊢
      simp only [] at h ⊢
      by_cases hc : (session e c.env { cf with dontfork := true } c.n svs nz c.inp c.tlsIn).1 = .closed
      · rw [if_pos hc] at h ⊢
        cases i with
        | zero => exact ⟨_, rfl, .inr ⟨_, by rw [← hc]⟩⟩
        | succ i => exact ih _ _ i (by simpa using h)
      · rw [if_neg hc] at h
        simp at h
    · rw [if_neg hu] at h ⊢
      cases i with
      | zero => exact ⟨_, rfl, .inl rfl⟩
      | succ i => exact ih _ _ i (by simpa using h)

/-- **C98**, the server goes on (partial as above): if everybody looked at has been turned away, then everybody has been looked at. -/
theorem C98_goes_on_partial (e : Endian) (cf : NConf) (cs : List Caller) (svs : List SrvExport) (nz : Bool)
    (h : ∀ r ∈ alone e cf cs svs nz, TurnedAway r) : (alone e cf cs svs nz).length = cs.length := by
  induction cs generalizing svs nz with
  | nil => rfl
  | cons c cs ih =>
    unfold alone at h ⊢
    by_cases hu : c.usable = true
    · rw [if_pos hu] at h ⊢
      simp only [] at h ⊢
      have hc : (session e c.env { cf with dontfork := true } c.n svs nz c.inp c.tlsIn).1 = .closed := by
        rcases h _ List.mem_cons_self with h0 | ⟨s, h0⟩
        · cases h0
        · injection h0 with h0; rw [h0]
      rw [if_pos hc] at h ⊢
      rw [List.length_cons, ih _ _ fun r hr => h r (List.mem_cons_of_mem _ hr), List.length_cons]
    · rw [if_neg hu] at h ⊢
      rw [List.length_cons, ih _ _ fun r hr => h r (List.mem_cons_of_mem _ hr), List.length_cons]

/-- **C98**, whatever the clients before it have said (partial: `C98_false_padding` and `C98_false_read_only` show what they can leave
behind), the `i`-th client is treated as the first client of some server whose exports are the configured ones, except that
some may be marked read-only. -/
theorem C98_configured_partial (e : Endian) (cf : NConf) (cs : List Caller) (svs : List SrvExport) (nz : Bool) (i : Nat)
    (r : NEnd) (s : NState) (h : (alone e cf cs svs nz)[i]? = some (some (r, s))) :
    ∃ (c : Caller) (svs' : List SrvExport) (nz' : Bool), cs[i]? = some c ∧
      (∀ x ∈ svs', ∃ y ∈ svs, IsConfigured y x) ∧
      session e c.env { cf with dontfork := true } c.n svs' nz' c.inp c.tlsIn = (r, s) := by
  have key : ∀ (cs : List Caller) (svs' : List SrvExport) (nz : Bool) (i : Nat), FromConfig svs svs' →
      (alone e cf cs svs' nz)[i]? = some (some (r, s)) →
      ∃ (c : Caller) (svs' : List SrvExport) (nz' : Bool), cs[i]? = some c ∧ FromConfig svs svs' ∧
        session e c.env { cf with dontfork := true } c.n svs' nz' c.inp c.tlsIn = (r, s) := by
    intro cs
    induction cs with
    | nil => intro svs' nz i _ h; simp [alone] at h
    | cons c cs ih =>
      intro svs' nz i hf h
      unfold alone at h
      by_cases hu : c.usable = true
      · rw [if_pos hu] at h
        simp only [] at h
        cases i with
        | zero =>
          simp only [List.getElem?_cons_zero, Option.some.injEq] at h
          exact ⟨c, svs', nz, rfl, hf, h⟩
        | succ i =>
          rw [List.getElem?_cons_succ] at h
          by_cases hc : (session e c.env { cf with dontfork := true } c.n svs' nz c.inp c.tlsIn).1 = .closed
          · rw [if_pos hc] at h
            obtain ⟨d, s', z', h1, h2⟩ := ih _ _ i (hf.trans (session_config e c.env _ c.n svs' nz c.inp c.tlsIn)) h
            exact ⟨d, s', z', by rw [List.getElem?_cons_succ]; exact h1, h2⟩
          · rw [if_neg hc] at h
            simp at h
      · rw [if_neg hu] at h
        cases i with
        | zero => simp at h
        | succ i =>
          rw [List.getElem?_cons_succ] at h
          obtain ⟨d, s', z', h1, h2⟩ := ih _ _ i hf h
          exact ⟨d, s', z', by rw [List.getElem?_cons_succ]; exact h1, h2⟩
  obtain ⟨c, svs', nz', h1, h2, h3⟩ := key cs svs nz i (FromConfig.refl svs) h
  refine ⟨c, svs', nz', h1, fun x hx => ?_, h3⟩
  obtain ⟨y, hy, hm⟩ := h2 x hx
  exact ⟨y, hy, hm.id, hm.name, hm.expected, hm.flags⟩

/-- **C98**, who is served is let in: the access check and the prerun command of a configured export that it may see have accepted it,
whatever the clients before it have said. -/
theorem C98_let_in (e : Endian) (cf : NConf) (cs : List Caller) (svs : List SrvExport) (nz : Bool) (i : Nat) (s : NState)
    (h : (alone e cf cs svs nz)[i]? = some (some (.serving, s))) :
    ∃ (c : Caller) (x : SrvExport) (k : Nat) (sv : SrvExport), cs[i]? = some c ∧ s.server = some x ∧ x.id = sv.id ∧ x.name = sv.name ∧
      (∃ y ∈ svs, IsConfigured y sv) ∧ (s.tls = true ∨ ¬ TlsOnly sv) ∧
      (c.env.attempt k sv).authorized = true ∧ (c.env.attempt k sv).prerunOk = true := by
  obtain ⟨c, svs', nz', h1, h2, h3⟩ := C98_configured_partial e cf cs svs nz i .serving s h
  obtain ⟨sv', hs⟩ := session_serving _ _ _ _ _ _ _ _ _ h3
  obtain ⟨y, hy, sv, k, hm, hv, ht⟩ := hs.took
  obtain ⟨ex, -, rfl, hg⟩ := ht.granted
  refine ⟨c, _, k, sv, h1, ht.server, rfl, rfl, ?_, (visible_iff _ _).1 hv, hg.authorized, hg.prerun⟩
  obtain ⟨z, hz, h4, h5, h6, h7⟩ := h2 y hy
  refine ⟨z, hz, hm.id.trans h4, hm.name.trans h5, hm.expected.trans h6, ?_⟩
  rcases hm.flags with hf | hf <;> rcases h7 with hg | hg
  · left; rw [hf, hg]
  · right; rw [hf, hg]
  · right; rw [hf, hg]
  · right; rw [hf, hg, or_ro_idem]

/-- **C98 is false**: a client that connects and goes away before it has sent its four bytes of flags ends the server, whatever the
configuration and whoever comes next. -/
theorem C98_false_gone (e : Endian) (cf : NConf) (c : Caller) (cs : List Caller) (svs : List SrvExport) (nz : Bool)
    (hu : c.usable = true) (hc : c.inp.length < 4) :
    ∃ s, alone e cf (c :: cs) svs nz = [some (.exited, s)] := by
  have : ∃ s, session e c.env { cf with dontfork := true } c.n svs nz c.inp c.tlsIn = (.exited, s) := by
    have hr : ∀ s : NState, s.inp.length < 4 → recv32 e s = .stop .exited s := by
      intro s h
      show (recv 4 >>= fun b => pure _) s = _
      rw [NM.bind_stop (s' := s) (r := .exited)]
      unfold recv
      rw [if_pos h]
    unfold session negotiate greet
    refine ⟨(((NState.fresh svs nz c.inp c.tlsIn).said INIT_PASSWD).said (store64 e (ntohll e OPTS_MAGIC))).said
      (store16 e (ntohs e (GFLAG_FIXED_NEWSTYLE ||| GFLAG_NO_ZEROES))), ?_⟩
    · rw [NM.bind_stop (s' := (((NState.fresh svs nz c.inp c.tlsIn).said INIT_PASSWD).said (store64 e (ntohll e OPTS_MAGIC))).said
        (store16 e (ntohs e (GFLAG_FIXED_NEWSTYLE ||| GFLAG_NO_ZEROES)))) (r := .exited)]
      rw [NM.bind_ok (send_eq _ _), NM.bind_ok (send_eq _ _), NM.bind_ok (send_eq _ _), NM.bind_stop (hr _ ?_)]
      simp only [NState.said_inp]
      exact hc
  obtain ⟨s, hs⟩ := this
  refine ⟨s, ?_⟩
  unfold alone
  rw [if_pos hu, hs]
  rfl

/-- **C98 is false**: so does one that names, with EXPORT_NAME, an export that does not exist. -/
theorem C98_false_unknown (e : Endian) (cf : NConf) (c : Caller) (cs : List Caller) (svs : List SrvExport) (nz : Bool)
    (hu : c.usable = true) (hf : cf.forcedTls = false) (name rest : List Byte) (hn : name.length ≤ 4096) (h0 : (0 : Byte) ∉ name)
    (flags n : Nat) (hfl : flags < 2 ^ 32) (hinp : c.inp = toBE 4 flags ++ (optRequest 1 name ++ rest)) (hcn : c.n = n + 1)
    (hno : ∀ sv ∈ svs, sv.name ≠ name) :
    ∃ s, alone e cf (c :: cs) svs nz = [some (.exited, s)] := by
  have : ∃ s, session e c.env { cf with dontfork := true } c.n svs nz c.inp c.tlsIn = (.exited, s) := by
    rw [hinp, hcn, session_start e c.env _ (n + 1) svs nz flags hfl]
    have h := exportName_unknown (s := { NState.fresh svs (nz || has flags 2) (optRequest 1 name ++ rest) c.tlsIn with
      plainOut := greeting }) (rest := rest) e c.env { cf with dontfork := true } (.inr hf) hn h0 rfl (by
        rw [List.find?_eq_none]
        intro sv hsv
        have := hno sv hsv
        simp [this])
    rw [loop_stop h]
    exact ⟨_, rfl⟩
  obtain ⟨s, hs⟩ := this
  refine ⟨s, ?_⟩
  unfold alone
  rw [if_pos hu, hs]
  rfl

namespace ADemo

/-- Setting the export up fails after its file has been found to be not writable. -/
def passing : NEnv := ⟨fun _ _ => { NDemo.yes with probes := [], leftRo := true }, fun _ => true⟩

/-- Somebody who gives up after the flags `f`. -/
def quitter (f : Nat) : Caller := ⟨true, toBE 4 f ++ optRequest 2 [], none, NDemo.env, 5⟩

/-- Somebody who wants export `a`. -/
def user (f : Nat) : Caller := ⟨true, toBE 4 f ++ optRequest 1 [97], none, NDemo.env, 5⟩

end ADemo

-- Two clients are turned away, one connection is lost, the next client is served, and the one after it is not looked at.
example : (alone .little NDemo.cf [ADemo.quitter 3, ⟨false, [], none, NDemo.env, 0⟩, ADemo.quitter 1, ADemo.user 3, ADemo.user 3]
    [NDemo.a, NDemo.s] false).map (fun r => r.map (·.1)) = [some .closed, none, some .closed, some .serving] := by decide +kernel

/-- **C98 is false**: what a client is sent depends on those that were turned away before it. After one that understands answers without
padding, a client that does not is sent an answer without it. -/
theorem C98_false_padding :
    (alone .little NDemo.cf [ADemo.user 1] [NDemo.a] false).map (fun r => r.map fun x => (x.1, x.2.plainOut.length)) =
      [some (.serving, 18 + 134)] ∧
    (alone .little NDemo.cf [ADemo.quitter 3, ADemo.user 1] [NDemo.a] false).map (fun r => r.map fun x => (x.1, x.2.plainOut.length)) =
      [some (.closed, 18), some (.serving, 18 + 10)] := by decide +kernel

/-- **C98 is false**: after a client for which the export could not be set up, its file not being writable at the time, the next is told
that the export is read-only, although its file can be written. -/
theorem C98_false_read_only :
    (alone .little NDemo.cf [ADemo.user 3] [NDemo.a] false).map (fun r => r.map fun x => (x.1, x.2.server.map fun y => has y.flags F_READONLY)) =
      [some (.serving, some false)] ∧
    (alone .little NDemo.cf [{ ADemo.user 3 with env := ADemo.passing }, ADemo.user 3] [NDemo.a] false).map
        (fun r => r.map fun x => (x.1, x.2.server.map fun y => has y.flags F_READONLY)) =
      [some (.closed, some false), some (.serving, some true)] := by decide +kernel

end Nbd.Props
