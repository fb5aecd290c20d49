import Verif.NegoHoare
/-!
# What is known when negotiation ends with a client to serve
-/

set_option autoImplicit false

namespace Nbd

open NM

/-- What `commit_client` leaves alone. -/
structure CFrame (sv : SrvExport) (s s' : NState) : Prop where
  inp : s'.inp = s.inp
  tlsIn : s'.tlsIn = s.tlsIn
  plainOut : s'.plainOut = s.plainOut
  tlsOut : s'.tlsOut = s.tlsOut
  tls : s'.tls = s.tls
  structured : s'.structured = s.structured
  noZeroes : s'.noZeroes = s.noZeroes
  servers : s'.servers = s.servers ∨ s'.servers = markRo sv.id s.servers
  commits : s'.commits = s.commits ∨ s'.commits = s.commits + 1

/-- Why a client was let in: the answers of the outside world, and the export that was set up. -/
structure Granted (cf : NConf) (sv : SrvExport) (a : Attempt) (ex : Export) : Prop where
  acl : cf.dontfork = false → ∃ b, a.acl = some b ∧ b ≠ 78 ∧ b ≠ 88
  peer : a.peerOk = true
  authorized : a.authorized = true
  prerun : a.prerunOk = true
  setup : setupExport sv.flags sv.expected a.exportname a.probes = some ex

/-- The state after a successful `commit_client`. -/
structure Took (env : NEnv) (cf : NConf) (sv sv' : SrvExport) (k : Nat) (s' : NState) : Prop where
  first : cf.dontfork = false → k = 0
  server : s'.server = some sv'
  exportsize : s'.exportsize = (s'.ex.map Export.exportsize).getD 0
  granted : ∃ ex, s'.ex = some ex ∧ sv' = { sv with flags := ex.flags } ∧ Granted cf sv (env.attempt k sv) ex

theorem commitClient_spec (env : NEnv) (cf : NConf) (sv : SrvExport) (s : NState) :
    Hoare (fun x => x = s) (commitClient env cf sv)
      (fun r s' => CFrame sv s s' ∧ s'.commits = s.commits + 1 ∧ ∀ sv', r = some sv' → Took env cf sv sv' s.commits s')
      (fun r s' => CFrame sv s s' ∧ r ≠ .serving) := by
  unfold commitClient
  refine Hoare.bind (Q := fun x y => x = s ∧ y = s) (Hoare.get fun x h => ⟨h, h⟩) fun x => ?_
  generalize hat : env.attempt x.commits sv = a
  refine Hoare.bind (Q := fun _ y => x = s ∧ y = { s with server := some sv, exportsize := OFFT_MAX, commits := s.commits + 1 })
    (Hoare.modify fun y hy => ⟨hy.1, by rw [hy.2]⟩) fun _ => ?_
  have hf : CFrame sv s { s with server := some sv, exportsize := OFFT_MAX, commits := s.commits + 1 } :=
    ⟨rfl, rfl, rfl, rfl, rfl, rfl, rfl, .inl rfl, .inr rfl⟩
  have hno : Hoare (fun y => x = s ∧ y = { s with server := some sv, exportsize := OFFT_MAX, commits := s.commits + 1 })
      (Pure.pure none : NM (Option SrvExport))
      (fun r s' => CFrame sv s s' ∧ s'.commits = s.commits + 1 ∧ ∀ sv', r = some sv' → Took env cf sv sv' s.commits s')
      (fun r s' => CFrame sv s s' ∧ r ≠ .serving) :=
    Hoare.pure fun y hy => ⟨by rw [hy.2]; exact hf, by rw [hy.2], fun _ h => by cases h⟩
  simp only []
  split
  · refine Hoare.bind (Q := fun _ _ => False) (Hoare.stop fun y hy => ⟨by rw [hy.2]; exact hf, by decide⟩) fun _ => ?_
    exact ⟨fun _ h => h.elim⟩
  rename_i h1
  simp only [Bool.and_eq_true, Bool.not_eq_true', Bool.or_eq_true, decide_eq_true_eq, not_and, not_or] at h1
  split
  · exact hno
  rename_i h2
  simp only [Bool.and_eq_true, Bool.not_eq_true', Bool.or_eq_true, decide_eq_true_eq, not_and, not_or] at h2
  split
  · exact hno
  rename_i h3
  split
  · exact hno
  rename_i h4
  split
  · exact hno
  rename_i h5
  simp only [Bool.not_eq_true', Bool.not_eq_false] at h3 h4 h5
  split
  · refine ⟨fun y hy => ?_⟩
    rw [bind_ok (modify_eq _ _), hy.2]
    exact ⟨⟨rfl, rfl, rfl, rfl, rfl, rfl, rfl, .inl rfl, .inr rfl⟩, rfl, fun _ h => by cases h⟩
  cases hex : setupExport sv.flags sv.expected a.exportname a.probes with
  | none =>
    simp only []
    refine ⟨fun y hy => ?_⟩
    rw [bind_ok (modify_eq _ _), hy.2]
    refine ⟨⟨rfl, rfl, rfl, rfl, rfl, rfl, rfl, ?_, .inr rfl⟩, rfl, fun _ h => by cases h⟩
    simp only []
    split
    · exact .inr rfl
    · exact .inl rfl
  | some ex =>
    simp only []
    have hs : (if ex.flags ≠ sv.flags then markRo sv.id s.servers else s.servers) = s.servers ∨
        (if ex.flags ≠ sv.flags then markRo sv.id s.servers else s.servers) = markRo sv.id s.servers := by
      split
      · exact .inr rfl
      · exact .inl rfl
    by_cases hd : ((has ex.flags F_COPYONWRITE || has ex.flags F_WAIT) && !a.diffOk) = true
    · refine ⟨fun y hy => ?_⟩
      rw [bind_ok (modify_eq _ _), hy.2, if_pos hd]
      exact ⟨⟨rfl, rfl, rfl, rfl, rfl, rfl, rfl, hs, .inr rfl⟩, by decide⟩
    · refine ⟨fun y hy => ?_⟩
      rw [bind_ok (modify_eq _ _), hy.2, if_neg hd]
      obtain ⟨rfl, _⟩ := hy
      refine ⟨⟨rfl, rfl, rfl, rfl, rfl, rfl, rfl, hs, .inr rfl⟩, rfl, fun sv' h => ?_⟩
      cases h
      refine ⟨fun h => ?_, rfl, rfl, ex, rfl, rfl, fun h => ?_, ?_, ?_, ?_, ?_⟩
      · exact Classical.byContradiction fun hk => (h1 h).1 hk
      · cases hacl : a.acl with
        | none => exact absurd hacl (h1 h).2
        | some b =>
          rw [hat]
          refine ⟨b, hacl, ?_, ?_⟩
          · intro hb; rw [hb] at hacl; exact (h2 h).1 hacl
          · intro hb; rw [hb] at hacl; exact (h2 h).2 hacl
      · rw [hat]; exact h3
      · rw [hat]; exact h4
      · rw [hat]; exact h5
      · rw [hat]; exact hex

/-- `x` is the configured export `y`, possibly found to be not writable. -/
structure Marked (y x : SrvExport) : Prop where
  id : x.id = y.id
  name : x.name = y.name
  expected : x.expected = y.expected
  flags : x.flags = y.flags ∨ x.flags = y.flags ||| F_AUTOREADONLY ||| F_READONLY

theorem or_ro_idem (f : Nat) : f ||| F_AUTOREADONLY ||| F_READONLY ||| F_AUTOREADONLY ||| F_READONLY
    = f ||| F_AUTOREADONLY ||| F_READONLY := by
  apply Nat.eq_of_testBit_eq
  intro i
  simp only [Nat.testBit_or]
  cases f.testBit i <;> cases F_AUTOREADONLY.testBit i <;> cases F_READONLY.testBit i <;> rfl

theorem Marked.ro {y x : SrvExport} (h : Marked y x) :
    Marked y { x with flags := x.flags ||| F_AUTOREADONLY ||| F_READONLY } := by
  refine ⟨h.id, h.name, h.expected, .inr ?_⟩
  rcases h.flags with hf | hf
  · simp only [hf]
  · simp only [hf]; exact or_ro_idem _

/-- Every export is a configured one. -/
def FromConfig (svs0 svs : List SrvExport) : Prop := ∀ sv ∈ svs, ∃ y ∈ svs0, Marked y sv

theorem FromConfig.refl (svs : List SrvExport) : FromConfig svs svs :=
  fun sv h => ⟨sv, h, rfl, rfl, rfl, .inl rfl⟩

theorem FromConfig.markRo {svs0 svs : List SrvExport} (h : FromConfig svs0 svs) (id : Nat) :
    FromConfig svs0 (markRo id svs) := by
  intro sv hsv
  unfold Nbd.markRo at hsv
  rw [List.mem_map] at hsv
  obtain ⟨x, hx, rfl⟩ := hsv
  obtain ⟨y, hy, hm⟩ := h x hx
  split
  · exact ⟨y, hy, hm.ro⟩
  · exact ⟨y, hy, hm⟩

theorem FromConfig.frame {svs0 : List SrvExport} {s s' : NState} {sv : SrvExport} (h : FromConfig svs0 s.servers)
    (hf : CFrame sv s s') : FromConfig svs0 s'.servers := by
  rcases hf.servers with hs | hs
  · rw [hs]; exact h
  · rw [hs]; exact h.markRo _

theorem openLoop_flags (multi : Bool) (expected : Nat) (ps : List ProbeFile) :
    ∀ (i flags : Nat) (acc : List FileInfo) (lso ls flags' : Nat) (files : List FileInfo)
      (lso' ls' : Nat),
      openLoop multi expected ps i flags acc lso ls = some (flags', files, lso', ls') →
      flags' = flags ∨ flags' = flags ||| F_AUTOREADONLY ||| F_READONLY := by
  induction ps with
  | nil =>
    intro i flags acc lso ls flags' files lso' ls' h
    unfold openLoop at h
    split at h
    · cases h; exact .inl rfl
    · cases h
  | cons p ps ih =>
    intro i flags acc lso ls flags' files lso' ls' h
    unfold openLoop at h
    simp only [] at h
    split at h
    · split at h
      · cases h; exact .inl rfl
      · cases h
    · rename_i fl hop
      have hfl := openOne_flags _ _ _ _ hop
      split at h
      · cases h; exact hfl
      · split at h
        · cases h; exact hfl
        · rcases ih _ _ _ _ _ _ _ _ _ h with h2 | h2
          · rw [h2]; exact hfl
          · rcases hfl with h3 | h3
            · rw [h2, h3]; exact .inr rfl
            · rw [h2, h3, or_ro_idem]; exact .inr rfl

theorem setupExport_flags (flags expected : Nat) (name : List Char) (probes : List ProbeFile)
    (ex : Export) (h : setupExport flags expected name probes = some ex) :
    ex.flags = flags ∨ ex.flags = flags ||| F_AUTOREADONLY ||| F_READONLY := by
  unfold setupExport at h
  split at h
  · cases h; exact .inl rfl
  · split at h
    · cases h
    · rename_i h2
      have h3 := openLoop_flags _ _ _ _ _ _ _ _ _ _ _ _ h2
      simp only [] at h
      split at h
      · split at h
        · cases h
        · cases h; exact h3
      · cases h; exact h3

/-- What is known when a client is served. -/
structure Serving (env : NEnv) (cf : NConf) (svs0 : List SrvExport) (sv' : SrvExport) (s : NState) : Prop where
  intro ::
  took : ∃ y ∈ svs0, ∃ sv k, Marked y sv ∧ visible s.tls sv = true ∧ Took env cf sv sv' k s

theorem serving_commits (env : NEnv) (cf : NConf) (svs0 : List SrvExport) :
    Commits env cf (fun s => FromConfig svs0 s.servers) (Serving env cf svs0)
      (fun r s => FromConfig svs0 s.servers ∧ (r = .serving → ∃ sv', Serving env cf svs0 sv' s)) := by
  refine ⟨fun sv => ⟨fun s hs => ?_⟩, fun sv => ⟨fun s n h => ?_, fun s bs h => ?_⟩, fun sv s h hg => ⟨h, fun _ => ⟨sv, hg⟩⟩⟩
  · obtain ⟨h1, h2, h3⟩ := hs
    have h := (commitClient_spec env cf sv s).h s rfl
    cases hq : commitClient env cf sv s with
    | ok r s' =>
      rw [hq] at h
      obtain ⟨hf, _, ht⟩ := h
      refine ⟨h1.frame hf, fun sv' hr => ⟨?_⟩⟩
      obtain ⟨y, hy, hm⟩ := h1 sv h2
      exact ⟨y, hy, sv, s.commits, hm, by rw [hf.tls]; exact h3, ht sv' hr⟩
    | stop r s' =>
      rw [hq] at h
      exact ⟨h1.frame h.1, fun hr => absurd hr h.2⟩
  · obtain ⟨h1, ⟨y, hy, sv0, k, h2, h3, h4⟩⟩ := h
    exact ⟨h1, ⟨y, hy, sv0, k, h2, h3, ⟨h4.first, h4.server, h4.exportsize, h4.granted⟩⟩⟩
  · obtain ⟨h1, ⟨y, hy, sv0, k, h2, h3, h4⟩⟩ := h
    refine ⟨by simpa using h1, ⟨y, hy, sv0, k, h2, by simpa using h3, ⟨h4.first, ?_, ?_, ?_⟩⟩⟩
    · rw [NState.said_server]; exact h4.server
    · rw [NState.said_ex, NState.said_exportsize]; exact h4.exportsize
    · rw [NState.said_ex]; exact h4.granted

theorem Hoare.greet {P : NState → Prop} {E : NEnd → NState → Prop} (st : Stable P)
    (hE : ∀ r s, r ≠ .serving → r ≠ .ub → P s → E r s) (hz : ∀ s, P s → P { s with noZeroes := true }) (e : Endian) :
    Hoare P (greet e) (fun _ => P) E := by
  refine (Hoare.send st _).bind fun _ => (Hoare.send st _).bind fun _ => (Hoare.send st _).bind fun _ =>
    (Hoare.recv32 st hE e).bind fun _ => ?_
  split
  · exact Hoare.modify hz
  · exact Hoare.pure fun _ h => h

/-- Negotiation ends with a client to serve only for a configured export that the client may see
and was let in to. -/
theorem session_serving (e : Endian) (env : NEnv) (cf : NConf) (n : Nat) (svs : List SrvExport)
    (nz : Bool) (inp : List Byte) (tlsIn : Option (List Byte)) (s : NState)
    (h : session e env cf n svs nz inp tlsIn = (.serving, s)) : ∃ sv', Serving env cf svs sv' s := by
  have st : Stable (fun s => FromConfig svs s.servers) :=
    ⟨fun s n h => h, fun s bs h => by simpa using h⟩
  have hE : ∀ (r : NEnd) (s : NState), r ≠ .serving → r ≠ .ub → FromConfig svs s.servers →
      (FromConfig svs s.servers ∧ (r = .serving → ∃ sv', Serving env cf svs sv' s)) :=
    fun r s hr _ h => ⟨h, fun h => absurd h hr⟩
  have hh : Hoare (fun s => FromConfig svs s.servers) (negotiate e env cf n) (fun _ s => FromConfig svs s.servers)
      (fun r s => FromConfig svs s.servers ∧ (r = .serving → ∃ sv', Serving env cf svs sv' s)) :=
    (Hoare.greet st hE (fun _ h => h) e).bind fun _ =>
      Hoare.optionLoop st hE (serving_commits env cf svs)
        (.inl fun s h => ⟨h, fun h => by cases h⟩) (fun _ h => h) (fun _ _ h _ => h) e n
  have := hh.h (.fresh svs nz inp tlsIn) (FromConfig.refl svs)
  unfold session at h
  cases hq : negotiate e env cf n (.fresh svs nz inp tlsIn) with
  | ok a s' => rw [hq] at h; simp only [Prod.mk.injEq, reduceCtorEq, false_and] at h
  | stop r s' =>
    rw [hq] at h this
    simp only [Prod.mk.injEq] at h
    rw [← h.2]
    exact this.2 h.1

/-! ### Once TLS has started -/

/-- Inside TLS, nothing more is said in the clear. -/
def Dark (p : List Byte) (s : NState) : Prop := s.tls = true ∧ s.plainOut = p

theorem dark_stable (p : List Byte) : Stable (Dark p) :=
  ⟨fun _ _ h => h, fun s bs h => ⟨by simpa using h.1, by rw [NState.said_plainOut s bs h.1]; exact h.2⟩⟩

theorem dark_commits (env : NEnv) (cf : NConf) (p : List Byte) :
    Commits env cf (Dark p) (fun _ _ => True) (fun _ => Dark p) := by
  refine ⟨fun sv => ⟨fun s hs => ?_⟩, fun sv => ⟨fun s n h => h, fun s bs h => ⟨(dark_stable p).said _ _ h.1, trivial⟩⟩,
    fun _ _ h _ => h⟩
  have h := (commitClient_spec env cf sv s).h s rfl
  cases hq : commitClient env cf sv s with
  | ok r s' =>
    rw [hq] at h
    exact ⟨⟨by rw [h.1.tls]; exact hs.1.1, by rw [h.1.plainOut]; exact hs.1.2⟩, fun _ _ => trivial⟩
  | stop r s' =>
    rw [hq] at h
    exact ⟨by rw [h.1.tls]; exact hs.1.1, by rw [h.1.plainOut]; exact hs.1.2⟩

theorem dark_loop (e : Endian) (env : NEnv) (cf : NConf) (p : List Byte) (n : Nat) :
    Hoare (Dark p) (optionLoop e env cf n) (fun _ => Dark p) (fun _ => Dark p) :=
  Hoare.optionLoop (dark_stable p) (fun _ _ _ _ h => h) (dark_commits env cf p) (.inl fun _ h => h) (fun _ h => h)
    (fun _ _ h _ => ⟨rfl, h.2⟩) e n

end Nbd
