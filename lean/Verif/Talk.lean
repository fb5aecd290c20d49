import Verif.CliHoare
import Verif.Props.Nego
/-!
# Client and server talking to each other: what each does whatever the other says next
-/

set_option autoImplicit false

namespace Nbd

open Spec Props

/-- The result of a whole run. (A notion of the proofs; models no code of its own.) -/
def CRes.fin {α : Type} : CRes α → CEnd × CState
  | .ok _ s => (.running, s)
  | .stop r s => (r, s)

/-- The client after the greeting. nbd-client.c 559-600. -/
def cstart (B Bt : List Byte) : CState := ⟨B, Bt, toBE 4 3, [], false, 0, 0, []⟩

/-- The client after STARTTLS. nbd-client.c 600-680. -/
def csecure (Bt : List Byte) : CState := ⟨Bt, [], toBE 4 3 ++ optRequest 5 [], [], true, 0, 0, []⟩

theorem cliRun_fin (e : Endian) (c : CliConf) (errm errh inp tlsIn : List Byte) :
    cliRun e c errm errh inp tlsIn = (cliNegotiate e c errm errh ⟨inp, tlsIn, [], [], false, 0, 0, []⟩).fin := by
  unfold cliRun CRes.fin
  cases cliNegotiate e c errm errh ⟨inp, tlsIn, [], [], false, 0, 0, []⟩ <;> rfl

theorem CRes.fin_state {α : Type} (r : CRes α) : r.fin.2 = r.state := by cases r <;> rfl

/-- After the greeting, without TLS. -/
theorem cliRun_plain (e : Endian) (c : CliConf) (errm errh B Bt : List Byte) (ht : c.tls = false) :
    cliRun e c errm errh (greeting ++ B) Bt = (cliAsk e c errm errh true (cstart B Bt)).fin := by
  rw [cliRun_fin]
  unfold cliNegotiate
  rw [CM.bind_ok (cliGreet_ok (s := ⟨greeting ++ B, Bt, [], [], false, 0, 0, []⟩) (rest := B) e c rfl)]
  simp only [ht]
  rfl

/-- After the greeting, with TLS. -/
theorem cliRun_tls (e : Endian) (c : CliConf) (errm errh B Bt : List Byte) (ht : c.tls = true) :
    cliRun e c errm errh (greeting ++ B) Bt =
      ((do cliSecure e; cliAsk e c errm errh true) ((cstart B Bt).said (optRequest 5 []))).fin := by
  rw [cliRun_fin]
  unfold cliNegotiate
  rw [CM.bind_ok (cliGreet_ok (s := ⟨greeting ++ B, Bt, [], [], false, 0, 0, []⟩) (rest := B) e c rfl)]
  simp only [ht, if_true]
  rw [CM.bind_eq, CM.bind_eq, cliStarttls_eq]
  rfl

theorem cliRun_secure (e : Endian) (c : CliConf) (errm errh B Bt : List Byte) (ht : c.tls = true) :
    cliRun e c errm errh (greeting ++ optReply 5 1 [] ++ B) Bt = (cliAsk e c errm errh true (csecure Bt)).fin := by
  rw [List.append_assoc, cliRun_tls e c errm errh _ _ ht,
    CM.bind_ok (cliSecure_ok (s := (cstart (optReply 5 1 [] ++ B) Bt).said (optRequest 5 [])) (rest := B) e
      (by rw [CState.said_inp]; rfl))]
  rfl

/-- With TLS the client says STARTTLS before anything else. -/
theorem cliRun_tls_grew (e : Endian) (c : CliConf) (errm errh B Bt : List Byte) (ht : c.tls = true) :
    toBE 4 3 ++ optRequest 5 [] <+: (cliRun e c errm errh (greeting ++ B) Bt).2.plainOut := by
  rw [cliRun_tls e c errm errh B Bt ht, CRes.fin_state]
  have st := Grew.stable ((cstart B Bt).said (optRequest 5 []))
  have h := ((CM.Hoare.cliSecure (E := fun _ => Grew _) st (fun _ _ _ h => h) e).bind fun _ =>
    CM.Hoare.cliAsk st (fun _ _ _ h => h) (fun _ h => h) e c errm errh true).grew
  exact h.plain

/-- What the client says when it asks for its export. nbd-client.c 365-396 and 546-557. -/
def cliQuestion (c : CliConf) : List Byte :=
  if c.list then optRequest 3 []
  else if c.noOptgo then optRequest 1 c.name else optRequest 7 (infoData c.name [])

/-- The client asks. -/
theorem cliAsk_eq (e : Endian) (c : CliConf) (hn : c.name.length < 2 ^ 31) (errm errh : List Byte) (s : CState) :
    cliAsk e c errm errh true s =
      if c.list then listLoop e (s.inp.length + 1) (s.said (optRequest 3 []))
      else if c.noOptgo then csendExportName e c true s
      else goLoop e c true errm errh (s.inp.length + 1) (s.said (optRequest 7 (infoData c.name []))) := by
  unfold cliAsk
  rw [CM.bind_ok (CM.get_eq s)]
  split
  · have hreq : csendRequest e OPT_LIST 0 [] s = .ok () (s.said (optRequest 3 [])) :=
      csendRequest_eq e OPT_LIST [] (by decide) (by decide) s
    rw [CM.bind_ok hreq]
  · split
    · rfl
    · rw [CM.bind_ok (csendInfo_eq e OPT_GO c.name (by decide) hn s)]; rfl

theorem csendExportName_begin (e : Endian) (c : CliConf) (hn : c.name.length < 2 ^ 31) (gz : Bool) (s : CState) :
    Grew (s.said (optRequest 1 c.name)) (csendExportName e c gz s).state := by
  have h0 : csendExportName e c gz s = (do
      let b ← cread 10
      if b.length < 10 then CM.stop (if c.noOptgo then .garbage else .failed)
      parseSizes e b
      if !gz then
        let _ ← cread 124
      let s ← CM.get
      CM.stop (.ready s.size s.flags) : CM Unit) (s.said (optRequest 1 c.name)) := by
    unfold csendExportName
    rw [CM.bind_ok (csendRequest_eq e OPT_EXPORT_NAME c.name (by decide) (by omega) s)]
    rfl
  rw [h0]
  have st := Grew.stable (s.said (optRequest 1 c.name))
  have hE : ∀ (r : CEnd) (s' : CState), r ≠ .ub → Grew (s.said (optRequest 1 c.name)) s' → (fun _ => Grew (s.said (optRequest 1 c.name)) : CEnd → CState → Prop) r s' :=
    fun _ _ _ h => h
  refine CM.Hoare.grew ?_
  refine (CM.Hoare.cread st 10).bind fun b => ?_
  have hend : CM.Hoare (Grew (s.said (optRequest 1 c.name))) (do let s ← CM.get; CM.stop (.ready s.size s.flags) : CM Unit)
      (fun _ => Grew (s.said (optRequest 1 c.name))) (fun _ => Grew (s.said (optRequest 1 c.name))) :=
    (CM.Hoare.get (Q := fun _ => Grew (s.said (optRequest 1 c.name))) fun _ h => h).bind fun _ => CM.Hoare.stop fun _ h => h
  simp only []
  refine CM.Hoare.ite (fun _ => (CM.Hoare.stop' (Q := fun _ => Grew (s.said (optRequest 1 c.name))) hE (by split <;> decide)).bind fun _ => ?_) fun _ => ?_
  all_goals
    refine (CM.Hoare.parseSizes st ..).bind fun _ => ?_
    exact CM.Hoare.ite (fun _ => (CM.Hoare.cread st _).bind fun _ => hend) fun _ => hend

theorem cliAsk_begin (e : Endian) (c : CliConf) (hn : c.name.length < 2 ^ 31) (errm errh : List Byte) (s : CState) :
    Grew (s.said (cliQuestion c)) (cliAsk e c errm errh true s).state := by
  rw [cliAsk_eq e c hn]
  unfold cliQuestion
  split
  · exact listLoop_grew ..
  · split
    · exact csendExportName_begin e c hn true s
    · exact goLoop_grew ..

/-! ### The server's output only grows -/

/-- The output has only grown. (A notion of the proofs; models no code of its own.) -/
structure NGrew (a b : NState) : Prop where
  plain : a.plainOut <+: b.plainOut
  tls : a.tlsOut <+: b.tlsOut

theorem NGrew.stable (a : NState) : Stable (NGrew a) := by
  refine ⟨fun s n h => ⟨h.plain, h.tls⟩, fun s bs h => ?_⟩
  unfold NState.said
  split
  · exact ⟨h.plain, h.tls.trans (List.prefix_append ..)⟩
  · exact ⟨h.plain.trans (List.prefix_append ..), h.tls⟩

theorem optionLoop_grew (e : Endian) (env : NEnv) (cf : NConf) (n : Nat) (s : NState) :
    NGrew s (optionLoop e env cf n s).state := by
  have st := NGrew.stable s
  have hE : ∀ (r : NEnd) (s' : NState), r ≠ .serving → r ≠ .ub → NGrew s s' → (fun _ => NGrew s : NEnd → NState → Prop) r s' :=
    fun _ _ _ _ h => h
  have hc : Commits env cf (NGrew s) (fun _ _ => True) (fun _ => NGrew s) := by
    refine ⟨fun sv => ⟨fun t ht => ?_⟩, fun sv => ⟨fun t n h => ⟨st.heard _ _ h.1, trivial⟩,
      fun t bs h => ⟨st.said _ _ h.1, trivial⟩⟩, fun _ _ h _ => h⟩
    have h := (commitClient_spec env cf sv t).h t rfl
    have hg : ∀ t', CFrame sv t t' → NGrew s t' := fun t' hf =>
      ⟨by rw [hf.plainOut]; exact ht.1.plain, by rw [hf.tlsOut]; exact ht.1.tls⟩
    cases hq : commitClient env cf sv t with
    | ok r t' => rw [hq] at h; exact ⟨hg t' h.1, fun _ _ => trivial⟩
    | stop r t' => rw [hq] at h; exact hg t' h.1
  have := (Hoare.optionLoop st hE hc (.inl fun _ h => h) (fun _ h => ⟨h.plain, h.tls⟩)
    (fun _ _ h _ => ⟨h.plain, h.tls⟩) e n).h s ⟨List.prefix_refl _, List.prefix_refl _⟩
  cases hq : optionLoop e env cf n s <;> rw [hq] at this <;> exact this

/-- The result of a whole negotiation. (A notion of the proofs; models no code of its own.) -/
def NRes.fin {α : Type} : NRes α → NEnd × NState
  | .ok _ s => (.running, s)
  | .stop r s => (r, s)

theorem NRes.fin_state {α : Type} (r : NRes α) : r.fin.2 = r.state := by cases r <;> rfl

/-- The server after the greeting. nbd-server.c 2652-2680. -/
def sstart (svs : List SrvExport) (A : List Byte) (At : Option (List Byte)) : NState :=
  { NState.fresh svs true A At with plainOut := greeting }

/-- The server after STARTTLS. nbd-server.c 2448-2531. -/
def ssecure (svs : List SrvExport) (i : List Byte) : NState :=
  { NState.fresh svs true i none with plainOut := greeting ++ optReply 5 1 [], tls := true }

theorem session_begin (e : Endian) (env : NEnv) (cf : NConf) (n : Nat) (svs : List SrvExport) (nz : Bool)
    (A : List Byte) (At : Option (List Byte)) :
    session e env cf n svs nz (toBE 4 3 ++ A) At = (optionLoop e env cf n (sstart svs A At)).fin := by
  rw [session_start e env cf n svs nz 3 (by decide)]
  rw [show (nz || has 3 2) = true from by cases nz <;> rfl]
  unfold sstart
  cases optionLoop e env cf n { NState.fresh svs true A At with plainOut := greeting } <;> rfl

/-- Whatever the client says, the server says the greeting first. -/
theorem session_greets (e : Endian) (env : NEnv) (cf : NConf) (n : Nat) (svs : List SrvExport) (nz : Bool)
    (A : List Byte) (At : Option (List Byte)) : greeting <+: (session e env cf n svs nz A At).2.plainOut := by
  by_cases hl : A.length < 4
  · rw [session_eq]
    have : greet e (.fresh svs nz A At) = .stop .exited { NState.fresh svs nz A At with plainOut := greeting } := by
      unfold greet
      rw [NM.bind_ok (send_eq _ _), NM.bind_ok (send_eq _ _), NM.bind_ok (send_eq _ _), NM.bind_stop (r := .exited)
        (s' := { NState.fresh svs nz A At with plainOut := greeting })]
      unfold recv32
      rw [NM.bind_stop (r := .exited) (s' := { NState.fresh svs nz A At with plainOut := greeting })]
      unfold recv
      rw [if_pos (by simpa [NState.fresh] using hl), store64_htonll, store16_htons]
      rfl
    unfold negotiate
    rw [NM.bind_stop this]
    exact List.prefix_refl _
  · have h4 : (A.take 4).length = 4 := by rw [List.length_take]; omega
    have hA : A = toBE 4 (beVal (A.take 4)) ++ A.drop 4 := by
      have := toBE_beVal (A.take 4)
      rw [h4] at this
      rw [this, List.take_append_drop]
    have hlt := beVal_lt (A.take 4)
    rw [h4] at hlt
    rw [hA, session_start e env cf n svs nz _ (by omega)]
    have := optionLoop_grew e env cf n { NState.fresh svs (nz || has (beVal (A.take 4)) 2) (A.drop 4) At with plainOut := greeting }
    cases hq : optionLoop e env cf n { NState.fresh svs (nz || has (beVal (A.take 4)) 2) (A.drop 4) At with plainOut := greeting } with
    | ok a s => rw [hq] at this; exact this.plain
    | stop r s => rw [hq] at this; exact this.plain

end Nbd
