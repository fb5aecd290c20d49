import Verif.CliLemmas
/-!
# What the client does to any state
-/

set_option autoImplicit false

namespace Nbd

open CM

/-- A property of client states that no step can break. -/
structure CStable (P : CState → Prop) : Prop where
  heard : ∀ s n, P s → P { s with inp := s.inp.drop n }
  said : ∀ s bs, P s → P (s.said bs)
  sized : ∀ s a b, P s → P { s with size := a, flags := b }
  printed : ∀ s l, P s → P { s with printed := l }
  secured : ∀ s, P s → P { s with tls := true, inp := s.tlsIn, tlsIn := [] }

section

variable {P : CState → Prop} {E : CEnd → CState → Prop} (st : CStable P) (hE : ∀ r s, r ≠ .ub → P s → E r s)

include hE in
theorem CM.Hoare.stop' {α : Type} {Q : α → CState → Prop} {r : CEnd} (hr : r ≠ .ub) :
    Hoare P (CM.stop r : CM α) Q E := Hoare.stop fun s h => hE r s hr h

include st

theorem CM.Hoare.cread (n : Nat) : Hoare P (cread n) (fun _ => P) E := ⟨fun s h => st.heard s n h⟩

theorem CM.Hoare.csend (bs : List Byte) : Hoare P (csend bs) (fun _ => P) E := ⟨fun s h => st.said s bs h⟩

theorem CM.Hoare.csendRequest (e : Endian) (o n : Nat) (d : List Byte) :
    Hoare P (csendRequest e o n d) (fun _ => P) E := Hoare.csend st _

theorem CM.Hoare.csendInfo (e : Endian) (o : Nat) (n : List Byte) : Hoare P (csendInfo e o n) (fun _ => P) E :=
  (Hoare.csendRequest st ..).bind fun _ => (Hoare.csend st _).bind fun _ => (Hoare.csend st _).bind fun _ =>
    Hoare.csend st _

theorem CM.Hoare.parseSizes (e : Endian) (b : List Byte) : Hoare P (parseSizes e b) (fun _ => P) E :=
  Hoare.modify fun s h => st.sized s _ _ h

include hE

theorem CM.Hoare.creadFull (n : Nat) : Hoare P (creadFull n) (fun _ => P) E :=
  (Hoare.cread st n).bind fun _ => Hoare.ite (fun _ => Hoare.stop' hE (by decide)) fun _ => Hoare.pure fun _ h => h

theorem CM.Hoare.readReply (e : Endian) : Hoare P (readReply e) (fun _ => P) E := by
  refine (Hoare.cread st 20).bind fun h => ?_
  simp only []
  refine Hoare.ite (fun _ => (Hoare.stop' (Q := fun _ => P) hE (by decide)).bind fun _ => ?_) fun _ => ?_
  all_goals
    refine Hoare.ite (fun _ => (Hoare.stop' (Q := fun _ => P) hE (by decide)).bind fun _ => ?_) fun _ => ?_
    all_goals
      exact Hoare.ite (fun _ => (Hoare.cread st _).bind fun _ => Hoare.pure fun _ h => h) fun _ => Hoare.pure fun _ h => h

theorem CM.Hoare.csendExportName (e : Endian) (c : CliConf) (gz : Bool) :
    Hoare P (csendExportName e c gz) (fun _ => P) E := by
  unfold Nbd.csendExportName
  refine (Hoare.csendRequest st ..).bind fun _ => (Hoare.cread st 10).bind fun b => ?_
  have hend : Hoare P (do let s ← CM.get; CM.stop (.ready s.size s.flags) : CM Unit) (fun _ => P) E :=
    (Hoare.get (Q := fun _ => P) fun _ h => h).bind fun _ => Hoare.stop' hE (by simp)
  have hz : ∀ g : Bool, Hoare P (do
      if g then
        let _ ← Nbd.cread 124
      let s ← CM.get
      CM.stop (.ready s.size s.flags) : CM Unit) (fun _ => P) E := by
    intro g
    simp only []
    exact Hoare.ite (fun _ => (Hoare.cread st _).bind fun _ => hend) fun _ => hend
  simp only []
  refine Hoare.ite (fun _ => (Hoare.stop' (Q := fun _ => P) hE (by split <;> decide)).bind fun _ => ?_) fun _ => ?_
  all_goals exact (Hoare.parseSizes st ..).bind fun _ => hz _

theorem CM.Hoare.cerrSaid {α : Type} {Q : α → CState → Prop} (hU : ∀ s, P s → E .ub s) (errm errh what : List Byte) (r : CReply) :
    Hoare P (cerrSaid errm errh what r : CM α) Q E := by
  have hany : ∀ q, Hoare P (CM.stop q : CM α) Q E := by
    intro q
    by_cases hq : q = .ub
    · subst hq; exact Hoare.stop hU
    · exact Hoare.stop' hE hq
  unfold Nbd.cerrSaid
  refine Hoare.ite (fun _ => hany _) fun _ => Hoare.ite (fun _ => hany _) fun _ => ?_
  simp only []
  refine Hoare.ite (fun _ => hany _) fun _ => ?_
  unfold Nbd.cerr
  split <;> exact hany _

theorem CM.Hoare.goStep (hU : ∀ s, P s → E .ub s) (e : Endian) (c : CliConf) (gz : Bool) (errm errh : List Byte) :
    Hoare P (goStep e c gz errm errh) (fun _ => P) E := by
  have hany : ∀ (α : Type) (q : CEnd) (Q : α → CState → Prop), Hoare P (CM.stop q : CM α) Q E := by
    intro α q Q
    by_cases hq : q = .ub
    · subst hq; exact Hoare.stop hU
    · exact Hoare.stop' hE hq
  refine (Hoare.readReply st hE e).bind fun r => ?_
  refine Hoare.ite (fun _ => ?_) fun _ => ?_
  · refine Hoare.ite (fun _ => ?_) fun _ => ?_
    · exact (Hoare.csendExportName st hE e c gz).bind fun _ => Hoare.pure fun _ h => h
    · exact Hoare.ite (fun _ => Hoare.cerrSaid st hE hU ..) fun _ => Hoare.cerrSaid st hE hU ..
  · refine Hoare.ite (fun _ => ?_) fun _ => Hoare.pure fun _ h => h
    refine Hoare.ite (fun _ => hany ..) fun _ => Hoare.ite (fun _ => ?_) fun _ => Hoare.pure fun _ h => h
    exact Hoare.ite (fun _ => hany ..) fun _ => (Hoare.parseSizes st ..).bind fun _ => Hoare.pure fun _ h => h

theorem CM.Hoare.goLoop (hU : ∀ s, P s → E .ub s) (e : Endian) (c : CliConf) (gz : Bool) (errm errh : List Byte) (n : Nat) :
    Hoare P (goLoop e c gz errm errh n) (fun _ => P) E := by
  induction n with
  | zero => exact Hoare.stop' hE (by decide)
  | succ n ih =>
    unfold Nbd.goLoop
    refine (Hoare.goStep st hE hU e c gz errm errh).bind fun b => ?_
    simp only []
    exact Hoare.ite (fun _ => (Hoare.get (Q := fun _ => P) fun _ h => h).bind fun _ =>
      (Hoare.stop' (Q := fun _ => P) hE (by simp)).bind fun _ => ih) fun _ => ih

theorem CM.Hoare.creadStr {cap n : Nat} (h : n < cap) : Hoare P (creadStr cap n) (fun _ => P) E := by
  unfold Nbd.creadStr
  rw [if_neg (by omega)]
  exact Hoare.cread st n

theorem CM.Hoare.listDescr (left : Nat) : Hoare P (listDescr left) (fun _ => P) E := by
  unfold Nbd.listDescr
  refine Hoare.ite (fun _ => Hoare.stop' hE (by decide)) fun h => ?_
  exact (Hoare.creadStr st hE (by omega)).bind fun _ => Hoare.pure fun _ h => h

theorem CM.Hoare.listName (len lenn : Nat) : Hoare P (listName len lenn) (fun _ => P) E := by
  unfold Nbd.listName
  refine Hoare.ite (fun _ => Hoare.stop' hE (by decide)) fun h => ?_
  refine (Hoare.creadStr st hE (by omega)).bind fun _ => (Hoare.modify (Q := fun _ => P) fun s h => st.printed s _ h).bind fun _ => ?_
  exact Hoare.ite (fun _ => Hoare.listDescr st hE _) fun _ => Hoare.pure fun _ h => h

theorem CM.Hoare.listEntry (e : Endian) (len : Nat) : Hoare P (listEntry e len) (fun _ => P) E :=
  (Hoare.creadFull st hE 4).bind fun _ => Hoare.listName st hE ..

theorem CM.Hoare.listError (len : Nat) : Hoare P (listError len) (fun _ => P) E := by
  unfold Nbd.listError
  refine Hoare.ite (fun h => ?_) fun _ => Hoare.stop' hE (by decide)
  exact (Hoare.creadStr st hE h.2).bind fun _ => Hoare.stop' hE (by decide)

theorem CM.Hoare.listStep (e : Endian) : Hoare P (listStep e) (fun _ => P) E := by
  unfold Nbd.listStep
  refine (Hoare.creadFull st hE 8).bind fun m => (Hoare.creadFull st hE 4).bind fun _ =>
    (Hoare.creadFull st hE 4).bind fun t => (Hoare.creadFull st hE 4).bind fun l => ?_
  have hrest : Hoare P (do Nbd.listEntry e (ntohl e (load32 e l)).toNat; return false) (fun _ => P) E :=
    (Hoare.listEntry st hE e _).bind fun _ => Hoare.pure fun _ h => h
  have h1 : Hoare P (do
      if (ntohl e (load32 e t)).toNat ≠ REP_SERVER.toNat then CM.stop .failed
      Nbd.listEntry e (ntohl e (load32 e l)).toNat; return false) (fun _ => P) E := by
    simp only []
    exact Hoare.ite (fun _ => (Hoare.stop' (Q := fun _ => P) hE (by decide)).bind fun _ => hrest) fun _ => hrest
  have h2 : Hoare P (do
      if (ntohl e (load32 e t)).toNat = REP_ACK.toNat then return true
      if (ntohl e (load32 e t)).toNat ≠ REP_SERVER.toNat then CM.stop .failed
      Nbd.listEntry e (ntohl e (load32 e l)).toNat; return false) (fun _ => P) E := by
    exact Hoare.ite (fun _ => Hoare.pure fun _ h => h) fun _ => h1
  have h3 : Hoare P (do
      if has (ntohl e (load32 e t)).toNat 0x80000000 then Nbd.listError (ntohl e (load32 e l)).toNat
      if (ntohl e (load32 e t)).toNat = REP_ACK.toNat then return true
      if (ntohl e (load32 e t)).toNat ≠ REP_SERVER.toNat then CM.stop .failed
      Nbd.listEntry e (ntohl e (load32 e l)).toNat; return false) (fun _ => P) E := by
    simp only []
    exact Hoare.ite (fun _ => (Hoare.listError st hE _).bind fun _ => h2) fun _ => h2
  simp only []
  exact Hoare.ite (fun _ => (Hoare.stop' (Q := fun _ => P) hE (by decide)).bind fun _ => h3) fun _ => h3

theorem CM.Hoare.listLoop (e : Endian) (n : Nat) : Hoare P (listLoop e n) (fun _ => P) E := by
  induction n with
  | zero => exact Hoare.stop' hE (by decide)
  | succ n ih =>
    unfold Nbd.listLoop
    refine (Hoare.listStep st hE e).bind fun b => ?_
    simp only []
    exact Hoare.ite (fun _ => (Hoare.csendRequest st ..).bind fun _ =>
      (Hoare.stop' (Q := fun _ => P) hE (by decide)).bind fun _ => ih) fun _ => ih

theorem CM.Hoare.cliSecure (e : Endian) : Hoare P (cliSecure e) (fun _ => P) E := by
  unfold Nbd.cliSecure
  refine (Hoare.creadFull st hE 8).bind fun m => ?_
  simp only []
  refine Hoare.ite (fun _ => (Hoare.stop' (Q := fun _ => P) hE (by decide)).bind fun _ => ?_) fun _ => ?_
  all_goals
    refine (Hoare.creadFull st hE 4).bind fun o => ?_
    refine Hoare.ite (fun _ => (Hoare.stop' (Q := fun _ => P) hE (by decide)).bind fun _ => ?_) fun _ => ?_
    all_goals
      refine (Hoare.creadFull st hE 4).bind fun o => ?_
      refine Hoare.ite (fun _ => (Hoare.stop' (Q := fun _ => P) hE (by decide)).bind fun _ => ?_) fun _ => ?_
      all_goals
        refine (Hoare.creadFull st hE 4).bind fun o => ?_
        refine Hoare.ite (fun _ => (Hoare.stop' (Q := fun _ => P) hE (by decide)).bind fun _ => ?_) fun _ => ?_
        all_goals exact Hoare.modify fun s h => st.secured s h

theorem CM.Hoare.cliStarttls (e : Endian) : Hoare P (cliStarttls e) (fun _ => P) E :=
  (Hoare.csendRequest st ..).bind fun _ => Hoare.cliSecure st hE e

theorem CM.Hoare.cliGreet (e : Endian) (c : CliConf) : Hoare P (cliGreet e c) (fun _ => P) E := by
  unfold Nbd.cliGreet
  refine (Hoare.cread st 8).bind fun m => ?_
  simp only []
  refine Hoare.ite (fun _ => (Hoare.stop' (Q := fun _ => P) hE (by decide)).bind fun _ => ?_) fun _ => ?_
  all_goals
    refine (Hoare.creadFull st hE 8).bind fun o => ?_
    refine Hoare.ite (fun _ => (Hoare.stop' (Q := fun _ => P) hE (by decide)).bind fun _ => ?_) fun _ => ?_
    all_goals
      refine (Hoare.creadFull st hE 2).bind fun o => ?_
      refine Hoare.ite (fun _ => (Hoare.stop' (Q := fun _ => P) hE (by decide)).bind fun _ => ?_) fun _ => ?_
      all_goals exact (Hoare.csend st _).bind fun _ => Hoare.pure fun _ h => h

theorem CM.Hoare.cliAsk (hU : ∀ s, P s → E .ub s) (e : Endian) (c : CliConf) (errm errh : List Byte) (gz : Bool) :
    Hoare P (cliAsk e c errm errh gz) (fun _ => P) E := by
  unfold Nbd.cliAsk
  refine (Hoare.get (Q := fun _ => P) fun _ h => h).bind fun s => ?_
  refine Hoare.ite (fun _ => (Hoare.csendRequest st ..).bind fun _ => Hoare.listLoop st hE e _) fun _ =>
    Hoare.ite (fun _ => Hoare.csendExportName st hE e c gz) fun _ =>
      (Hoare.csendInfo st ..).bind fun _ => Hoare.goLoop st hE hU e c gz errm errh _

/-- Without GO nothing undefined happens. -/
theorem CM.Hoare.cliAsk' (e : Endian) (c : CliConf) (hc : c.list = true ∨ c.noOptgo = true) (errm errh : List Byte) (gz : Bool) :
    Hoare P (Nbd.cliAsk e c errm errh gz) (fun _ => P) E := by
  unfold Nbd.cliAsk
  refine (Hoare.get (Q := fun _ => P) fun _ h => h).bind fun s => ?_
  refine Hoare.ite (fun _ => (Hoare.csendRequest st ..).bind fun _ => Hoare.listLoop st hE e _) fun hl =>
    Hoare.ite (fun _ => Hoare.csendExportName st hE e c gz) fun hg => ?_
  rcases hc with hc | hc
  · exact absurd hc hl
  · exact absurd hc hg

end

/-- The final state of a step. -/
def CRes.state {α : Type} : CRes α → CState
  | .ok _ s => s
  | .stop _ s => s

/-- The output has only grown. -/
structure Grew (a b : CState) : Prop where
  plain : a.plainOut <+: b.plainOut
  tls : a.tlsOut <+: b.tlsOut

theorem Grew.stable (a : CState) : CStable (Grew a) := by
  refine ⟨fun s n h => ⟨h.plain, h.tls⟩, fun s bs h => ?_, fun s _ _ h => ⟨h.plain, h.tls⟩, fun s _ h => ⟨h.plain, h.tls⟩,
    fun s h => ⟨h.plain, h.tls⟩⟩
  unfold CState.said
  split
  · exact ⟨h.plain, h.tls.trans (List.prefix_append ..)⟩
  · exact ⟨h.plain.trans (List.prefix_append ..), h.tls⟩

theorem CM.Hoare.grew {α : Type} {m : CM α} {s : CState} (h : Hoare (Grew s) m (fun _ => Grew s) (fun _ => Grew s)) :
    Grew s (m s).state := by
  have := h.h s ⟨List.prefix_refl _, List.prefix_refl _⟩
  cases hq : m s <;> rw [hq] at this <;> exact this

theorem goLoop_grew (e : Endian) (c : CliConf) (gz : Bool) (errm errh : List Byte) (n : Nat) (s : CState) :
    Grew s (goLoop e c gz errm errh n s).state :=
  (CM.Hoare.goLoop (Grew.stable s) (fun _ _ _ h => h) (fun _ h => h) e c gz errm errh n).grew

theorem csendExportName_grew (e : Endian) (c : CliConf) (gz : Bool) (s : CState) :
    Grew s (csendExportName e c gz s).state :=
  (CM.Hoare.csendExportName (Grew.stable s) (fun _ _ _ h => h) e c gz).grew

theorem listLoop_grew (e : Endian) (n : Nat) (s : CState) : Grew s (listLoop e n s).state :=
  (CM.Hoare.listLoop (Grew.stable s) (fun _ _ _ h => h) e n).grew

theorem cliAsk_grew (e : Endian) (c : CliConf) (errm errh : List Byte) (gz : Bool) (s : CState) :
    Grew s (cliAsk e c errm errh gz s).state :=
  (CM.Hoare.cliAsk (Grew.stable s) (fun _ _ _ h => h) (fun _ h => h) e c errm errh gz).grew

end Nbd
