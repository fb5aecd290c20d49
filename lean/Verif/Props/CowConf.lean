import Verif.Props.Cow
import Verif.Props.Config
/-! # C11 from the configuration: the copy-on-write exports a server can have -/

set_option autoImplicit false

namespace Nbd.Spec

/-- The exports a server can come to have: a group of a configuration file that was accepted, or the export of the command
line. -/
def Configured (s : Srv) : Prop :=
  (∃ b g, parseExport b g = some s) ∨ ∃ digits opts st, cmdline digits opts = .run (some s) st

end Nbd.Spec

namespace Nbd.Props

open Nbd.Spec

theorem has_or_of (a m n : Nat) (h : m &&& n = 0) : has (a ||| m) n = has a n := by
  unfold has
  rw [Nat.and_or_distrib_right, h, Nat.or_zero]

theorem cmdLoop_nosplice (opts : List CmdOpt) : ∀ st st', cmdLoop opts st = .val st' → has st.serve.flags F_SPLICE = false →
    has st'.serve.flags F_SPLICE = false := by
  induction opts with
  | nil => intro st st' h hs; cases h; exact hs
  | cons o os ih =>
    intro st st' h hs
    unfold cmdLoop at h
    cases hq : cmdStep st o with
    | ub => rw [hq] at h; cases h
    | exit => rw [hq] at h; cases h
    | val st1 =>
      rw [hq] at h
      refine ih st1 st' h ?_
      cases o with
      | arg v =>
        simp only [cmdStep] at hq
        repeat' (split at hq)
        all_goals first | (cases hq; exact hs) | cases hq
      | readOnly => cases hq; show has (_ ||| _) _ = _; rw [has_or_of _ _ _ (by decide)]; exact hs
      | multiFile => cases hq; show has (_ ||| _) _ = _; rw [has_or_of _ _ _ (by decide)]; exact hs
      | copyOnWrite => cases hq; show has (_ ||| _) _ = _; rw [has_or_of _ _ _ (by decide)]; exact hs
      | version => cases hq
      | unknown => cases hq
      | _ => cases hq; exact hs

/-- No server has an export with copy-on-write and splicing. -/
theorem configured_nosplice (s : Srv) (h : Configured s) (hc : has s.flags F_COPYONWRITE = true) :
    has s.flags F_SPLICE = false := by
  rcases h with ⟨b, g, h⟩ | ⟨digits, opts, st, h⟩
  · have hf := (C50_flags h).1
    have ha := ((C50_accepted b g).mp ⟨s, h⟩).cowSplice
    cases hs : has s.flags F_SPLICE with
    | false => rfl
    | true => exact absurd ⟨(hf ("copyonwrite", F_COPYONWRITE) (by decide)).mp hc, (hf ("splice", F_SPLICE) (by decide)).mp hs⟩ ha
  · unfold cmdline at h
    split at h
    · cases h
    · cases h
    · rename_i st1 hl
      have := cmdLoop_nosplice opts _ _ hl (by decide)
      simp only [] at h
      split at h
      · split at h
        · cases h
        · cases h; exact this
      · split at h <;> cases h

/-- **C11** for every server (partial as `C11_partial`: requests that do not run into undefined behaviour). Whatever the
configuration files and the command line say, as long as the sessions' exports have copy-on-write; any number of clients, any
bytes, any order, any kernel: no file but the diff files of the sessions changes, and the original bytes of every export are
unchanged. -/
theorem C11_configured_partial (e : Endian) (sched : List (Nat × List Byte)) (cls : Nat → Client) (w : World) (srv : Nat → Srv)
    (hconf : ∀ i, Configured (srv i)) (hcow : ∀ i, has (srv i).flags F_COPYONWRITE = true)
    (hset : ∀ i, ∃ name probes, setupExport (srv i).flags (srv i).expected name probes = some (cls i).ex) :
    (∀ id f, (∀ x ∈ sched, id ≠ .fd (cls x.1).difffile) → w.files id = some f →
      (turns e sched cls w).2.2.files id = some f) ∧
    (∀ ex : Export, (∀ j a x, home ex a = some x → x.1 ≠ .fd (cls j).difffile) →
      original ex (turns e sched cls w).2.2 = original ex w) := by
  have hc : ∀ i, has (cls i).ex.flags F_COPYONWRITE = true ∧ has (cls i).ex.flags F_SPLICE = false := by
    intro i
    obtain ⟨name, probes, h⟩ := hset i
    have hs := configured_nosplice _ (hconf i) (hcow i)
    rcases setupExport_flags _ _ _ _ _ h with h | h
    · rw [h]; exact ⟨hcow i, hs⟩
    · rw [h, has_or_of _ _ _ (by decide), has_or_of _ _ _ (by decide), has_or_of _ _ _ (by decide), has_or_of _ _ _ (by decide)]
      exact ⟨hcow i, hs⟩
  have h := C11_partial e sched cls w hc
  exact ⟨h.1, fun ex hx => (h.2.1 ex hx).1⟩

/-- `nbd-server 10809 /x -c`. -/
def cowCmd : List CmdOpt := [.arg (ascii "10809"), .arg (ascii "/x"), .copyOnWrite]

def cowSrv : Srv :=
  { authname := some defaultAuth, virtstyle := .iplit, exportname := some (ascii "/x"), servename := some [], flags := F_COPYONWRITE }

theorem cowSrv_configured : Configured cowSrv := by
  have h : cmdLoop cowCmd { serve := { authname := some defaultAuth, virtstyle := .iplit } } = .val
      { serve := { authname := some defaultAuth, virtstyle := .iplit, exportname := some (ascii "/x"), flags := F_COPYONWRITE }
        nonspecial := 2, conf := { modernport := some (ascii "10809") } } := by decide +kernel
  refine .inr ⟨fun _ => [], cowCmd,
    { serve := { authname := some defaultAuth, virtstyle := .iplit, exportname := some (ascii "/x"), flags := F_COPYONWRITE }
      nonspecial := 2, conf := { modernport := some (ascii "10809") } }, ?_⟩
  unfold cmdline
  rw [h]
  rfl

-- Its sessions meet the hypotheses, whatever the clients send.
example (e : Endian) (sched : List (Nat × List Byte)) :
    original cowEx (turns e sched (cowClient true) cowWorld).2.2 = original cowEx cowWorld :=
  (C11_configured_partial e sched (cowClient true) cowWorld (fun _ => cowSrv) (fun _ => cowSrv_configured) (fun _ => by decide)
    (fun _ => ⟨[], [⟨3, true, true, none, some (true, 8192), 8192⟩], show _ = some cowEx by decide +kernel⟩)).2 cowEx (cowClient_own true).2

end Nbd.Props
