import Verif.Props.TrMain
import Verif.Props.SchedCrash
/-! # nbd-trplay on the log of a session with several worker threads (C90) -/

set_option autoImplicit false

namespace Nbd
namespace Props
open Spec

/-- Options that are accepted give a block size and a limit of at least 1. -/
theorem play_options_pos (env : PlayEnv) (opts : List PlayOpt) (hopts : ∀ o ∈ opts, PlayOpt.Fine env o)
    (bsz max : Nat) (hbsz : bsz = lastOpt PlayOpt.blockOf 512 opts) (hmax : max = lastOpt PlayOpt.maxOf (2 ^ 64 - 1) opts) :
    0 < bsz ∧ 0 < max := by
  have pos : ∀ (f : PlayOpt → Option Nat), (∀ o, PlayOpt.Fine env o → ∀ x, f o = some x → 0 < x) → ∀ (l : List PlayOpt) (d : Nat),
      (∀ o ∈ l, PlayOpt.Fine env o) → 0 < d → 0 < lastOpt f d l := by
    intro f hf l
    induction l with
    | nil => intro d _ hd; exact hd
    | cons o l ih =>
      intro d hl hd
      refine ih _ (fun x hx => hl x (List.mem_cons_of_mem _ hx)) ?_
      have ho := hl o (List.mem_cons_self ..)
      show 0 < (f o).getD d
      cases hx : f o with
      | none => exact hd
      | some y => exact hf o ho y hx
  have hb0 : 0 < bsz := by
    rw [hbsz]
    refine pos _ ?_ opts _ hopts (by decide)
    intro o ho x hx
    cases o <;> simp only [PlayOpt.blockOf] at hx <;> cases hx
    exact ho.1
  have hm0 : 0 < max := by
    rw [hmax]
    refine pos _ ?_ opts _ hopts (by decide)
    intro o ho x hx
    cases o <;> simp only [PlayOpt.maxOf] at hx <;> cases hx
    exact ho
  exact ⟨hb0, hm0⟩

/-- **C90** with any number of worker threads: the whole way from a session to the image, for nbd-trplay started as it should be. The
conditions on the session are those of `C41_threads_partial`, of which this is the composition with the reading of the command
line. Missing: as there. -/
theorem C90_threads_partial (e : Endian) (cl : Client) (w : World) (hcl : Flatfile cl) (hlog : has cl.ex.flags F_DATALOG = true)
    (ss : List Sent) (hok : ∀ s ∈ ss, s.Ok)
    (fin : Option Request) (hfin : ∀ r ∈ fin, r.IsDisc)
    (env : PlayEnv) (opts : List PlayOpt) (hopts : ∀ o ∈ opts, PlayOpt.Fine env o)
    (bsz max : Nat) (hbsz : bsz = lastOpt PlayOpt.blockOf 512 opts) (hmax : max = lastOpt PlayOpt.maxOf (2 ^ 64 - 1) opts)
    (hal : ∀ s ∈ ss, s.req.start % bsz = 0 ∧ s.req.len % bsz = 0)
    (half : ∀ r ∈ fin, r.start % bsz = 0 ∧ r.len % bsz = 0)
    (hcode : ∀ s ∈ ss, s.req.type % 65536 ∈ [0, 1, 3, 6])
    (hz : ∀ s ∈ ss, s.req.type % 65536 = 6 → s.req.len ≤ 64 * 1024 * 1024)
    (hsimple : cl.structured = false ∨ ∀ s ∈ ss, s.req.type % 65536 ≠ 0)
    (errnos : List Nat) (T : System World) (tr : List (Nat × Ext))
    (hx : Exec (fun _ => plainServer e cl true)
      ⟨⟨w, none, (setupLog e cl.ex.flags []).file⟩,
        [Session.fresh (ss.flatMap Sent.encode ++ closing fin) errnos (setupLog e cl.ex.flags []).pos]⟩ tr T)
    (s : Session World) (hs : T.sessions[0]? = some s) (hov : s.main = .over)
    (hacc : ∀ (i : Nat) (x : Sent), ss[i]? = some x → x.req.type % 65536 = 1 ∨ x.req.type % 65536 = 6 →
      messagesFor 0 i tr = [(Reply.simple 0 x.req.cookie []).encode])
    (hturn : InTurn ss tr)
    (id : FileId) (himage : lastOpt (PlayOpt.imageOf env) none opts = some id)
    (hfile : lastOpt (PlayOpt.logOf env) none opts = some T.sh.file)
    (w0 : World) (img : File) (himg : w0.files id = some img) (hcopy : img.data = view cl.ex w)
    (hmoves : ∀ t, w0.orc t ≠ .done 0)
    (p : Played) (hplay : p = playMain e env opts w0) :
    (p.code = 0 ∨ (p.code = 1 ∧ ∃ t n, w0.orc t = .err n)) ∧
    (p.code = 0 →
      ∃ img', p.w.files id = some img' ∧
        img'.data = applyBlocks (view cl.ex w) ((ss.flatMap fun s => s.req.pieces bsz s.data).take max) ∧
        p.blocks = min max (ss.flatMap fun s => s.req.pieces bsz s.data).length ∧
        ((ss.flatMap fun s => s.req.pieces bsz s.data).length ≤ max → img'.data = view cl.ex T.sh.st)) := by
  obtain ⟨hb0, hm0⟩ := play_options_pos env opts hopts bsz max hbsz hmax
  refine C41_threads_partial e cl w hcl hlog ss hok fin hfin bsz max hb0 hm0 hal half hcode hz hsimple errnos T tr hx s hs hov hacc
    hturn w0 id img himg hcopy hmoves p ?_
  rw [hplay, C90_last_options e env opts w0 hopts, himage, hfile, ← hbsz, ← hmax]

/-- A session with two threads whose writes are carried out in the other order meets the conditions on the session beside
`C41_threads_partial`; here nbd-trplay is run on the log it leaves. -/
example : ∃ tr T, Exec (fun _ => plainServer .little (logClient false) true)
      ⟨⟨Demo.world, none, (setupLog .little (logClient false).ex.flags []).file⟩,
        [Session.fresh ([Demo.write 4 [10, 11, 12, 13], Demo.write 8 [20, 21]].flatMap Sent.encode ++ closing (some logBye)) [0, 0]
          (setupLog .little (logClient false).ex.flags []).pos]⟩ tr T ∧
    (messages 0 tr).map Prod.fst = [1, 0] ∧
    lastOpt (PlayOpt.logOf { playEnv with openLog := fun _ => some T.sh.file }) none playOptions = some T.sh.file ∧
    (playMain .little { playEnv with openLog := fun _ => some T.sh.file } playOptions (imageWorld Demo.stingy)).code = 0 ∧
    ((playMain .little { playEnv with openLog := fun _ => some T.sh.file } playOptions (imageWorld Demo.stingy)).w.files (.fd 9)).map
      (fun f => f.data.read 2 9) = some [3, 4, 10, 11, 12, 13, 20, 21, 6] := by
  obtain ⟨tr, T, h1, h2⟩ := System.play_check (fun _ => plainServer .little (logClient false) true)
    ⟨⟨Demo.world, none, (setupLog .little (logClient false).ex.flags []).file⟩,
      [Session.fresh ([Demo.write 4 [10, 11, 12, 13], Demo.write 8 [20, 21]].flatMap Sent.encode ++ closing (some logBye)) [0, 0]
        (setupLog .little (logClient false).ex.flags []).pos]⟩
    (List.replicate 4 (0, .main) ++ [(0, .work 0 9)] ++ List.replicate 20 (0, .work 1 9) ++ List.replicate 20 (0, .work 0 9) ++
      List.replicate 4 (0, .main))
    (fun tr T => (messages 0 tr).map Prod.fst == [1, 0] &&
      (lastOpt (PlayOpt.logOf { playEnv with openLog := fun _ => some T.sh.file }) none playOptions == some T.sh.file &&
      ((playMain .little { playEnv with openLog := fun _ => some T.sh.file } playOptions (imageWorld Demo.stingy)).code == 0 &&
      ((playMain .little { playEnv with openLog := fun _ => some T.sh.file } playOptions (imageWorld Demo.stingy)).w.files
        (.fd 9)).map (fun f => f.data.read 2 9) == some [3, 4, 10, 11, 12, 13, 20, 21, 6]))) (by decide +kernel)
  simp only [Bool.and_eq_true, beq_iff_eq] at h2
  exact ⟨tr, T, h1, h2⟩

end Props
end Nbd
