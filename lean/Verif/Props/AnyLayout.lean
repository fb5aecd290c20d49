import Verif.SafeAny
import Verif.Props.Session
import Verif.Props.CowConf
import Verif.Props.Whole
/-! # C53, C04, C05 for every export that can be set up -/
set_option autoImplicit false

namespace Nbd.Spec
open Nbd

/-- A session on an export of this server: the export is what `setupexport` made of the flags, the
configured size and whatever the kernel said about the backing files, and it is not copy-on-write
and not waiting for its file. Nothing is asked of the sizes or the files. -/
structure ServesFiles (cl : Client) : Prop where
  setup : ∃ flags expected name probes, setupExport flags expected name probes = some cl.ex ∧
    has flags F_WAIT = false
  cow : has cl.ex.flags F_COPYONWRITE = false
  waiting : cl.waiting = false

end Nbd.Spec

namespace Nbd.Props
open Nbd Nbd.Spec

theorem servesFiles_unpaged {cl : Client} (h : ServesFiles cl) : Unpaged cl := by
  obtain ⟨flags, expected, name, probes, hs, hw⟩ := h.setup
  refine ⟨?_, by unfold Client.paged; rw [h.cow, h.waiting]; rfl⟩
  cases ht : has flags F_TREEFILES with
  | true =>
    left
    unfold setupExport at hs
    rw [ht] at hs
    simp only [Bool.true_or, if_true, Option.some.injEq] at hs
    rw [← hs]
    exact ht
  | false =>
    right
    exact ⟨setup_tree_kept hs ht, setupExport_rooted hs ht hw⟩

/-- **C53** (partial: not splice exports over TLS, where it is false, `C04_false_tls_splice`).
For every export the server can set up — one file or many, empty ones among them, the same file
twice, any size up to 2^64 - 1, trees — whatever bytes a client sends and however the store
behaves: the process never runs into undefined behaviour, and ends because the client disconnects,
goes away, or sends a wrong magic number; only on a tree can it also exit on purpose. -/
theorem C53_every_layout_partial (e : Endian) (cl : Client) (w : World) (h : ServesFiles cl)
    (hs : cl.tls = false ∨ has cl.ex.flags F_SPLICE = false) (stream : List Byte) :
    (mainloop e cl w stream).ending = .gone ∨ (mainloop e cl w stream).ending = .disconnected ∨
    (has cl.ex.flags F_TREEFILES = true ∧ (mainloop e cl w stream).ending = .exit) :=
  mainloop_rooted e cl w stream (servesFiles_unpaged h) hs

/-- **C04, C05** (partial: as above). On every such export of files, every well-formed request sent
is carried out, in order and with its own payload, and answered by exactly one complete reply. -/
theorem C04_C05_every_layout_partial (e : Endian) (cl : Client) (w : World) (h : ServesFiles cl)
    (hs : cl.tls = false ∨ has cl.ex.flags F_SPLICE = false)
    (ht : has cl.ex.flags F_TREEFILES = false) (ss : List Sent)
    (hok : ∀ s ∈ ss, s.Ok) (tail : List Byte)
    (htail : tail.length < 28 ∨ ∃ (r : Request) (junk : List Byte), r.Fits ∧ r.magic = 0x25609513 ∧
      r.type = 2 ∧ tail = r.encode ++ junk) :
    let run := mainloop e cl w (ss.flatMap Sent.encode ++ tail)
    ∃ rs, run.handled.map Done.sent = ss.map Sent.fields ∧
      run.sent = wire rs ∧ Answers (ss.map (fun s => s.req.cookie)) rs := by
  obtain ⟨k, rs, h1, h2, h3, h4, h5⟩ := C04_C05_session e cl w ss hok tail htail
  have hsafe := C53_every_layout_partial e cl w h hs (ss.flatMap Sent.encode ++ tail)
  have hk : k = ss.length := by
    by_cases hlt : k < ss.length
    · rcases h5 hlt with h | h <;> rw [h, ht] at hsafe <;> simp at hsafe
    · omega
  subst hk
  rw [List.take_length] at h2 h4
  exact ⟨rs, h2, h3, h4⟩

/-! ### An export with an empty file in the middle, and one file used twice -/

/-- `disk.0` of 4 bytes, an empty `disk.1`, and `disk.2`, a link to `disk.0`. -/
def oddProbes : List ProbeFile :=
  [⟨3, true, true, none, some (true, 4), 0⟩, ⟨4, true, true, none, some (true, 0), 0⟩,
   ⟨3, true, true, none, some (true, 4), 0⟩]

def oddEx : Export := ⟨F_MULTIFILE, 8, [⟨3, 0⟩, ⟨4, 4⟩, ⟨3, 4⟩], ['d']⟩

/-- The layout is not one of the plain ones: two files start at the same place. -/
example : setupExport F_MULTIFILE 0 ['d'] oddProbes = some oddEx ∧ ¬ GoodExport oddEx := by
  refine ⟨by decide +kernel, ?_⟩
  intro hg
  have := (hg.files (by decide)).sorted
  simp [oddEx] at this

def oddClient (structured : Bool) : Client := ⟨oddEx, false, [], 0, 0, 0, structured, false⟩

example (s : Bool) : ServesFiles (oddClient s) ∧ (oddClient s).tls = false ∧
    has (oddClient s).ex.flags F_TREEFILES = false :=
  ⟨⟨⟨F_MULTIFILE, 0, ['d'], oddProbes, by show _ = some oddEx; decide +kernel, by decide⟩,
    by decide +revert, rfl⟩, rfl, by decide +revert⟩

/-- A size that could not be found out: the export is 2^64 - 1 bytes long, and ranges wrap. -/
def hugeProbes : List ProbeFile := [⟨3, true, true, none, none, 0⟩]
def hugeClient : Client := ⟨⟨0, 2 ^ 64 - 1, [⟨3, 0⟩], ['d']⟩, false, [], 0, 0, 0, false, false⟩

example : ServesFiles hugeClient ∧ ¬ GoodExport hugeClient.ex :=
  ⟨⟨⟨0, 0, ['d'], hugeProbes, by decide +kernel, by decide⟩, by decide, rfl⟩,
   fun h => absurd h.size (by decide)⟩

end Nbd.Props
