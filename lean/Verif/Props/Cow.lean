import Verif.CowSession
import Verif.Nego
import Verif.Demo
/-!
# Copy-on-write exports: C11, C12

`turns` runs any number of server processes, each serving one client, in any order. The diff file of a session is named by the file
descriptor `difffile`; the file ids of the model are global, so "a different diff file for every session" is a hypothesis here (see
DESIGN.md, and `C69` for the file names).
-/

set_option autoImplicit false

namespace Nbd.Spec

/-- The bytes of an export, without any session's changes. -/
def original (ex : Export) (w : World) : Flat := view ex w

/-- A session that has just begun: nothing saved in the diff file, which has just been created. -/
structure FreshCow (ex : Export) (cl : Client) (w : World) : Prop where
  serves : cl.ex = ex
  map : cl.difmap = List.replicate (ex.exportsize / 4096) 4294967295
  used : cl.difffilelen = 0
  pos : cl.diffpos = 0
  waiting : cl.waiting = false
  file : ∃ f, w.files (.fd cl.difffile) = some f

/-- The exports the theorem about copy-on-write contents is for: `copyonwrite = true` and neither `sparse_cow` nor `splice`, a whole
number of 4096-byte blocks, at most 4 GiB. -/
structure CowExport (ex : Export) : Prop where
  good : GoodExport ex
  cow : has ex.flags F_COPYONWRITE = true
  nosparse : has ex.flags F_SPARSE = false
  nosplice : has ex.flags F_SPLICE = false
  whole : ex.exportsize % 4096 = 0
  small : ex.exportsize ≤ 4294967296

/-- The diff files are different from each other and from the files of the export. -/
def OwnDiffs (ex : Export) (cls : Nat → Client) : Prop :=
  (∀ i j, i ≠ j → (cls i).difffile ≠ (cls j).difffile) ∧ ∀ j a x, home ex a = some x → x.1 ≠ .fd (cls j).difffile

/-- Every call on a file succeeds, and transfers at least 4096 bytes if asked to. -/
def NeverFails (w : World) : Prop := ∀ t, ∃ n, 4096 ≤ n ∧ w.orc t = .done n

end Nbd.Spec

namespace Nbd.Props

open Nbd.Spec

/-- `commit_client` gives every copy-on-write session a fresh client record. -/
theorem fresh_of_client (s : NState) (d : Nat) (cl : Client) (w : World) (ex : Export) (hex : s.ex = some ex)
    (h : s.client d = some cl) (hw : has ex.flags F_WAIT = false) (hf : ∃ f, w.files (.fd d) = some f) :
    FreshCow ex cl w := by
  unfold NState.client at h
  rw [hex] at h
  cases h
  exact ⟨rfl, rfl, rfl, rfl, hw, hf⟩

theorem fresh_ok {ex : Export} {cl : Client} {w : World} (h : FreshCow ex cl w) (hx : CowExport ex)
    (hown : ∀ a x, home ex a = some x → x.1 ≠ .fd cl.difffile) : CowOk cl w ∧ cowView cl w = view ex w ∧ ∀ q, ¬ Dirty cl q := by
  have hnone : ∀ p m : Nat, cl.difmap[p]? = some m → m = NOPAGE := by
    intro p m hm
    rw [h.map, List.getElem?_replicate] at hm
    split at hm
    · cases hm; rfl
    · cases hm
  refine ⟨?_, ?_, ?_⟩
  · refine ⟨h.serves ▸ hx.good, h.serves ▸ hx.cow, h.serves ▸ hx.nosparse, h.serves ▸ hx.nosplice, h.waiting, h.serves ▸ hx.whole, ?_, ?_, ?_, ?_, ?_, ?_, ?_, ?_⟩
    · rw [h.serves]; exact hx.small
    · rw [h.serves]; exact hown
    · rw [h.map, List.length_replicate, h.serves]
    · obtain ⟨f, hf⟩ := h.file
      exact ⟨f, hf, by rw [h.used]; omega⟩
    · rw [h.pos, h.used]
    · rw [h.used, h.map, List.countP_replicate, if_neg (by decide)]
    · intro p m hm hn; exact absurd (hnone p m hm) hn
    · intro p q m hm _ hn; exact absurd (hnone p m hm) hn
  · funext i
    unfold cowView
    rw [h.serves]
    split
    · split
      · rename_i m hm
        have := hnone _ _ hm
        simp [this]
      · rfl
    · rename_i hi
      unfold view
      rw [if_neg hi]
  · rintro q ⟨m, h1, h2⟩
    exact h2 (hnone q m h1)

/-! ## C11 -/

/-- **C11** (partial: for requests that do not run into undefined behaviour — see `C12_false_read` for ones that do —
and, in the last two parts, for sessions that are in a state reached without a failing system call). For all
copy-on-write exports, all numbers of clients, all bytes they send, all orders in which they are served and all kernels:

* a file that is not the diff file of a session keeps exactly its contents, size and history (files of a tree export that
  did not exist may appear, filled with zeroes);
* the original bytes of every export are unchanged, so that a session that begins afterwards starts from them;
* what a client that took no turn sees is unchanged. -/
theorem C11_partial (e : Endian) (sched : List (Nat × List Byte)) (cls : Nat → Client) (w : World)
    (hc : ∀ i, has (cls i).ex.flags F_COPYONWRITE = true ∧ has (cls i).ex.flags F_SPLICE = false) :
    (∀ id f, (∀ x ∈ sched, id ≠ .fd (cls x.1).difffile) → w.files id = some f →
      (turns e sched cls w).2.2.files id = some f) ∧
    (∀ ex : Export, (∀ j a x, home ex a = some x → x.1 ≠ .fd (cls j).difffile) →
      original ex (turns e sched cls w).2.2 = original ex w ∧
      ∀ cl, CowExport ex → FreshCow ex cl (turns e sched cls w).2.2 →
        (∀ a x, home ex a = some x → x.1 ≠ .fd cl.difffile) → cowView cl (turns e sched cls w).2.2 = original ex w) ∧
    (∀ i, (∀ x ∈ sched, x.1 ≠ i) → (∀ x ∈ sched, (cls x.1).difffile ≠ (cls i).difffile) →
      (∀ j a x, home (cls i).ex a = some x → x.1 ≠ .fd (cls j).difffile) → CowOk (cls i) w →
      (turns e sched cls w).2.1 i = cls i ∧ cowView (cls i) (turns e sched cls w).2.2 = cowView (cls i) w) := by
  have hk := (turns_keptOff e sched cls w hc).2
  have hfile : ∀ id f, (∀ x ∈ sched, id ≠ .fd (cls x.1).difffile) → w.files id = some f →
      (turns e sched cls w).2.2.files id = some f := by
    intro id f hid hf
    rcases hk id hid with h | ⟨_, h, _⟩
    · rw [h]; exact hf
    · rw [h] at hf; cases hf
  have hcontent : ∀ x : FileId × Nat, (∀ y ∈ sched, x.1 ≠ .fd (cls y.1).difffile) →
      content (turns e sched cls w).2.2 x = content w x := by
    intro x hx
    unfold content
    rcases hk x.1 hx with h | ⟨_, h, f, h2, h3⟩
    · rw [h]
    · rw [h, h2]; exact h3 _
  have hview : ∀ ex : Export, (∀ j a x, home ex a = some x → x.1 ≠ .fd (cls j).difffile) →
      view ex (turns e sched cls w).2.2 = view ex w := by
    intro ex hex
    funext a
    unfold view
    split
    · split
      · rename_i x hx
        exact hcontent x (fun y _ => hex y.1 a x hx)
      · rfl
    · rfl
  refine ⟨hfile, ?_, ?_⟩
  · intro ex hex
    refine ⟨hview ex hex, ?_⟩
    intro cl hx hfr hown
    rw [(fresh_ok hfr hx hown).2.1]
    exact hview ex hex
  · intro i hi hne hbase hok
    refine ⟨?_, ?_⟩
    · clear hk hfile hcontent hview hok hbase hne hc
      induction sched generalizing cls w with
      | nil => rfl
      | cons y rest ih =>
        rw [turns]
        have h1 := ih (fun j => if j = y.1 then (mainloop e (cls y.1) w y.2).cl else cls j) (mainloop e (cls y.1) w y.2).w
          (fun x hx => hi x (by simp [hx]))
        simp only [] at h1 ⊢
        rw [h1, if_neg (fun h => hi y (by simp) h.symm)]
    · funext a
      unfold cowView
      rw [hview (cls i).ex hbase]
      split
      · split
        · split
          · refine hcontent _ ?_
            intro y hy h
            exact hne y hy (by simpa using h.symm)
          · rfl
        · rfl
      · rfl

/-! ## C12 -/

/-- **C12** (partial: the part of the property that is true of the code). Any number of clients of one copy-on-write export, served in
any order: what each client receives is, byte for byte, the wire form of what a private flat copy of the original export answers to
that client's own commands. What is missing is in the hypotheses: no system call fails or is short, the export is a whole number of
4096-byte blocks and at most 4 GiB, and the commands are `Tractable` — above all, a read may touch a block written before only as its
last block. The theorems `C12_false_…` show that each of the restrictions on commands and exports is needed. -/
theorem C12_partial (e : Endian) (ex : Export) (hx : CowExport ex) (cls : Nat → Client) (w : World)
    (hfresh : ∀ i, FreshCow ex (cls i) w) (hown : OwnDiffs ex cls) (hb : Backed ex w) (hgen : NeverFails w)
    (sched : List (Nat × Sent)) (hs : ∀ x ∈ sched, x.2.Ok)
    (ht : ∀ i, AllTractable (cls i).structured ((sched.filter (fun x => x.1 == i)).map (fun x => x.2.cmd))) :
    ∀ i, ∃ rs g, sentTo i (turns e (sched.map (fun x => (x.1, x.2.encode))) cls w).1 = wire rs ∧
      SureRun ex.exportsize (has ex.flags F_READONLY || has ex.flags F_AUTOREADONLY) (cls i).structured (original ex w)
        ((sched.filter (fun x => x.1 == i)).map (fun x => x.2.cmd)) rs g := by
  intro i
  have hok := fun i => fresh_ok (hfresh i) hx (hown.2 i)
  obtain ⟨rs, h1, h2⟩ := turns_cow e sched cls w (fun _ => []) hs (fun i => (hok i).1) hgen
    (by intro i; rw [(hfresh i).serves]; exact hb) hown.1
    (by intro i j a x; rw [(hfresh i).serves]; exact hown.2 j a x)
    (by intro i q hq; exact absurd hq ((hok i).2.2 q))
    (by intro i pre c post h; exact ht i pre c post h) i
  rw [(hok i).2.1, (hfresh i).serves] at h2
  have hbw : badWrite (cls i) = (has ex.flags F_READONLY || has ex.flags F_AUTOREADONLY) := by
    unfold badWrite; rw [(hfresh i).serves]
  rw [hbw] at h2
  exact ⟨rs, _, h1, h2⟩

/-- **C12** for one client that sends all its requests in one stream (partial for the same reasons). -/
theorem C12_one_partial (e : Endian) (ex : Export) (hx : CowExport ex) (cl : Client) (w : World) (hfresh : FreshCow ex cl w)
    (hown : ∀ a x, home ex a = some x → x.1 ≠ .fd cl.difffile) (hb : Backed ex w) (hgen : NeverFails w)
    (ss : List Sent) (hs : ∀ s ∈ ss, s.Ok) (ht : AllTractable cl.structured (ss.map Sent.cmd)) :
    ∃ rs g, (mainloop e cl w (ss.map Sent.encode).flatten).sent = wire rs ∧
      (mainloop e cl w (ss.map Sent.encode).flatten).ending = .gone ∧
      SureRun ex.exportsize (has ex.flags F_READONLY || has ex.flags F_AUTOREADONLY) cl.structured (original ex w)
        (ss.map Sent.cmd) rs g := by
  obtain ⟨hok, hview, hclean⟩ := fresh_ok hfresh hx hown
  obtain ⟨rs, h1, h2, h3⟩ := mainloop_cow e ss cl w [] hs hok hgen (by rw [hfresh.serves]; exact hb)
    (fun q hq => absurd hq (hclean q)) ht
  have hbw : badWrite cl = (has ex.flags F_READONLY || has ex.flags F_AUTOREADONLY) := by
    unfold badWrite; rw [hfresh.serves]
  rw [hview, hfresh.serves, hbw] at h3
  exact ⟨rs, _, h1, h2, h3⟩

/-! ### A concrete export -/

/-- An export of two blocks. -/
def cowEx : Export := ⟨F_COPYONWRITE, 8192, [⟨3, 0⟩], []⟩

/-- A kernel that never fails; the exported file is 3, everything above 8 is a new file. -/
def cowWorld : World :=
  ⟨fun id => if id = .fd 3 then some (Demo.file 8192) else
     match id with
     | .fd n => if 9 ≤ n then some (File.clean (fun _ => 0) 0) else none
     | _ => none,
   fun _ => .done (2 ^ 31), 0, 0, fun _ => []⟩

/-- A new session on it; the diff file is `9 + i`. -/
def cowClient (structured : Bool) (i : Nat) : Client :=
  ⟨cowEx, false, [4294967295, 4294967295], 0, 9 + i, 0, structured, false⟩

theorem cowEx_ok : CowExport cowEx where
  good := ⟨by decide, fun _ => ⟨by decide, by decide, by decide⟩⟩
  cow := by decide
  nosparse := by decide
  nosplice := by decide
  whole := by decide
  small := by decide

theorem cowClient_fresh (s : Bool) (i : Nat) : FreshCow cowEx (cowClient s i) cowWorld where
  serves := rfl
  map := rfl
  used := rfl
  pos := rfl
  waiting := rfl
  file := ⟨File.clean (fun _ => 0) 0, by
    show (if FileId.fd (9 + i) = .fd 3 then _ else (if 9 ≤ 9 + i then _ else _)) = _
    rw [if_neg (by simp; omega), if_pos (by omega)]⟩

theorem cowEx_home (a : Nat) (x : FileId × Nat) (h : home cowEx a = some x) : x.1 = .fd 3 := by
  have ht : ¬ has cowEx.flags F_TREEFILES = true := by decide
  unfold home at h
  rw [if_neg ht] at h
  have hl : locate cowEx.files a = some (⟨3, 0⟩, none) := by
    simp [locate, cowEx]
  rw [hl] at h
  cases h
  rfl

theorem cowClient_own (s : Bool) : OwnDiffs cowEx (cowClient s) := by
  refine ⟨fun i j h => ?_, fun j a x h => ?_⟩
  · show 9 + i ≠ 9 + j; omega
  · rw [cowEx_home a x h]
    show FileId.fd 3 ≠ .fd (9 + j)
    simp; omega

theorem cowEx_backed : Backed cowEx cowWorld := by
  intro a ha
  refine ⟨.fd 3, a, Demo.file 8192, ?_, rfl, ha⟩
  have ht : ¬ has cowEx.flags F_TREEFILES = true := by decide
  unfold home
  rw [if_neg ht]
  simp [locate, cowEx]

/-- Client 0 writes at the start of the second block, client 1 reads there, client 0 reads across the blocks. -/
def cowSched : List (Nat × Sent) :=
  [(0, Demo.write 4096 [7]), (1, Demo.request 0 4095 2), (0, Demo.request 0 4095 2)]

theorem cowSched_tractable (i : Nat) :
    AllTractable false ((cowSched.filter (fun x => x.1 == i)).map (fun x => x.2.cmd)) := by
  have nil : ∀ c : Cmd, (c.code = 0 ∨ c.code = 1 → 0 < c.len) → c.code ≠ 6 → Tractable false [] c := by
    intro c h1 h2
    exact ⟨h1, fun h => absurd h h2, fun _ q _ hw => by obtain ⟨c, hm, _⟩ := hw; cases hm⟩
  intro before c after h
  match i with
  | 0 =>
    have h0 : ((cowSched.filter (fun x => x.1 == 0)).map (fun x => x.2.cmd)) =
      [(Demo.write 4096 [7]).cmd, (Demo.request 0 4095 2).cmd] := rfl
    rw [h0] at h
    match before, h with
    | [], h => cases h; exact nil _ (by decide) (by decide)
    | [x], h =>
      cases h
      refine ⟨by decide, by decide, ?_⟩
      intro _ q _ hw
      obtain ⟨c, hm, _, hl, h1, h2⟩ := hw
      simp only [List.mem_singleton] at hm
      subst hm
      have h1 : 4096 / 4096 ≤ q := h1
      have h2 : q ≤ (4096 + 1 - 1) / 4096 := h2
      refine ⟨?_, by simp⟩
      show q = (4095 + 2 - 1) / 4096
      omega
    | x :: y :: z, h =>
      have := congrArg List.length h
      simp at this
  | 1 =>
    have h0 : ((cowSched.filter (fun x => x.1 == 1)).map (fun x => x.2.cmd)) = [(Demo.request 0 4095 2).cmd] := rfl
    rw [h0] at h
    match before, h with
    | [], h => cases h; exact nil _ (by decide) (by decide)
    | x :: y, h =>
      have := congrArg List.length h
      simp at this
  | n + 2 =>
    have h0 : ((cowSched.filter (fun x => x.1 == n + 2)).map (fun x => x.2.cmd)) = [] := by
      simp [cowSched]
    rw [h0] at h
    have := congrArg List.length h
    simp at this

theorem cowSched_ok : ∀ x ∈ cowSched, x.2.Ok := by
  intro x hx
  simp only [cowSched, List.mem_cons, List.not_mem_nil, or_false] at hx
  rcases hx with rfl | rfl | rfl
  · exact ⟨⟨by decide, by decide, by decide, by decide, by decide⟩, rfl, by decide, by decide⟩
  · exact ⟨⟨by decide, by decide, by decide, by decide, by decide⟩, rfl, by decide, by decide⟩
  · exact ⟨⟨by decide, by decide, by decide, by decide, by decide⟩, rfl, by decide, by decide⟩

theorem cowWorld_fine : NeverFails cowWorld := fun _ => ⟨2 ^ 31, by decide, rfl⟩

-- The hypotheses of C12 are met by two clients whose requests alternate.
example (e : Endian) := C12_partial e cowEx cowEx_ok (cowClient false) cowWorld (cowClient_fresh false) (cowClient_own false)
  cowEx_backed cowWorld_fine cowSched cowSched_ok cowSched_tractable

-- The hypotheses of C11 are met by the same clients, whatever they send.
example (e : Endian) (sched : List (Nat × List Byte)) :
    original cowEx (turns e sched (cowClient true) cowWorld).2.2 = original cowEx cowWorld :=
  ((C11_partial e sched (cowClient true) cowWorld (fun _ => ⟨(by decide : has cowEx.flags F_COPYONWRITE = true),
    (by decide : has cowEx.flags F_SPLICE = false)⟩)).2.1 cowEx (cowClient_own true).2).1

end Nbd.Props
