import Verif.SchedTreeRO
import Verif.Props.TreeLinear
/-!
# C72 on read-only tree exports

Where a block file is missing, the server reads from a temporary file of zero bytes. Nothing is created, so what made
`C72_tree_false` possible on a writable tree cannot happen.

As in `Props/Linear.lean` for exports that are neither copy-on-write nor waiting for a file, without splice; hence `_partial`.
-/

set_option autoImplicit false

namespace Nbd
namespace Props
open Spec

/-- All sessions serve the export `ex`, a read-only tree of block files, each with its own settings. -/
structure OneTreeRO (ex : Export) (cls : Nat → Client) : Prop where
  same : ∀ sid, (cls sid).ex = ex
  tree : ∀ sid, Treefile (cls sid)
  readonly : has ex.flags F_READONLY = true

theorem OneTreeRO.badWrite {ex : Export} {cls : Nat → Client} (h : OneTreeRO ex cls) (sid : Nat) : badWrite (cls sid) = true := by
  cases hb : Nbd.badWrite (cls sid) with
  | true => rfl
  | false =>
    have := notReadonly hb
    rw [h.same sid, h.readonly] at this
    cases this

theorem treeRO_history (e : Endian) (ex : Export) (cls : Nat → Client) (lgs : Nat → Bool) (hcl : OneTreeRO ex cls)
    (S T : System World) (tr : List (Nat × Ext)) (hf : ∀ s ∈ S.sessions, s.Fresh)
    (hx : Exec (fun sid => treeServer e (cls sid) (lgs sid)) S tr T) :
    T.sh.st.files = S.sh.st.files ∧
    ∃ h, Spec.visible h = tr ∧
      Hist (fun sid => Complete ex.exportsize true [(cls sid).structured]) asked (view ex S.sh.st) (view ex T.sh.st) h ∧
      ∀ (sid : Nat) s, T.sessions[sid]? = some s → s.main = .over → ∀ j ∈ recvs sid h,
        Complete ex.exportsize true [(cls sid).structured] (asked j) (mine sid j.id h) := by
  have hv : ∀ sid, (treeServer e (cls sid) (lgs sid)).MeetsI (FilesAre S.sh.st.files) (view ex) Job.Wf
      (fun j => Complete ex.exportsize true [(cls sid).structured] (asked j))
      (fun j l => ∃ more, Complete ex.exportsize true [(cls sid).structured] (asked j) (l ++ more)) := by
    intro sid
    have := treeServer_meetsI e (cls sid) (hcl.tree sid) (by rw [hcl.same sid]; exact hcl.readonly) S.sh.st.files (lgs sid)
    rw [hcl.same sid, hcl.badWrite sid] at this
    exact this
  obtain ⟨h1, h2, -⟩ := hx.guard hv hf rfl
  refine ⟨h2, ?_⟩
  obtain ⟨h, k1, k2, k3⟩ := history_of (C := fun sid => Complete ex.exportsize true [(cls sid).structured])
    (fun sid => (hv sid).guard) S _ tr hf h1
  refine ⟨h, k1, k2, ?_⟩
  intro sid s hs ho
  exact k3 sid (s.guard (FilesAre S.sh.st.files)) (by show (T.sessions.map _)[sid]? = _; rw [List.getElem?_map, hs]; rfl) ho

/-- What is done for a command on a read-only export stores nothing. -/
theorem complete_noput {size : Nat} {fr : List Bool} {c : Cmd} {l : List Act} (h : Complete size true fr c l) {i : Nat} {b : Byte} :
    .put i b ∉ l := by
  intro hp
  obtain ⟨rs, -, hd, -⟩ := h
  have := mem_accesses_put.mpr hp
  generalize Act.accesses l = as at hd this
  have hg : ∀ (a : Nat) (d : List Byte), .put i b ∉ gets a d := by
    intro a d
    induction d generalizing a with
    | nil => simp [gets]
    | cons x d ih =>
      simp only [gets, List.mem_cons, not_or]
      exact ⟨(by intro h; cases h), ih _⟩
  cases hd <;> first | exact hg _ _ this | (rename_i hw _; cases hw) | cases this | skip
  all_goals simp_all

/-- **C72** on read-only tree exports. Any number of connections to one export, any number of worker threads each, any
interleaving: no file changes, and there is a history of single byte accesses and messages as in `C72_interleaving_partial`: what is
done for a request is what its command does on a plain read-only file. -/
theorem C72_tree_readonly_partial (e : Endian) (ex : Export) (cls : Nat → Client) (lgs : Nat → Bool) (hcl : OneTreeRO ex cls)
    (S T : System World) (tr : List (Nat × Ext)) (hf : ∀ s ∈ S.sessions, s.Fresh)
    (hx : Exec (fun sid => treeServer e (cls sid) (lgs sid)) S tr T) :
    T.sh.st.files = S.sh.st.files ∧
    ∃ h, Spec.visible h = tr ∧ Causal h ∧ Legal (view ex S.sh.st) (acts h) (view ex T.sh.st) ∧
      ∀ (sid : Nat) s, T.sessions[sid]? = some s → ∀ j ∈ received sid tr,
        ∃ more, Complete ex.exportsize true [(cls sid).structured] (asked j) (mine sid j.id h ++ more) ∧
          (s.main = .over → more = []) := by
  obtain ⟨h0, h, h1, h2, h3⟩ := treeRO_history e ex cls lgs hcl S T tr hf hx
  refine ⟨h0, h, h1, h2.causal, h2.legal, ?_⟩
  intro sid s hs j hj
  rw [← h1, recvs_visible] at hj
  by_cases hov : s.main = .over
  · exact ⟨[], by rw [List.append_nil]; exact h3 sid s hs hov j hj, fun _ => rfl⟩
  · obtain ⟨more, hm⟩ := h2.does sid j hj
    exact ⟨more, hm, fun hh => absurd hh hov⟩

theorem mem_mine {sid jid : Nat} {x : Act} {h : List Ev} : x ∈ mine sid jid h ↔ .act sid jid x ∈ h := by
  induction h with
  | nil => simp [mine]
  | cons ev h ih =>
    cases ev with
    | recv s j => simp [mine, ih]
    | act s j y =>
      unfold mine
      split
      · rename_i hs
        obtain ⟨rfl, rfl⟩ := hs
        simp [ih]
      · rename_i hs
        rw [ih]
        simp only [List.mem_cons, Ev.act.injEq, iff_or_self]
        rintro ⟨rfl, rfl, -⟩
        exact absurd ⟨rfl, rfl⟩ hs

theorem mem_recvs_prefix {sid : Nat} {j : Job} {a b : List Ev} (h : j ∈ recvs sid a) : j ∈ recvs sid (a ++ b) := by
  induction a with
  | nil => cases h
  | cons ev a ih =>
    cases ev with
    | recv s j' =>
      simp only [List.cons_append, recvs] at h ⊢
      split at h
      · rename_i hs
        rw [if_pos hs]
        rcases List.mem_cons.mp h with rfl | h
        · exact List.mem_cons_self
        · exact List.mem_cons_of_mem _ (ih h)
      · rename_i hs
        rw [if_neg hs]
        exact ih h
    | act s j' x => exact ih h

theorem legal_unchanged {f g : Flat} {l : List Act} (h : Legal f l g) (hn : ∀ i b, .put i b ∉ l) :
    ∀ i b, .get i b ∈ l → b = f i := by
  induction h with
  | nil f => intro i b hb; cases hb
  | get f g i b l hb h ih =>
    intro i' b' hm
    rcases List.mem_cons.mp hm with hm | hm
    · cases hm; exact hb.symm
    · exact ih (fun i b hh => hn i b (List.mem_cons_of_mem _ hh)) i' b' hm
  | put f g i b l h ih => exact absurd List.mem_cons_self (hn i b)
  | msg f g m l h ih =>
    intro i' b' hm
    rcases List.mem_cons.mp hm with hm | hm
    · cases hm
    · exact ih (fun i b hh => hn i b (List.mem_cons_of_mem _ hh)) i' b' hm

/-- **C72** on read-only tree exports, from outside. Whatever any message of a finished answer to a read says a byte of the export is, that is what the byte
was to begin with; a byte of a block without a file is zero (`view`). -/
theorem C72_tree_readonly_reads_partial (e : Endian) (ex : Export) (hsize : ex.exportsize ≤ 2 ^ 63) (cls : Nat → Client)
    (lgs : Nat → Bool) (hcl : OneTreeRO ex cls) (S T : System World) (tr : List (Nat × Ext)) (hf : ∀ s ∈ S.sessions, s.Fresh)
    (hx : Exec (fun sid => treeServer e (cls sid) (lgs sid)) S tr T) (sid : Nat) (j : Job) (m last : Msg)
    (hj : (sid, .recv j) ∈ tr) (hm : (sid, .sent j.id m) ∈ tr) (hl : (sid, .sent j.id last) ∈ tr) (hlast : Finishes last.bytes) (hc : (asked j).code = 0) (i : Nat) (b : Byte)
    (hd : Delivers (asked j) m.bytes i b) : b = view ex S.sh.st i := by
  obtain ⟨-, h, h1, h2, h3⟩ := treeRO_history e ex cls lgs hcl S T tr hf hx
  have hnoput : ∀ i b, .put i b ∉ acts h := by
    intro i b hp
    obtain ⟨s, jid, hp⟩ := mem_acts.mp hp
    obtain ⟨pre, post, hh⟩ := List.append_of_mem hp
    obtain ⟨j', hj', rfl⟩ := h2.causal pre s jid _ post hh
    obtain ⟨more, hmore⟩ := h2.does s j' (by rw [hh]; exact mem_recvs_prefix hj')
    exact complete_noput hmore (List.mem_append_left _ (mem_mine.mpr hp))
  subst h1
  have hjr : j ∈ recvs sid h := by rw [← recvs_visible]; exact mem_received.mpr hj
  have hmm : .act sid j.id (.msg m) ∈ h := mem_visible_sent.mp hm
  obtain ⟨more, hmore⟩ := h2.does sid j hjr
  have hget := (Complete.law hsize true [(cls sid).structured]).delivers hmore hc
    (List.mem_append_left _ (mem_mine.mpr hmm)) hd
  have hmore0 : more = [] := by
    obtain ⟨u, t, hu⟩ := List.append_of_mem (mem_mine.mpr (mem_visible_sent.mp hl))
    have := (Complete.law hsize true [(cls sid).structured]).finished hmore
      (by rw [hu, List.append_assoc, List.cons_append]) hlast
    exact (List.append_eq_nil_iff.mp this).2
  rw [hmore0, List.append_nil] at hget
  exact legal_unchanged h2.legal hnoput _ _ (mem_acts.mpr ⟨_, _, mem_mine.mp hget⟩)

/-! ### An example -/

/-- The tree of `demoTree`, read-only. -/
def roTree : Client := { demoTree with ex := { demoTree.ex with flags := F_TREEFILES ||| F_READONLY } }

theorem roTree_one : OneTreeRO roTree.ex (fun _ => roTree) where
  same _ := rfl
  tree _ := ⟨⟨⟨by decide, fun h => absurd h (by decide)⟩, by decide⟩, by decide, by decide, by decide⟩
  readonly := by decide

/-- The first block has a file that holds sevens; no other block has one. -/
def roWorld : World :=
  demoEmpty.create ((treeFilename roTree.ex.name roTree.ex.exportsize 0).getD []) (File.clean (fun _ => 7) 4096)

/-- One connection reads across the end of the first block; another tries to write there. -/
def roSys : System World :=
  ⟨⟨roWorld, none, []⟩,
   [Session.fresh (Demo.request 0 4092 8).encode [0] 0, Session.fresh (Demo.write 4092 [20, 21, 22, 23]).encode [0] 0]⟩

def roTurns : List (Nat × Move) :=
  [(0, .main), (0, .work 0 99), (0, .work 0 99), (1, .main)] ++ List.replicate 5 (1, .work 0 99) ++ List.replicate 12 (0, .work 0 99)

def roR : Job := ⟨0, ⟨328556581, 0, Demo.cookie, 4092, 8⟩, .nothing⟩

/-- The write is refused with EPERM; the read sees sevens and, in the block without a file, zeroes. -/
def roTrace : List (Nat × Ext) :=
  [(0, .recv roR), (1, .recv raceW), (1, .sent 0 ⟨[103, 68, 102, 152, 0, 0, 0, 1, 1, 2, 3, 4, 5, 6, 7, 8], []⟩),
    (0, .sent 0 ⟨keptOk.hdr, [7, 7, 7, 7, 0, 0, 0, 0]⟩)]

theorem ro_exec : ∃ T, Exec (fun _ => treeServer .little roTree false) roSys roTrace T := by
  have hp : (System.play (fun _ => treeServer .little roTree false) roTurns [] roSys).map Prod.fst = some roTrace := by
    decide +kernel
  cases hq : System.play (fun _ => treeServer .little roTree false) roTurns [] roSys with
  | none => rw [hq] at hp; cases hp
  | some q =>
    obtain ⟨tr', T⟩ := q
    rw [hq] at hp
    cases hp
    exact ⟨T, System.play_start _ roSys roTurns _ hq⟩

theorem ro_fresh : ∀ s ∈ roSys.sessions, s.Fresh := by
  intro s hs
  simp only [roSys, List.mem_cons, List.not_mem_nil, or_false] at hs
  rcases hs with rfl | rfl
  · exact ⟨_, _, _, rfl⟩
  · exact ⟨_, _, _, rfl⟩

example : ∃ T : System World, T.sh.st.files = roWorld.files := by
  obtain ⟨T, hT⟩ := ro_exec
  exact ⟨T, (C72_tree_readonly_partial .little roTree.ex (fun _ => roTree) (fun _ => false) roTree_one roSys T _ ro_fresh hT).1⟩

/-- The message of the read delivers byte 4095, a seven, and byte 4096, a zero; the theorem says that it must. -/
example : Delivers (asked roR) (⟨keptOk.hdr, [7, 7, 7, 7, 0, 0, 0, 0]⟩ : Msg).bytes 4095 7 ∧
    Delivers (asked roR) (⟨keptOk.hdr, [7, 7, 7, 7, 0, 0, 0, 0]⟩ : Msg).bytes 4096 0 ∧
    ∀ b, Delivers (asked roR) (⟨keptOk.hdr, [7, 7, 7, 7, 0, 0, 0, 0]⟩ : Msg).bytes 4095 b → b = view roTree.ex roWorld 4095 := by
  refine ⟨.inl ⟨[7, 7, 7, 7, 0, 0, 0, 0], by decide +kernel, by decide, rfl⟩,
    .inl ⟨[7, 7, 7, 7, 0, 0, 0, 0], by decide +kernel, by decide, rfl⟩, ?_⟩
  intro b hb
  obtain ⟨T, hT⟩ := ro_exec
  exact C72_tree_readonly_reads_partial .little roTree.ex (by decide) (fun _ => roTree) (fun _ => false) roTree_one roSys T _ ro_fresh hT
    0 roR _ ⟨keptOk.hdr, [7, 7, 7, 7, 0, 0, 0, 0]⟩ (by simp [roTrace]) (by simp [roTrace]; rfl) (by simp [roTrace]; rfl)
    ⟨.simple 0 Demo.cookie [7, 7, 7, 7, 0, 0, 0, 0], by decide +kernel, rfl⟩ (by decide) 4095 b hb

end Props
end Nbd
