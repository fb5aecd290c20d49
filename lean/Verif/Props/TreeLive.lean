import Verif.SchedTreeLive
import Verif.Props.Live
import Verif.Props.TreeLinear
/-!
# C71 on tree and copy-on-write exports

* The work comes to an end: `C71_ends_tree_cow`. Every session can be brought to its end by its own threads: `C71_tree_on_its_own_partial`,
  `C71_cow_on_its_own_partial`.
* On trees every request is answered while the system calls work: `C71_tree_answered_partial`. When one of those that create a block file
  fails the process exits: `C71_tree_false`.
-/

set_option autoImplicit false

namespace Nbd
namespace Props
open Spec

/-- **C71** on trees and on copy-on-write exports: the work for what clients send comes to an end, with every system call and every
access to the page map a step of its own. -/
theorem C71_ends_tree_cow (e : Endian) (cls : Nat → Client) (lgs : Nat → Bool) :
    (∀ run : Nat → System World, ∃ n, ¬ After (fun sid => treeServer e (cls sid) (lgs sid)) (run n) (run (n + 1))) ∧
    (∀ run : Nat → System Mem, ∃ n, ¬ After (fun sid => cowServer e (cls sid) sid (lgs sid)) (run n) (run (n + 1))) :=
  ⟨no_endless (fun sid => treeServer_shrinks e (cls sid) (lgs sid)),
   no_endless (fun sid => cowServer_shrinks e (cls sid) sid (lgs sid))⟩

/-- **C71** on trees, in part (missing: logging of written data): at every moment, each session can be brought to its end by its own
threads alone. -/
theorem C71_tree_on_its_own_partial (e : Endian) (cls : Nat → Client) (lgs : Nat → Bool)
    (hd : ∀ sid, NoDataLog (cls sid) (lgs sid)) (S T : System World) (hsem : S.sh.sem = none)
    (hf : ∀ s ∈ S.sessions, s.Fresh ∧ s.workers ≠ []) (tr : List (Nat × Ext))
    (hx : Exec (fun sid => treeServer e (cls sid) (lgs sid)) S tr T) (sid : Nat)
    (s : Session World) (hs : T.sessions[sid]? = some s) :
    ∃ tr' T' s', Exec (fun sid => treeServer e (cls sid) (lgs sid)) T tr' T' ∧
      T'.sessions[sid]? = some s' ∧ s'.main.alive = false ∧ (∀ x ∈ tr', x.1 = sid) ∧
      ∀ sid', sid' ≠ sid → T'.sessions[sid']? = T.sessions[sid']? :=
  finishes_alone (fun sid => treeServer_shrinks e (cls sid) (lgs sid)) hd hsem hf sid T tr hx s hs

/-- **C71** on copy-on-write exports, in part as above. -/
theorem C71_cow_on_its_own_partial (e : Endian) (cls : Nat → Client) (lgs : Nat → Bool)
    (hd : ∀ sid, NoDataLog (cls sid) (lgs sid)) (S T : System Mem) (hsem : S.sh.sem = none)
    (hf : ∀ s ∈ S.sessions, s.Fresh ∧ s.workers ≠ []) (tr : List (Nat × Ext))
    (hx : Exec (fun sid => cowServer e (cls sid) sid (lgs sid)) S tr T) (sid : Nat)
    (s : Session Mem) (hs : T.sessions[sid]? = some s) :
    ∃ tr' T' s', Exec (fun sid => cowServer e (cls sid) sid (lgs sid)) T tr' T' ∧
      T'.sessions[sid]? = some s' ∧ s'.main.alive = false ∧ (∀ x ∈ tr', x.1 = sid) ∧
      ∀ sid', sid' ≠ sid → T'.sessions[sid']? = T.sessions[sid']? :=
  finishes_alone (fun sid => cowServer_shrinks e (cls sid) sid (lgs sid)) hd hsem hf sid T tr hx s hs

theorem treeServer_reads (e : Endian) (cl : Client) (lg : Bool) (fin : Option Request)
    (hfin : ∀ r ∈ fin, r.IsDisc) : (treeServer e cl lg).Reads (closing fin) := by
  constructor
  · intro st s rest hs
    show fetch e cl st (s.encode ++ rest) = .ub ∨ ∃ st' p, p.bytes = s.data ∧
      fetch e cl st (s.encode ++ rest) = .val (st', .push (reqOf e s) p rest)
    rcases fetch_sent e cl st s hs rest with ⟨h, _⟩ | ⟨w', p, h, _, _, _, hp, _⟩
    · exact .inl h
    · exact .inr ⟨_, p, hp, h⟩
  · intro st st' x h
    exact fetch_stops _ _ _ _ _ hfin _ h

theorem never_dead_in {σ : Type} {I : σ → Prop} (v : Nat → Server σ) (hv : ∀ sid, (v sid).SafeIn I Job.Wf) (S T : System σ)
    (hst : I S.sh.st) (hf : ∀ s ∈ S.sessions, s.Fresh) (tr : List (Nat × Ext)) (hx : Exec v S tr T) (sid : Nat)
    (ss : List Sent) (hok : ∀ x ∈ ss, x.Ok) (fin : Option Request) (hfin : ∀ r ∈ fin, r.IsDisc)
    (hr : (v sid).Reads (closing fin))
    (hs0 : ∃ errnos pos, S.sessions[sid]? =
      some (Session.fresh (ss.flatMap Sent.encode ++ closing fin) errnos pos))
    (s : Session σ) (hs : T.sessions[sid]? = some s) : s.main ≠ .dead ∧ s.main ≠ .broken := by
  refine ⟨?_, ((hx.soundIn hv hf hst).2 s (List.mem_of_getElem? hs)).main⟩
  induction hx generalizing s with
  | nil =>
    obtain ⟨errnos, pos, h⟩ := hs0
    rw [h] at hs
    cases hs
    simp [Session.fresh]
  | step tr T sid' t t' evs sh' hx ht h1 ih =>
    by_cases he : sid' = sid
    · subst he
      rw [List.getElem?_set_self (List.getElem?_eq_some_iff.mp ht).1] at hs
      cases hs
      intro hd
      obtain ⟨q1, q2⟩ := hx.soundIn hv hf hst
      rcases h1.deadIn (hv sid') q1 (q2 t (List.mem_of_getElem? ht)) hd with h | ⟨hm, hb⟩
      · exact ih t ht h
      · obtain ⟨t2, ht2, hfo⟩ := hx.follows (sid := sid') (ss := ss) (tail := closing fin) hr hok hs0
        rw [ht] at ht2
        cases ht2
        rw [hfo.left hm] at hb
        cases hl : ss.drop (received sid' tr).length with
        | nil =>
          rw [hl] at hb
          simp only [List.flatMap_nil, List.nil_append] at hb
          rw [closing_ok _ fin hfin] at hb
          cases hb
        | cons x xs =>
          rw [hl] at hb
          have hxok : x.Ok := hok x (List.mem_of_mem_drop (by rw [hl]; exact List.mem_cons_self))
          simp only [List.flatMap_cons, Sent.encode, List.append_assoc] at hb
          rw [magic_ok _ _ hxok.fits hxok.magic] at hb
          cases hb
    · rw [List.getElem?_set_ne he] at hs
      exact ih s hs

theorem woven_msgs {E : Nat → Prop} {l0 l : List Act} (h : Woven E l0 l) : Act.msgs l = Act.msgs l0 := by
  induction h with
  | nil => rfl
  | keep x l0 l h ih => cases x <;> simp [Act.msgs, ih]
  | extra i l0 l hi h ih => simp [Act.msgs, ih]

theorem completeT_answered {size : Nat} {ro : Bool} {fr : List Bool} {j : Job} {l : List Act}
    (h : CompleteT size ro fr (cmdOf j.req j.payload) l) : Answered j l := by
  obtain ⟨l0, hw, hc, _⟩ := h
  obtain ⟨rs, h1, h2⟩ := complete_answered hc
  exact ⟨rs, by rw [woven_msgs hw]; exact h1, h2⟩

theorem partialT_begun {size : Nat} {ro : Bool} {fr : List Bool} {j : Job} {l : List Act}
    (h : PartialT size ro fr (cmdOf j.req j.payload) l) : Begun j l := by
  obtain ⟨more, h⟩ := h
  obtain ⟨rs, h1, h2⟩ := completeT_answered h
  rw [msgs_append] at h1
  obtain ⟨a, b, rfl, q1, q2⟩ := Encodes.split h1
  exact ⟨a, b, q1, h2⟩

/-- **C71** on trees, in part (missing: logging of written data; read-only trees; names of more than 4040 characters). Any number of sessions
on one writable tree; if no system call fails, the clients whose requests are well-formed get a complete answer to every one of them
once no thread can go on, whatever the other clients send and in any order of the threads. That block files are created and removed by
others between two calls does not change this. -/
theorem C71_tree_answered_partial (e : Endian) (ex : Export) (cls : Nat → Client)
    (hcl : OneTree ex cls) (hn : ex.name.length ≤ 4040) (lgs : Nat → Bool) (hd : ∀ sid, NoDataLog (cls sid) (lgs sid))
    (S T : System World) (hw : Working S.sh.st) (hsem : S.sh.sem = none)
    (hf : ∀ s ∈ S.sessions, s.Fresh ∧ s.workers ≠ []) (tr : List (Nat × Ext))
    (hx : Exec (fun sid => treeServer e (cls sid) (lgs sid)) S tr T)
    (hstuck : Stuck (fun sid => treeServer e (cls sid) (lgs sid)) T)
    (sid : Nat) (ss : List Sent) (hok : ∀ x ∈ ss, x.Ok) (fin : Option Request)
    (hfin : ∀ r ∈ fin, r.IsDisc) (errnos : List Nat) (pos : Nat)
    (hs0 : S.sessions[sid]? =
      some (Session.fresh (ss.flatMap Sent.encode ++ closing fin) errnos pos)) :
    ∃ s, T.sessions[sid]? = some s ∧ s.main = .over ∧
      s.sock = ((messages sid tr).map Prod.snd).flatten ∧
      (∀ x ∈ messages sid tr, x.1 < ss.length) ∧
      ∀ (i : Nat) (x : Sent), ss[i]? = some x → ∃ rs, Answer x.req.cookie rs ∧
        messagesFor sid i tr = rs.map Reply.encode := by
  obtain ⟨s, hs, hfo⟩ := hx.follows (sid := sid) (ss := ss) (tail := closing fin)
    (treeServer_reads e (cls sid) (lgs sid) fin hfin) hok ⟨errnos, pos, hs0⟩
  have hov : s.main = .over := by
    obtain ⟨h1, h2⟩ := never_dead_in (I := Working) (fun sid => treeServer e (cls sid) (lgs sid))
      (fun sid => treeServer_safeIn e (cls sid) (hcl.tree sid) (by rw [hcl.same sid]; exact hn) (lgs sid)) S T hw
      (fun s hs => (hf s hs).1) tr hx sid ss hok fin hfin (treeServer_reads e (cls sid) (lgs sid) fin hfin) ⟨errnos, pos, hs0⟩ s hs
    have h3 : s.main.alive = false := by
      cases ha : s.main.alive with
      | false => rfl
      | true =>
        obtain ⟨evs, sh', s', h1⟩ := can_step
          (v := fun sid => treeServer e (cls sid) (lgs sid)) hd hsem hf hx sid s hs ha
        exact absurd h1 (hstuck sid s hs _ _ _)
    cases hm : s.main with
    | over => rfl
    | dead => exact absurd hm h1
    | broken => exact absurd hm h2
    | reading => rw [hm] at h3; cases h3
    | payload => rw [hm] at h3; cases h3
    | closing => rw [hm] at h3; cases h3
  refine ⟨s, hs, hov, ?_⟩
  obtain ⟨⟨part, h1, _, h3⟩, h4, h5, h6⟩ := whole_replies
    (fun sid => treeServer e (cls sid) (lgs sid)) (view ex) (fun _ => Job.Wf)
    (fun sid j => CompleteT ex.exportsize (badWrite (cls sid)) [(cls sid).structured] (cmdOf j.req j.payload))
    (fun sid j => PartialT ex.exportsize (badWrite (cls sid)) [(cls sid).structured] (cmdOf j.req j.payload))
    (fun sid => by
      have := treeServer_meets e (cls sid) (hcl.tree sid) (by rw [hcl.same sid]; exact hcl.writable) (lgs sid)
      rw [hcl.same sid] at this
      exact this)
    (fun _ _ _ h => completeT_answered h) (fun _ _ _ h => partialT_begun h) S T tr
    (fun s hs => (hf s hs).1) hx sid s hs
  have hlen := hfo.all (.inr hov)
  have hread := hfo.read
  rw [hlen, List.take_length] at hread
  refine ⟨by rw [h1, h3 hov, List.append_nil], ?_, ?_⟩
  · intro x hxm
    obtain ⟨j, hj, hid⟩ := h4 x hxm
    have : j.id ∈ (received sid tr).map Job.id := List.mem_map_of_mem hj
    rw [h5, hlen, List.mem_range] at this
    omega
  · intro i x hi
    have hlt : i < (received sid tr).length := by
      rw [hlen]; exact (List.getElem?_eq_some_iff.mp hi).1
    have hid : (received sid tr)[i].id = i := by
      have : ((received sid tr).map Job.id)[i]? = some (received sid tr)[i].id := by
        rw [List.getElem?_map, List.getElem?_eq_getElem hlt]; rfl
      rw [h5, List.getElem?_range hlt] at this
      exact (Option.some.inj this).symm
    have hreq : (received sid tr)[i].req.cookie = x.req.cookie := by
      have : ((received sid tr).map Job.what)[i]? = some (received sid tr)[i].what := by
        rw [List.getElem?_map, List.getElem?_eq_getElem hlt]; rfl
      rw [hread, List.getElem?_map, hi] at this
      simp only [Option.map_some, Option.some.injEq, Job.what, Prod.mk.injEq] at this
      rw [← this.1]
      rfl
    obtain ⟨rs, more, q1, q2, q3⟩ := h6 _ (List.getElem_mem hlt)
    rw [hid] at q1
    rw [q3 hov, List.append_nil, hreq] at q2
    exact ⟨rs, q2, q1⟩

/-- **C23, C04** on trees: whatever fails, what a client has received is the messages of its requests, one after the other and none cut in two
but the last; each of them is the beginning of an answer, and a whole answer once the session has ended well. -/
theorem C23_tree (e : Endian) (ex : Export) (cls : Nat → Client) (hcl : OneTree ex cls) (lgs : Nat → Bool)
    (S T : System World) (hf : ∀ s ∈ S.sessions, s.Fresh) (tr : List (Nat × Ext))
    (hx : Exec (fun sid => treeServer e (cls sid) (lgs sid)) S tr T) (sid : Nat) (s : Session World) (hs : T.sessions[sid]? = some s) :
    (∃ part, s.sock = ((messages sid tr).map Prod.snd).flatten ++ part ∧ (s.main = .over → part = [])) ∧
    ∀ j ∈ received sid tr, ∃ rs more, messagesFor sid j.id tr = rs.map Reply.encode ∧ Answer j.req.cookie (rs ++ more) ∧
      (s.main = .over → more = []) := by
  obtain ⟨⟨part, h1, _, h3⟩, h4, h5, h6⟩ := whole_replies
    (fun sid => treeServer e (cls sid) (lgs sid)) (view ex) (fun _ => Job.Wf)
    (fun sid j => CompleteT ex.exportsize (badWrite (cls sid)) [(cls sid).structured] (cmdOf j.req j.payload))
    (fun sid j => PartialT ex.exportsize (badWrite (cls sid)) [(cls sid).structured] (cmdOf j.req j.payload))
    (fun sid => by
      have := treeServer_meets e (cls sid) (hcl.tree sid) (by rw [hcl.same sid]; exact hcl.writable) (lgs sid)
      rw [hcl.same sid] at this
      exact this)
    (fun _ _ _ h => completeT_answered h) (fun _ _ _ h => partialT_begun h) S T tr hf hx sid s hs
  exact ⟨⟨part, h1, h3⟩, h6⟩

/-! ### A full disk -/

/-- A file system on which a file can be created and nothing can be written. -/
def fullTree : World := ⟨fun _ => none, fun t => if t < 2 then .done 4096 else .err 28, 0, 0, fun _ => []⟩

/-- One session: a read of four bytes. -/
def fullTreeSys : System World := ⟨⟨fullTree, none, []⟩, [Session.fresh (Demo.request 0 0 4).encode [0] 0]⟩

/-- **C71 is false** on trees when a system call fails: a client reads from a block that has never been written. The server creates its file,
cannot write to it because the disk is full, and exits: the request, well-formed and received whole, gets no answer. -/
theorem C71_tree_false : ∃ tr T, Exec (fun _ => treeServer .little demoTree false) fullTreeSys tr T ∧
    Stuck (fun _ => treeServer .little demoTree false) T ∧
    T.sessions.map (fun s => (s.main, s.sock)) = [(.dead, [])] ∧
    (received 0 tr).map (fun j => (j.req.type, j.req.start, j.req.len)) = [(0, 0, 4)] ∧ messages 0 tr = [] := by
  obtain ⟨tr, T, h1, h2⟩ := System.play_check (fun _ => treeServer .little demoTree false)
    fullTreeSys ((0, .main) :: List.replicate 9 (0, .work 0 99)) (fun tr T => T.stuck (fun _ => treeServer .little demoTree false) &&
      T.sessions.map (fun s => (s.main, s.sock)) == [(.dead, [])] &&
      (received 0 tr).map (fun j => (j.req.type, j.req.start, j.req.len)) == [(0, 0, 4)] &&
      messages 0 tr == []) (by decide +kernel)
  simp only [Bool.and_eq_true, beq_iff_eq] at h2
  exact ⟨tr, T, h1, System.stuck_sound h2.1.1.1, h2.1.1.2, h2.1.2, h2.2⟩

/-! ### An example -/

/-- The hypotheses of `C71_tree_answered_partial` are met by the three connections of `C72_tree_false`, with the turns that lose a byte. -/
example : (∀ s ∈ raceSys.sessions, s.Fresh ∧ s.workers ≠ []) ∧ Working raceSys.sh.st ∧ raceSys.sh.sem = none ∧
    (∀ sid : Nat, NoDataLog demoTree false) ∧ OneTree demoTree.ex (fun _ => demoTree) ∧ demoTree.ex.name.length ≤ 4040 ∧
    raceSys.sessions[1]? = some (Session.fresh ([Demo.write 4092 [20, 21, 22, 23]].flatMap Sent.encode ++ closing none) [0] 0) ∧
    ∃ tr T, Exec (fun _ => treeServer .little demoTree false) raceSys tr T ∧
      Stuck (fun _ => treeServer .little demoTree false) T ∧ T.sessions.map (fun s => s.main) = [.over, .over, .over] := by
  refine ⟨?_, fun t => ⟨4095, rfl⟩, rfl, fun _ => .inl rfl, demoTree_one, by decide, by simp [raceSys, closing], ?_⟩
  · intro s hs
    simp only [raceSys, List.mem_cons, List.not_mem_nil, or_false] at hs
    rcases hs with rfl | rfl | rfl <;> exact ⟨⟨_, _, _, rfl⟩, by simp [Session.fresh]⟩
  · obtain ⟨tr, T, h1, h2⟩ := System.play_check (fun _ => treeServer .little demoTree false)
      raceSys (raceTurns ++ List.replicate 3 (0, .main) ++ List.replicate 3 (1, .main) ++ List.replicate 3 (2, .main))
      (fun _ T => T.stuck (fun _ => treeServer .little demoTree false) &&
        T.sessions.map (fun s => s.main) == [.over, .over, .over]) (by decide +kernel)
    simp only [Bool.and_eq_true, beq_iff_eq] at h2
    exact ⟨tr, T, h1, System.stuck_sound h2.1, h2.2⟩

end Props
end Nbd
