import Verif.SchedTreeGood
import Verif.SchedGuard
/-! # What the program of one request does on a read-only tree export, step by step -/

set_option autoImplicit false

namespace Nbd
open Spec

/-- The files of the world are those of `F`. -/
def FilesAre (F : FileId → Option File) (w : World) : Prop := w.files = F

section
variable {ex : Export} {F : FileId → Option File}

theorem FilesAre.same {w w' : World} (h : FilesAre F w) (h' : FilesAre F w') : SameContent w w' := by
  intro x
  unfold content
  rw [show w.files = F from h, show w'.files = F from h']

theorem call_goodI {α : Type} {P Q : List Act → Prop} {f : World → Out (World × α)} {en : Nat} {k : α → Nat → Prog World}
    {l : List Act} (hq : Q l)
    (h : ∀ w w' a, FilesAre F w → f w = .val (w', a) → FilesAre F w' ∧ ∃ es, Quiet es ∧ Legal (view ex w) es (view ex w') ∧
      ∀ en', (k a en').GoodI (FilesAre F) (view ex) P Q (l ++ es)) :
    (call f en k).GoodI (FilesAre F) (view ex) P Q l := by
  refine ⟨hq, ?_⟩
  intro s s' a hs hf
  dsimp only at hf
  split at hf
  · cases hf
  · cases hf
  · rename_i w' b hb
    cases hf
    obtain ⟨h0, es, h1, h2, h3⟩ := h _ _ _ (by exact hs) hb
    exact ⟨h0, es, h1, h2, h3 _⟩

theorem call_sameI {α : Type} {P Q : List Act → Prop} {f : World → Out (World × α)} {en : Nat} {k : α → Nat → Prog World}
    {l : List Act} (hq : Q l)
    (h : ∀ w w' a, FilesAre F w → f w = .val (w', a) → FilesAre F w' ∧
      ∀ en', (k a en').GoodI (FilesAre F) (view ex) P Q l) :
    (call f en k).GoodI (FilesAre F) (view ex) P Q l := by
  refine call_goodI hq ?_
  intro w w' a hw hf
  obtain ⟨h1, h2⟩ := h w w' a hw hf
  refine ⟨h1, [], (by intro x hx; cases hx), by rw [(hw.same h1).view ex]; exact .nil _, ?_⟩
  rw [List.append_nil]
  exact h2

/-- A handle that `open_treefile` returns for byte `a` of a read-only export. -/
def HandleRO (ex : Export) (F : FileId → Option File) (a : Nat) (h : Handle) : Prop :=
  HandleOf ex a h ∨ ∃ p, treeFilename ex.name ex.exportsize a = some p ∧ h = .dummy ∧ F (.path p) = none

theorem treeRO_pread (ht : has ex.flags F_TREEFILES = true) {a len : Nat} (hr : a + len ≤ ex.exportsize)
    (hlen : 0 < len) {h : Handle} (hh : HandleRO ex F a h) (w w' : World) (hF : FilesAre F w) (r : Option (List Byte))
    (heq : handlePread w h (a % TREEPAGESIZE) (clip ((1 + a / TREEPAGESIZE) * TREEPAGESIZE - a) len) = (w', r)) :
    SameContent w w' ∧ ∀ bs, r = some bs → bs.length ≤ len ∧ bs.length ≤ MAX_RW_COUNT ∧ bs = (view ex w).read a bs.length := by
  rcases hh with hh | ⟨p, hp, rfl, hnone⟩
  · exact tree_pread ht hr hlen hh w w' r heq
  · have hcl := clip_le ((1 + a / TREEPAGESIZE) * TREEPAGESIZE - a) len
    have hbr : ∀ k, k < clip ((1 + a / TREEPAGESIZE) * TREEPAGESIZE - a) len → _ := fun k hk => block_run hk
    generalize clip ((1 + a / TREEPAGESIZE) * TREEPAGESIZE - a) len = cl at heq hcl hbr
    simp only [handlePread] at heq
    cases hn : w.next with
    | err e =>
      rw [hn] at heq
      cases heq
      exact ⟨fun _ => rfl, by simp⟩
    | done n =>
      rw [hn] at heq
      simp only [Prod.mk.injEq] at heq
      obtain ⟨rfl, rfl⟩ := heq
      refine ⟨fun _ => rfl, ?_⟩
      intro bs hbs
      cases hbs
      simp only [File.pread, Flat.read_length]
      refine ⟨by omega, by omega, ?_⟩
      apply List.ext_getElem?
      intro i
      rw [Flat.read_getElem?, Flat.read_getElem?]
      split
      · rename_i hi
        have hi' : i < cl := by omega
        obtain ⟨q1, q2⟩ := hbr i hi'
        unfold view
        rw [if_pos (by omega), tree_home ht (by omega) hp (by omega) q1]
        simp [content, show w.files = F from hF, hnone, File.clean]
      · rfl

/-- Opening a block file changes nothing. -/
theorem openTreeRO_good (hw : has ex.flags F_READONLY = true) {P Q : List Act → Prop} {a : Nat} (k : Handle → Nat → Prog World)
    {l : List Act} (hQ : Q l) (hk : ∀ h en, HandleRO ex F a h → (k h en).GoodI (FilesAre F) (view ex) P Q l) (en : Nat) :
    (openTreeP ex a k en).GoodI (FilesAre F) (view ex) P Q l := by
  unfold openTreeP
  cases hp : treeFilename ex.name ex.exportsize a with
  | none => exact ⟨hQ, by intro s s' a _ hf; cases hf⟩
  | some p =>
    dsimp only
    refine call_sameI hQ ?_
    intro w w' h hF hf
    unfold openOld at hf
    cases hfile : w.files (.path p) with
    | some f =>
      rw [hfile] at hf
      dsimp only at hf
      cases hn : w.next with
      | done n =>
        rw [hn] at hf; cases hf
        exact ⟨hF, fun en' => hk _ _ (.inl (.inr ⟨p, hp, rfl⟩))⟩
      | err e =>
        rw [hn] at hf; cases hf
        exact ⟨hF, fun en' => hk _ _ (.inl (.inl rfl))⟩
    | none =>
      rw [hfile] at hf
      dsimp only at hf
      cases hn : w.next with
      | err e =>
        rw [hn] at hf; cases hf
        exact ⟨hF, fun en' => hk _ _ (.inl (.inl rfl))⟩
      | done n =>
        rw [hn] at hf; cases hf
        refine ⟨hF, fun en' => ?_⟩
        dsimp only
        rw [if_neg (by simp [hw])]
        have hnone : F (.path p) = none := by rw [← hfile, show w.files = F from hF]
        refine call_sameI hQ ?_
        clear hfile hn hF
        intro w w' u hF hf
        unfold openDummy at hf
        cases hn : w.next with
        | err e => rw [hn] at hf; cases hf
        | done n =>
          rw [hn] at hf; cases hf
          exact ⟨hF, fun en' => hk _ _ (.inr ⟨p, hp, rfl, hnone⟩)⟩

end

section
variable {e : Endian} {size : Nat} {ro : Bool} {st : Bool} {r : Req} {p : Payload} {F : FileId → Option File}

theorem preadOnce_files {c : ReadCtx} {h : Handle} {w w' : World} {x : Option (ReadCtx × List Byte × Nat)}
    (heq : preadOnce c h w = .val (w', x)) : w'.files = w.files := by
  unfold preadOnce at heq
  dsimp only at heq
  have := handlePread_files w h ((c.start + c.curOff) % TREEPAGESIZE)
    (clip ((1 + (c.start + c.curOff) / TREEPAGESIZE) * TREEPAGESIZE - (c.start + c.curOff)) c.curLen)
  split at heq
  · rename_i hq; cases heq; rw [hq] at this; exact this
  · rename_i hq; cases heq; rw [hq] at this; exact this
  · rename_i hq
    rw [hq] at this
    split at heq
    · cases heq
    · cases heq
    · cases heq; exact this

theorem sendReplyP_keeps {σ : Type} {I : σ → Prop} (lg : Bool) (m : Msg) (en : Nat) : (sendReplyP lg m (.done en) : Prog σ).Keeps I := by
  unfold sendReplyP
  split <;> trivial

theorem readFullyRO_good {ex : Export} (hg : GoodExport ex) (ht : has ex.flags F_TREEFILES = true)
    (hw : has ex.flags F_READONLY = true) (hsz : size = ex.exportsize)
    (hc : (cmdOf r p).code = 0) (hr : r.start + r.len ≤ size) (lg : Bool)
    (k : ReadCtx → Bool → Nat → Prog World)
    (hk : ∀ c d l ok en, Reading r st c d l → (ok = true → c.curLen = 0) →
      (k c ok en).GoodI (FilesAre F) (view ex) (Complete size ro [st] (cmdOf r p))
        (Partial size ro [st] (cmdOf r p)) l)
    (n : Nat) : ∀ (c : ReadCtx) (d : List Byte) (l : List Act) (en : Nat), c.curLen = n →
      Reading r st c d l →
      (readFullyT e ex r.cookie lg k c en).GoodI (FilesAre F) (view ex) (Complete size ro [st] (cmdOf r p))
        (Partial size ro [st] (cmdOf r p)) l := by
  induction n using Nat.strongRecOn with
  | _ n ih =>
    intro c d l en hn hi
    unfold readFullyT
    split
    · rename_i h0
      exact hk _ _ _ _ _ hi (fun _ => h0)
    · rename_i h0
      have hst := hi.start
      have hoff := hi.off
      have hlen := hi.len
      have hgs := hg.size
      rw [if_neg (by omega)]
      refine openTreeRO_good hw _ (hi.permitted hc hr) ?_ en
      clear en
      intro h en hh
      refine call_goodI (hi.permitted hc hr) ?_
      intro w w' x hF hf
      refine ⟨(preadOnce_files hf).trans hF, ?_⟩
      obtain ⟨s1, s2⟩ := preadOnce_of (ex := ex) hi w w' (fun w1 y => treeRO_pread ht (by omega) (by omega) hh w w1 hF y) x hf
      cases x with
      | none =>
        refine ⟨[], (by intro x hx; cases hx), by rw [(s1 rfl).view ex]; exact .nil _, ?_⟩
        rw [List.append_nil]
        exact fun en' => hk _ _ _ _ _ hi (by simp)
      | some x =>
        obtain ⟨c', bs, m⟩ := x
        obtain ⟨t1, t2, t3, t4, t5, t6, t7, t8, t9, t10⟩ := s2 c' bs m rfl
        refine ⟨gets (r.start + d.length) bs, gets_quiet _ _, ?_, ?_⟩
        · rw [t1.view ex]; exact legal_gets _ _ _ t3
        · intro en'
          have hch : c.chunked = st := by
            unfold ReadCtx.chunked; rw [hi.structured, hi.df]; simp
          have hacc : Act.accesses (l ++ gets (r.start + d.length) bs) = gets r.start (d ++ bs) := by
            rw [accesses_append, hi.seen, accesses_quiet (gets_quiet _ _), gets_append]
          have hmsg : Act.msgs (l ++ gets (r.start + d.length) bs) = Act.msgs l := by
            rw [msgs_append, msgs_quiet (gets_quiet _ _), List.append_nil]
          have hcur : (d ++ bs).length + (c.curLen - (m + 1)) = r.len := by
            rw [List.length_append]; omega
          dsimp only
          cases st with
          | false =>
            rw [hch, if_neg (by simp)]
            refine ih _ ?_ _ (d ++ bs) _ _ rfl ?_
            · dsimp only; omega
            · refine ⟨?_, ?_, ?_, ?_, ?_, ?_, ?_, by simp, ?_⟩
              · exact t6.trans hi.start
              · exact t7.trans hi.reqLen
              · exact t8.trans hi.structured
              · exact t9.trans hi.df
              · dsimp only; rw [hi.off, List.length_append, t2]
              · exact hcur
              · exact hacc
              · intro _
                exact ⟨by rw [hmsg]; exact (hi.buf rfl).1, t10 rfl⟩
          | true =>
            rw [hch, if_pos rfl]
            obtain ⟨cs, q1, q2⟩ := hi.chunks rfl
            have hpend : Partial size ro [true] (cmdOf r p) (l ++ gets (r.start + d.length) bs) := by
              obtain ⟨mm, _, _, h⟩ := read_fails (e := .little) (ro := ro) (st := true) hc hr (d ++ bs)
                (by rw [List.length_append]; omega) _ hacc 0 d.length
                (fun _ => ⟨cs, by rw [List.take_left' rfl]; exact q1, by rw [hmsg]; exact q2⟩)
                (fun h => by cases h)
              exact ⟨_, h⟩
            have hnext : Reading r true { c' with curOff := c.curOff + (m + 1), curLen := c.curLen - (m + 1) }
                (d ++ bs) (l ++ gets (r.start + d.length) bs ++
                  [.msg (dataMsg e r.cookie (c.start + c.curOff, bs))]) := by
              refine ⟨?_, ?_, ?_, ?_, ?_, ?_, ?_, ?_, by simp⟩
              · exact t6.trans hi.start
              · exact t7.trans hi.reqLen
              · exact t8.trans hi.structured
              · exact t9.trans hi.df
              · dsimp only; rw [hi.off, List.length_append, t2]
              · exact hcur
              · rw [accesses_snoc, hacc]
              · intro _
                refine ⟨cs ++ [(r.start + d.length, bs)], Tiles.snoc q1 (by intro hh; rw [hh] at t2; cases t2) t4, ?_⟩
                rw [msgs_snoc, hmsg, List.map_append, q2, List.map_append]
                congr 1
                simp only [List.map_cons, List.map_nil]
                rw [hi.start, hi.off]
                rw [dataMsg_bytes'' e r.cookie _ t4 (by have := hg.size; dsimp only; omega)]
            have hrest := fun en => ih _ (by dsimp only; omega) _ (d ++ bs) _ en rfl hnext
            unfold sendChunkP
            refine ⟨hpend, ?_⟩
            split
            · exact ⟨hnext.permitted hc hr, hrest _⟩
            · exact hrest _

theorem readRO_good {cl : Client} (hg : GoodExport cl.ex) (ht : has cl.ex.flags F_TREEFILES = true)
    (hw : has cl.ex.flags F_READONLY = true) (hc : (cmdOf r p).code = 0)
    (hdf : has r.type CMD_FLAG_DF = false)
    (hr : r.start + r.len ≤ cl.ex.exportsize) (lg : Bool) (en : Nat) :
    (readT e cl lg r en).GoodI (FilesAre F) (view cl.ex)
      (Complete cl.ex.exportsize ro [cl.structured] (cmdOf r p))
      (Partial cl.ex.exportsize ro [cl.structured] (cmdOf r p)) [] := by
  unfold readT
  simp only [hdf, Bool.and_false, Bool.false_and, Bool.false_eq_true, if_false, Bool.false_or]
  refine readFullyRO_good hg ht hw rfl hc hr lg _ ?_ r.len _ [] [] en rfl ?_
  · intro c d l ok en hi hok
    have hq := hi.permitted (ro := ro) hc hr
    have hsz := hg.size
    have hlen := hi.len
    unfold completeReadP completeRead
    rw [hi.structured, hi.df]
    have hchunk : ∀ m, Complete cl.ex.exportsize ro [cl.structured] (cmdOf r p) (l ++ [.msg m]) →
        (sendChunksP lg [m] (.done en)).GoodI (FilesAre F) (view cl.ex)
          (Complete cl.ex.exportsize ro [cl.structured] (cmdOf r p))
          (Partial cl.ex.exportsize ro [cl.structured] (cmdOf r p)) l := by
      intro m hm
      unfold sendChunksP sendChunkP sendChunksP
      refine ⟨hq, ?_⟩
      split
      · exact ⟨Partial.of hm, hm⟩
      · exact hm
    cases ok with
    | false =>
      obtain ⟨m, m1, m2, hm⟩ := read_fails (e := e) (ro := ro) hc hr d (by omega) l hi.seen en
        d.length (fun h => by rw [List.take_length]; exact hi.chunks h) (fun h => (hi.buf h).1)
      cases hst : cl.structured with
      | true =>
        rw [hst] at hchunk hm
        simp only [Bool.false_and, Bool.false_eq_true, if_false, if_true, List.nil_append]
        rw [← m1 hst]
        exact hchunk m hm
      | false =>
        rw [hst] at hm hq
        simp only [Bool.false_eq_true, if_false]
        rw [← m2 hst]
        exact (sendReplyP_good hq hm).inI (sendReplyP_keeps _ _ _)
    | true =>
      have hcur := hok rfl
      cases hst : cl.structured with
      | true =>
        rw [hst] at hchunk
        simp only [Bool.false_and, Bool.false_eq_true, if_false, if_true, List.nil_append]
        refine hchunk _ ?_
        obtain ⟨cs, q1, q2⟩ := hi.chunks hst
        refine ⟨cs.map (fun x => dataChunk r.cookie x.1 x.2) ++ [doneChunk r.cookie], ?_, ?_, l, _, rfl⟩
        · rw [msgs_snoc, List.map_append, List.map_append, q2, List.map_map, List.map_cons,
            List.map_nil, doneMsg_bytes]
          rfl
        · rw [accesses_snoc, hi.seen]
          exact .read d _ hc hr (by show d.length = r.len; omega) true (by simp) (.structured cs q1)
      | false =>
        rw [hst] at hq
        simp only [Bool.false_eq_true, if_false, if_true]
        obtain ⟨q1, q2⟩ := hi.buf hst
        have hd : d.length = r.len := by omega
        rw [q2, hd, Nat.sub_self, List.replicate_zero, List.append_nil, allInit_map]
        refine (sendReplyP_good hq (Complete.single q1 (simple_bytes_zero e _ _) ?_)).inI (sendReplyP_keeps _ _ _)
        rw [hi.seen]
        exact .read d _ hc hr hd false (by simp) .simple
  · refine ⟨rfl, rfl, rfl, rfl, rfl, by simp, rfl, fun _ => ⟨[], .nil _, rfl⟩, ?_⟩
    intro hst
    refine ⟨rfl, ?_⟩
    simp [hst]

end

/-! ### Every request -/

/-- The program for any request does what its command says, as long as the files stay as they are, which it sees to. -/
theorem requestRO_good (e : Endian) (cl : Client) (hcl : Treefile cl) (hwr : has cl.ex.flags F_READONLY = true)
    (F : FileId → Option File) (lg : Bool) (en : Nat) (j : Job) (hj : j.Wf) :
    (requestT e cl lg en j.req j.payload).GoodI (FilesAre F) (view cl.ex)
      (Complete cl.ex.exportsize (badWrite cl) [cl.structured] (cmdOf j.req j.payload))
      (Partial cl.ex.exportsize (badWrite cl) [cl.structured] (cmdOf j.req j.payload)) [] := by
  have hb : badWrite cl = true := by
    cases hbw : badWrite cl with
    | true => rfl
    | false => rw [notReadonly hbw] at hwr; cases hwr
  obtain ⟨id, r, p⟩ := j
  have hlen : r.len < 2 ^ 32 := hj.len
  have hg := hcl.plain.good
  have hsz := hg.size
  have hsplit : ∀ n : Nat, ((cmdOf r p).code ∉ [0, 1, 3, 4, 6] ∨
        ((cmdOf r p).code ∈ [1, 4, 6] ∧ badWrite cl = true) ∨
        ((cmdOf r p).code ∈ [0, 1, 4, 6] ∧ cl.ex.exportsize < (cmdOf r p).start + (cmdOf r p).len)) →
      (sendReplyP lg (simpleMsg e r (some (nbdErrno e n))) (.done en)).GoodI (FilesAre F) (view cl.ex)
        (Complete cl.ex.exportsize (badWrite cl) [cl.structured] (cmdOf r p))
        (Partial cl.ex.exportsize (badWrite cl) [cl.structured] (cmdOf r p)) [] := by
    intro n why
    have hm : Complete cl.ex.exportsize (badWrite cl) [cl.structured] (cmdOf r p)
        ([] ++ [.msg (simpleMsg e r (some (nbdErrno e n)))]) := by
      refine Complete.single rfl (r := .simple (errnoWire n).toNat r.cookie []) ?_
        (.refused _ (errnoWire_toNat_mem _) why)
      unfold simpleMsg
      rw [Option.getD_some, nbdErrno_eq, simple_bytes]
    exact (sendReplyP_good ⟨_, hm⟩ hm).inI (sendReplyP_keeps _ _ _)
  have hanswer : ∀ (ok : Bool) (en : Nat) (l : List Act), Act.msgs l = [] →
      (ok = true → Does cl.ex.exportsize (badWrite cl) [cl.structured] (cmdOf r p)
        (Act.accesses l) [.simple 0 r.cookie []]) →
      (ok = false → ∀ err ∈ errnos, Does cl.ex.exportsize (badWrite cl) [cl.structured] (cmdOf r p)
        (Act.accesses l) [.simple err r.cookie []]) →
      (answerP e lg r ok en).GoodI (FilesAre F) (view cl.ex)
        (Complete cl.ex.exportsize (badWrite cl) [cl.structured] (cmdOf r p))
        (Partial cl.ex.exportsize (badWrite cl) [cl.structured] (cmdOf r p)) l := by
    intro ok en l hm h1 h2
    have : Complete cl.ex.exportsize (badWrite cl) [cl.structured] (cmdOf r p)
        (l ++ [.msg (simpleMsg e r (if ok = true then none else some (nbdErrno e en)))]) := by
      cases ok with
      | true =>
        refine Complete.single hm (r := .simple 0 r.cookie []) ?_ (h1 rfl)
        exact simple_bytes_zero e _ _
      | false =>
        refine Complete.single hm (r := .simple (errnoWire en).toNat r.cookie []) ?_
          (h2 rfl _ (errnoWire_toNat_mem _))
        unfold simpleMsg
        rw [if_neg (by simp), Option.getD_some, nbdErrno_eq, simple_bytes]
    exact (sendReplyP_good ⟨_, this⟩ this).inI (sendReplyP_keeps _ _ _)
  show (requestT e cl lg en r p).GoodI _ _ _ _ []
  unfold requestT
  dsimp only
  split
  · rename_i hf
    refine hsplit _ (.inl ?_)
    have : ¬ r.type < 262144 := by omega
    simp [cmdOf, this]
  · rename_i hf
    have hty : r.type < 262144 := by omega
    have hcode : (cmdOf r p).code = r.type % 65536 := by simp [cmdOf, hty]
    have hrange : ∀ h : badRange cl r = true, cl.ex.exportsize < r.start + r.len := by
      intro h
      unfold badRange at h
      simp only [gt_iff_lt, Bool.or_eq_true, decide_eq_true_eq] at h
      rcases h with h | h
      · omega
      · have := Nat.mod_le (r.start + r.len) (2 ^ 64); omega
    have hin : ∀ h : ¬ badRange cl r = true, r.start + r.len ≤ cl.ex.exportsize := by
      intro h
      exact inRange hg hlen (by simpa using h)
    split
    · rename_i ht
      have hc0 : (cmdOf r p).code = 0 := by rw [hcode, ht]; rfl
      split
      · rename_i hbr
        exact hsplit _ (.inr (.inr ⟨by rw [hc0]; simp, hrange hbr⟩))
      · rename_i hbr
        exact readRO_good hg hcl.tree hwr hc0 (has_df_of_flags (by omega)) (hin hbr) lg en
    · split
      · rename_i ht
        exact hsplit _ (.inr (.inl ⟨by rw [hcode, ht]; simp [CMD_WRITE], hb⟩))
      · split
        · rename_i ht
          have hc3 : (cmdOf r p).code = 3 := by rw [hcode, ht]; rfl
          refine call_sameI ⟨[.msg ⟨simpleHdr e 0 r.cookie, []⟩],
            Complete.single (l := []) rfl (simple_bytes_zero e _ _) (.flush hc3 0 (.inl rfl))⟩ ?_
          intro w w' ok hF hx
          have hfl : expflush cl w = (w, true) := by
            unfold expflush
            have hcow : has cl.ex.flags F_COPYONWRITE = false := by
              have := hcl.plain.paged
              unfold Client.paged at this
              simp only [Bool.or_eq_false_iff] at this
              exact this.1
            rw [hcow, hcl.wait, hcl.tree, hwr]
            rfl
          rw [hfl] at hx
          cases hx
          refine ⟨hF, fun en' => hanswer _ en' [] rfl (fun _ => .flush hc3 0 (.inl rfl)) ?_⟩
          intro _ err herr
          exact .flush hc3 err (.inr herr)
        · split
          · rename_i ht
            exact hsplit _ (.inr (.inl ⟨by rw [hcode, ht]; simp [CMD_TRIM], hb⟩))
          · split
            · rename_i ht
              exact hsplit _ (.inr (.inl ⟨by rw [hcode, ht]; simp [CMD_WRITE_ZEROES], hb⟩))
            · rename_i h0 h1 h3 h4 h6
              refine hsplit _ (.inl ?_)
              rw [hcode]
              simp only [List.mem_cons, List.not_mem_nil, or_false, not_or]
              exact ⟨h0, h1, h3, h4, h6⟩

/-- The server for a read-only tree export meets its specification as long as the files stay as they are. -/
theorem treeServer_meetsI (e : Endian) (cl : Client) (hcl : Treefile cl) (hwr : has cl.ex.flags F_READONLY = true)
    (F : FileId → Option File) (lg : Bool) :
    (treeServer e cl lg).MeetsI (FilesAre F) (view cl.ex) Job.Wf
      (fun j => Complete cl.ex.exportsize (badWrite cl) [cl.structured] (cmdOf j.req j.payload))
      (fun j => Partial cl.ex.exportsize (badWrite cl) [cl.structured] (cmdOf j.req j.payload)) := by
  refine ⟨?_, fun en j hj => requestRO_good e cl hcl hwr F lg en j hj, ?_, fun _ l h => ⟨[], by rw [List.append_nil]; exact h⟩⟩
  · intro n r p st st' stream rest h
    exact fetch_wf e cl hcl.splice _ _ _ _ _ _ _ h
  · intro st st' stream x h
    have := fetch_files e cl _ _ _ _ h
    refine ⟨?_, fun hF => this.trans hF⟩
    unfold view content
    rw [this]

end Nbd
