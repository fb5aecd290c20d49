import Verif.SchedCow
import Verif.SchedRun
import Verif.SchedOne
import Verif.CowLemmas
/-!
# What the threads of copy-on-write sessions leave alone

Every step of a thread of a copy-on-write session, whatever the other threads have done in between, changes nothing but the
session's own diff file and page map.
-/

set_option autoImplicit false

namespace Nbd

/-- Every access of a program to the shared state, made in a state that satisfies `I`, is one that `R` allows. -/
def Prog.Only {σ : Type} (I : σ → Prop) (R : σ → σ → Prop) : Prog σ → Prop
  | .done _ => True
  | .op f k => (∀ s s' a, I s → f s = .val (s', a) → R s s') ∧ ∀ a, (k a).Only I R
  | .send _ k => k.Only I R
  | .log _ k => k.Only I R

/-- What a worker still does. -/
def Worker.Only {σ : Type} (I : σ → Prop) (R : σ → σ → Prop) : Worker σ → Prop
  | .idle _ => True
  | .busy _ p => p.Only I R
  | .sending _ _ _ k => k.Only I R

/-- The sessions whose threads only do what `R` allows. -/
def Session.Only {σ : Type} (I : σ → Prop) (R : σ → σ → Prop) (s : Session σ) : Prop := ∀ x ∈ s.workers, x.Only I R

/-- A step of such a session is one that `R` allows, and it stays such a session. -/
theorem Step.only {σ : Type} {v : Server σ} {sid : Nat} {sh sh' : Shared σ} {s s' : Session σ} {evs : List Ext} {I : σ → Prop}
    {R : σ → σ → Prop} (hrefl : ∀ st, R st st) (hcode : ∀ en r p, (v.code en r p).Only I R)
    (htake : ∀ stream st' f, v.take sh.st stream = .val (st', f) → st' = sh.st)
    (h : Step v sid sh s evs sh' s') (hi : I sh.st) (hs : s.Only I R) : R sh.st sh'.st ∧ s'.Only I R := by
  have hset : ∀ (i : Nat) (y : Worker σ), y.Only I R → ∀ x ∈ s.workers.set i y, x.Only I R := by
    intro i y hy x hx
    rcases List.mem_or_eq_of_mem_set hx with h | h
    · exact hs x h
    · rw [h]; exact hy
  cases h with
  | accept st r p rest hm hk hsem h => rw [Shared.record_st]; simp only [htake _ _ _ h]; exact ⟨hrefl _, hs⟩
  | hold hm hk hsem => exact ⟨hrefl _, hs⟩
  | acceptData st r bs rest hm h => rw [Shared.record_st]; simp only [htake _ _ _ h]; exact ⟨hrefl _, hs⟩
  | magic hm hb => exact ⟨hrefl _, hs⟩
  | gone st hm hb h => rw [Shared.record_st]; simp only [htake _ _ _ h]; exact ⟨hrefl _, hs⟩
  | disc st rest hm hk hsem h => rw [Shared.record_st]; simp only [htake _ _ _ h]; exact ⟨hrefl _, hs⟩
  | takeFails ph hm h => exact ⟨hrefl _, hs⟩
  | close hm hq hw => exact ⟨hrefl _, hs⟩
  | start i en j q ha hw hq => exact ⟨hrefl _, hset _ _ (hcode _ _ _)⟩
  | op i j f k st a ha hw h =>
    have hx : Worker.Only I R (.busy j (.op f k)) := hs _ (List.mem_of_getElem? hw)
    exact ⟨hx.1 _ _ _ hi h, hset _ _ (hx.2 a)⟩
  | opFails i j f k ph ha hw h => exact ⟨hrefl _, hs⟩
  | lock i j m k ha hw hl => exact ⟨hrefl _, hset _ _ (show Prog.Only I R k from hs _ (List.mem_of_getElem? hw))⟩
  | write i j m xs ys k ha hw hx hy => exact ⟨hrefl _, hset _ _ (show Prog.Only I R k from hs _ (List.mem_of_getElem? hw))⟩
  | unlock i j m rest k ha hw => exact ⟨hrefl _, hset _ _ (show Prog.Only I R k from hs _ (List.mem_of_getElem? hw))⟩
  | log i j bs k ha hw hsem => exact ⟨hrefl _, hset _ _ (show Prog.Only I R k from hs _ (List.mem_of_getElem? hw))⟩
  | finish i j en ha hw => exact ⟨hrefl _, hset _ _ trivial⟩

/-! ### The programs of a copy-on-write session -/

/-- The session has the settings `cl`. -/
def Seated (cl : Client) (sid : Nat) (s : Mem) : Prop := SameSeat cl (s.1 sid)

/-- What session `sid` may do: change its diff file and its own record. -/
def OwnOnly (cl : Client) (sid : Nat) (s s' : Mem) : Prop :=
  KeptOff cl.difffile (has cl.ex.flags F_TREEFILES) s.2 s'.2 ∧ (∀ j, j ≠ sid → s'.1 j = s.1 j) ∧ SameSeat (s.1 sid) (s'.1 sid)

theorem OwnOnly.refl (cl : Client) (sid : Nat) (s : Mem) : OwnOnly cl sid s s :=
  ⟨.refl _ _ _, fun _ _ => rfl, .refl _⟩

section
variable {cl : Client} {sid : Nat}

theorem callM_only {α : Type} (f : World → Out (World × α)) (en : Nat) (k : α → Nat → Prog Mem)
    (hf : ∀ w w' a, f w = .val (w', a) → KeptOff cl.difffile (has cl.ex.flags F_TREEFILES) w w')
    (hk : ∀ a en, (k a en).Only (Seated cl sid) (OwnOnly cl sid)) : (callM f en k).Only (Seated cl sid) (OwnOnly cl sid) := by
  refine ⟨?_, fun a => hk _ _⟩
  intro s s' a _ h
  simp only [] at h
  split at h
  · cases h
  · cases h
  · rename_i w' b hw
    cases h
    refine ⟨?_, fun _ _ => rfl, .refl _⟩
    have := hf _ _ _ hw
    exact KeptOff.trans (.of_files rfl) this

theorem loadMap_only (mapcnt : Nat) (k : Nat → Prog Mem) (hk : ∀ m, (k m).Only (Seated cl sid) (OwnOnly cl sid)) :
    (loadMap sid mapcnt k).Only (Seated cl sid) (OwnOnly cl sid) := by
  refine ⟨?_, hk⟩
  intro s s' a _ h
  simp only [] at h
  split at h
  · cases h
  · cases h; exact .refl _ _ _

theorem newSlot_only (sparse : Bool) (mapcnt : Nat) (k : Prog Mem) (hk : k.Only (Seated cl sid) (OwnOnly cl sid)) :
    (newSlot sparse sid mapcnt k).Only (Seated cl sid) (OwnOnly cl sid) := by
  have hput : ∀ (s : Mem) (cl' : Client), SameSeat (s.1 sid) cl' → OwnOnly cl sid s (s.put sid cl') := by
    intro s cl' hs
    refine ⟨.refl _ _ _, ?_, ?_⟩
    · intro j hj; unfold Mem.put; simp only [if_neg hj]
    · unfold Mem.put; simp only [if_true]; exact hs
  unfold newSlot
  split
  · refine ⟨?_, fun _ => hk⟩
    intro s s' a _ h
    cases h
    exact hput _ _ ⟨rfl, rfl, rfl, rfl, rfl⟩
  · refine ⟨?_, fun _ => ⟨?_, fun _ => ⟨?_, fun _ => hk⟩⟩⟩
    · intro s s' a _ h; cases h; exact .refl _ _ _
    · intro s s' a _ h; cases h; exact hput _ _ ⟨rfl, rfl, rfl, rfl, rfl⟩
    · intro s s' a _ h; cases h; exact hput _ _ ⟨rfl, rfl, rfl, rfl, rfl⟩

theorem appendM_only (page : List Byte) (en : Nat) (k : Option Nat → Nat → Prog Mem)
    (hk : ∀ a en, (k a en).Only (Seated cl sid) (OwnOnly cl sid)) : (appendM sid page en k).Only (Seated cl sid) (OwnOnly cl sid) := by
  refine ⟨?_, fun a => hk _ _⟩
  intro s s' a hseat h
  cases h
  have hd := diffAppend_keptOff (s.1 sid) (has cl.ex.flags F_TREEFILES) { s.2 with errno := en } page
  rw [hseat.difffile] at hd
  refine ⟨KeptOff.trans (.of_files rfl) hd.1, ?_, ?_⟩
  · intro j hj; unfold Mem.put; simp only [if_neg hj]
  · unfold Mem.put
    simp only [if_true]
    exact ⟨hd.2.1, hd.2.2.1.trans hseat.difffile.symm, hd.2.2.2.1, hd.2.2.2.2.1, hd.2.2.2.2.2⟩

theorem pageInM_only (k : List (Option Byte) → Bool → Nat → Prog Mem)
    (hk : ∀ a b en, (k a b en).Only (Seated cl sid) (OwnOnly cl sid)) (n : Nat) : ∀ (pb : List (Option Byte)) (ps dn rdlen en : Nat),
    rdlen = n → (pageInM cl.ex k pb ps dn rdlen en).Only (Seated cl sid) (OwnOnly cl sid) := by
  induction n using Nat.strongRecOn with
  | _ n ih =>
    intro pb ps dn rdlen en hn
    unfold pageInM
    split
    · exact hk _ _ _
    · refine callM_only _ _ _ (fun w w' a h => rawexpread_keptOff _ _ _ _ _ _ _ h) ?_
      intro r en
      split
      · exact hk _ _ _
      · exact hk _ _ _
      · rename_i b bs
        exact ih (rdlen - (b :: bs).length) (by rw [List.length_cons]; omega) _ _ _ _ _ rfl

theorem crash_only : (crash : Prog Mem).Only (Seated cl sid) (OwnOnly cl sid) :=
  ⟨(fun s s' a _ h => by cases h), fun _ => trivial⟩

theorem writePagesM_only (k : Bool → Nat → Prog Mem) (hk : ∀ b en, (k b en).Only (Seated cl sid) (OwnOnly cl sid)) (n : Nat) :
    ∀ (pb : List (Option Byte)) (mapcnt a : Nat) (buf : List Byte) (en : Nat),
    (writePagesM cl sid k n pb mapcnt a buf en).Only (Seated cl sid) (OwnOnly cl sid) := by
  induction n with
  | zero => intro pb mapcnt a buf en; exact hk _ _
  | succ n ih =>
    intro pb mapcnt a buf en
    rw [writePagesM]
    refine loadMap_only _ _ fun m => ?_
    split
    · refine loadMap_only _ _ fun m => ?_
      refine callM_only _ _ _ ?_ ?_
      · intro w w' a h
        simp only [Out.val.injEq] at h
        rw [show w' = (w', a).1 from rfl, ← h]
        exact sysPwrite_keptOff _ _ _ _ _
      · intro r en
        split
        · exact hk _ _
        · split
          · exact hk _ _
          · exact ih _ _ _ _ _
    · refine newSlot_only _ _ _ ?_
      have hput : ∀ (pb : List (Option Byte)) (en : Nat), Prog.Only (Seated cl sid) (OwnOnly cl sid)
          (match allInit (bufSet pb (a - mapcnt * DIFFPAGESIZE) (buf.take (pageLen (a - mapcnt * DIFFPAGESIZE) buf.length))) with
            | none => crash
            | some page =>
              appendM sid page en fun r en =>
                match r with
                | none => k false en
                | some x =>
                  if x ≠ DIFFPAGESIZE then k false en
                  else
                    writePagesM cl sid k n (bufSet pb (a - mapcnt * DIFFPAGESIZE) (buf.take (pageLen (a - mapcnt * DIFFPAGESIZE) buf.length)))
                      (mapcnt + 1) (a + pageLen (a - mapcnt * DIFFPAGESIZE) buf.length)
                      (buf.drop (pageLen (a - mapcnt * DIFFPAGESIZE) buf.length)) en) := by
        intro pb en
        split
        · exact crash_only
        · refine appendM_only _ _ _ ?_
          intro r en
          split
          · exact hk _ _
          · split
            · exact hk _ _
            · exact ih _ _ _ _ _
      simp only []
      split
      · refine pageInM_only _ ?_ _ _ _ _ _ _ rfl
        intro pb ok en
        split
        · exact hput pb en
        · exact hk _ _
      · exact hput _ _

theorem sysFsync_call_only (en : Nat) (k : Bool → Nat → Prog Mem) (hk : ∀ b en, (k b en).Only (Seated cl sid) (OwnOnly cl sid)) :
    (callM (fun w => .val (sysFsync w (.fd cl.difffile))) en k).Only (Seated cl sid) (OwnOnly cl sid) := by
  refine callM_only _ _ _ ?_ hk
  intro w w' a h
  have := sysFsync_keptOff cl.difffile (has cl.ex.flags F_TREEFILES) w
  simp only [Out.val.injEq] at h
  rw [h] at this
  exact this

theorem expwriteM_only (fua : Bool) (k : Bool → Nat → Prog Mem) (hk : ∀ b en, (k b en).Only (Seated cl sid) (OwnOnly cl sid))
    (a : Nat) (buf : List Byte) (en : Nat) : (expwriteM cl sid fua k a buf en).Only (Seated cl sid) (OwnOnly cl sid) := by
  unfold expwriteM
  refine writePagesM_only _ ?_ _ _ _ _ _ _
  intro ok en
  split
  · split
    · exact sysFsync_call_only _ _ fun _ _ => hk _ _
    · exact hk _ _
  · exact hk _ _

theorem writeZeroesM_only (fua : Bool) (k : Bool → Nat → Prog Mem) (hk : ∀ b en, (k b en).Only (Seated cl sid) (OwnOnly cl sid))
    (a n : Nat) : ∀ (en : Nat), (writeZeroesM cl sid fua k a n en).Only (Seated cl sid) (OwnOnly cl sid) := by
  induction n using Nat.strongRecOn with
  | _ n ih =>
    intro en
    unfold writeZeroesM
    split
    · exact hk _ _
    · refine expwriteM_only _ _ ?_ _ _ _
      intro ok en
      have : 0 < ZEROCHUNK := by decide
      split
      · exact ih _ (by omega) _
      · exact hk _ _

theorem sendReplyP_only (lg : Bool) (m : Msg) (k : Prog Mem) (hk : k.Only (Seated cl sid) (OwnOnly cl sid)) :
    (sendReplyP lg m k).Only (Seated cl sid) (OwnOnly cl sid) := by
  unfold sendReplyP
  split <;> exact hk

theorem sendChunkP_only (lg : Bool) (m : Msg) (k : Prog Mem) (hk : k.Only (Seated cl sid) (OwnOnly cl sid)) :
    (sendChunkP lg m k).Only (Seated cl sid) (OwnOnly cl sid) := by
  unfold sendChunkP
  show Prog.Only _ _ (if lg then _ else _)
  split <;> exact hk

theorem sendChunksP_only (lg : Bool) (ms : List Msg) (k : Prog Mem) (hk : k.Only (Seated cl sid) (OwnOnly cl sid)) :
    (sendChunksP lg ms k).Only (Seated cl sid) (OwnOnly cl sid) := by
  induction ms with
  | nil => exact hk
  | cons m ms ih => exact sendChunkP_only _ _ _ ih

theorem readFullyM_only (e : Endian) (cookie : List Byte) (lg : Bool) (k : ReadCtx → Bool → Nat → Prog Mem)
    (hk : ∀ c b en, (k c b en).Only (Seated cl sid) (OwnOnly cl sid)) (n : Nat) : ∀ (c : ReadCtx) (en : Nat), c.curLen = n →
    (readFullyM e cl.ex cookie lg k c en).Only (Seated cl sid) (OwnOnly cl sid) := by
  induction n using Nat.strongRecOn with
  | _ n ih =>
    intro c en hn
    unfold readFullyM
    split
    · exact hk _ _ _
    · refine callM_only _ _ _ ?_ ?_
      · intro w w' a h
        unfold readOnce at h
        cases hr : rawexpread cl.ex w (c.start + c.curOff) c.curLen with
        | ub => rw [hr] at h; cases h
        | exit => rw [hr] at h; cases h
        | val x =>
          obtain ⟨w1, x⟩ := x
          rw [hr] at h
          have hkept := rawexpread_keptOff cl.difffile _ _ _ _ _ _ hr
          match x, h with
          | none, h => cases h; exact hkept
          | some [], h => cases h; exact hkept
          | some (b :: bs), h =>
            simp only [] at h
            split at h
            · cases h
            · cases h
            · cases h; exact hkept
      · intro r en
        split
        · exact hk _ _ _
        · split
          · exact sendChunkP_only _ _ _ (ih (c.curLen - (_ + 1)) (by omega) _ _ rfl)
          · exact ih (c.curLen - (_ + 1)) (by omega) _ _ rfl

theorem readPagesM_only (e : Endian) (cookie : List Byte) (lg : Bool) (k : ReadCtx → Bool → Nat → Prog Mem)
    (hk : ∀ c b en, (k c b en).Only (Seated cl sid) (OwnOnly cl sid)) (n : Nat) : ∀ (c : ReadCtx) (mapcnt a len en : Nat),
    (readPagesM e cl sid cookie lg k n c mapcnt a len en).Only (Seated cl sid) (OwnOnly cl sid) := by
  induction n with
  | zero => intro c mapcnt a len en; exact hk _ _ _
  | succ n ih =>
    intro c mapcnt a len en
    rw [readPagesM]
    refine loadMap_only _ _ fun m => ?_
    split
    · refine loadMap_only _ _ fun m => ?_
      refine callM_only _ _ _ ?_ ?_
      · intro w w' r h
        have hfiles : w'.files = w.files := by
          unfold readDiff at h
          have hp : ∀ (off l : Nat), (sysPread w (.fd cl.difffile) off l).1.files = w.files := by
            intro off l
            unfold sysPread
            split
            · rfl
            · split <;> rfl
          have hp := hp (diffOffset m (a - mapcnt * DIFFPAGESIZE)) (pageLen (a - mapcnt * DIFFPAGESIZE) len)
          generalize sysPread w (.fd cl.difffile) (diffOffset m (a - mapcnt * DIFFPAGESIZE)) (pageLen (a - mapcnt * DIFFPAGESIZE) len) = x at h hp
          obtain ⟨w1, x⟩ := x
          cases x with
          | none => cases h; exact hp
          | some bs =>
            simp only [] at h
            split at h
            · cases h
            · cases h
            · split at h <;> cases h <;> exact hp
        exact .of_files hfiles
      · intro r en
        split
        · exact hk _ _ _
        · split
          · exact sendChunkP_only _ _ _ (ih _ _ _ _ _)
          · exact ih _ _ _ _ _
    · refine readFullyM_only e cookie lg _ ?_ _ _ _ rfl
      intro c ok en
      split
      · exact ih _ _ _ _ _
      · exact hk _ _ _

theorem cowP_only (e : Endian) (cl : Client) (sid : Nat) (lg : Bool) (en : Nat) (r : Req) (p : Payload) :
    (cowP e cl sid lg en r p).Only (Seated cl sid) (OwnOnly cl sid) := by
  have hans : ∀ ok en, (answerM e lg r ok en).Only (Seated cl sid) (OwnOnly cl sid) :=
    fun ok en => sendReplyP_only _ _ _ trivial
  have hexit : Prog.Only (Seated cl sid) (OwnOnly cl sid) (.op (α := Unit) (fun _ => .exit) (fun _ => .done en)) :=
    ⟨(fun s s' a _ h => by cases h), fun _ => trivial⟩
  unfold cowP
  simp only []
  split
  · exact sendReplyP_only _ _ _ trivial
  · split
    · split
      · exact sendReplyP_only _ _ _ trivial
      · unfold readM
        simp only []
        split
        · exact sendChunkP_only _ _ _ trivial
        · refine readPagesM_only e _ _ _ ?_ _ _ _ _ _ _
          intro c ok en
          unfold completeReadP
          split
          · exact crash_only
          · exact crash_only
          · split
            · exact sendChunksP_only _ _ _ trivial
            · split
              · exact sendReplyP_only _ _ _ trivial
              · exact crash_only
    · split
      · split
        · exact sendReplyP_only _ _ _ trivial
        · split
          · exact sendReplyP_only _ _ _ trivial
          · split
            · exact expwriteM_only _ _ hans _ _ _
            · exact crash_only
            · exact crash_only
      · split
        · exact sysFsync_call_only _ _ hans
        · split
          · split
            · exact sendReplyP_only _ _ _ trivial
            · split
              · exact sendReplyP_only _ _ _ trivial
              · split
                · exact hexit
                · split
                  · exact hexit
                  · exact hans _ _
          · split
            · split
              · exact sendReplyP_only _ _ _ trivial
              · split
                · exact sendReplyP_only _ _ _ trivial
                · exact writeZeroesM_only _ _ hans _ _ _
            · exact sendReplyP_only _ _ _ trivial

end

/-! ### Executions -/

/-- What any number of copy-on-write sessions together leave alone, in any execution. -/
theorem Exec.cowKept (e : Endian) (cls : Nat → Client) (lgs : Nat → Bool) (S T : System Mem) (tr : List (Nat × Ext))
    (hsp : ∀ i, has (cls i).ex.flags F_SPLICE = false) (hseat : ∀ i, SameSeat (cls i) (S.sh.st.1 i)) (hf : ∀ s ∈ S.sessions, s.Fresh)
    (hx : Exec (fun i => cowServer e (cls i) i (lgs i)) S tr T) :
    T.sessions.length = S.sessions.length ∧
    (∀ i, SameSeat (cls i) (T.sh.st.1 i)) ∧
    (∀ i, S.sessions.length ≤ i → T.sh.st.1 i = S.sh.st.1 i) ∧
    (∀ id, (∀ i, i < S.sessions.length → id ≠ .fd (cls i).difffile) → T.sh.st.2.files id = S.sh.st.2.files id ∨
      ((∃ i, i < S.sessions.length ∧ has (cls i).ex.flags F_TREEFILES = true) ∧ S.sh.st.2.files id = none ∧
        ∃ f, T.sh.st.2.files id = some f ∧ ∀ o, f.data o = 0)) ∧
    ∀ (i : Nat) s, T.sessions[i]? = some s → s.Only (Seated (cls i) i) (OwnOnly (cls i) i) := by
  induction hx with
  | nil =>
    refine ⟨rfl, hseat, fun _ _ => rfl, fun _ _ => .inl rfl, ?_⟩
    intro i s hs
    obtain ⟨a, b, c, rfl⟩ := hf _ (List.mem_of_getElem? hs)
    intro x hx
    simp only [Session.fresh, List.mem_map] at hx
    obtain ⟨en, _, rfl⟩ := hx
    exact trivial
  | step tr T sid s s' evs sh' h hs h1 ih =>
    obtain ⟨hlen, hst, hoth, hfil, honly⟩ := ih
    have hlt : sid < T.sessions.length := (List.getElem?_eq_some_iff.mp hs).1
    obtain ⟨⟨hk, hrec, hseat'⟩, hs'⟩ := h1.only (fun _ => OwnOnly.refl _ _ _) (fun en r p => cowP_only e (cls sid) sid (lgs sid) en r p)
      (by
        intro stream st' f ht
        unfold cowServer at ht
        simp only [] at ht
        rw [fetch_plain e _ (hsp sid)] at ht
        cases hg : fetchPlain e stream with
        | ub => rw [hg] at ht; cases ht
        | exit => rw [hg] at ht; cases ht
        | val x => rw [hg] at ht; cases ht; rfl) (hst sid) (honly _ _ hs)
    refine ⟨by rw [List.length_set]; exact hlen, ?_, ?_, ?_, ?_⟩
    · intro i
      by_cases hi : i = sid
      · subst hi; exact (hst i).trans hseat'
      · show SameSeat (cls i) (sh'.st.1 i)
        rw [hrec i hi]; exact hst i
    · intro i hi
      show sh'.st.1 i = _
      rw [hrec i (by omega)]
      exact hoth i hi
    · intro id hid
      have h2 := hk id (hid sid (by omega))
      rcases hfil id hid with a | ⟨a1, a2, f, a3, a4⟩
      · rcases h2 with b | ⟨b1, b2, g, b3, b4⟩
        · exact .inl (b.trans a)
        · exact .inr ⟨⟨sid, by omega, b1⟩, a ▸ b2, g, b3, b4⟩
      · rcases h2 with b | ⟨_, b2, _⟩
        · exact .inr ⟨a1, a2, f, b.trans a3, a4⟩
        · rw [a3] at b2; cases b2
    · intro i t ht
      rcases getElem?_set_cases ht with ⟨rfl, rfl⟩ | ⟨hne, ht⟩
      · exact hs'
      · exact honly _ _ ht

end Nbd
