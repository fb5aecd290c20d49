import Verif.SchedFrame
import Verif.SchedTree
import Verif.SchedGuard
/-! # Bytes of a tree no request is about, with requests processed at the same time

`open_treefile` writes a zero to the last byte of a block whose file it did not find, so the programs keep a byte only as long as it is
sure to have its value: then a file that is not there means that the value is zero. -/

set_option autoImplicit false

namespace Nbd
open Spec

/-- Now and after a crash, a stored byte has this value. -/
def Sure (x : FileId × Nat) (y : Byte) (w : World) : Prop := ∀ b, Poss w x b → b = y

theorem Keeps.sure {x : FileId × Nat} {y : Byte} {w w' : World} (h : Keeps (· ≠ x) w w') (hs : Sure x y w) : Sure x y w' :=
  fun b hb => hs b (h.poss x (by simp) b hb)

theorem Prog.Keep.sure {x : FileId × Nat} {y : Byte} {p : Prog World} (h : p.Keep (· ≠ x)) : p.Keeps (Sure x y) := by
  induction p with
  | done en => trivial
  | op f k ih => exact fun s s' a hs hf => ⟨(h s s' a hf).1.sure hs, ih a (h s s' a hf).2⟩
  | send m k ih => exact ih h
  | log bs k ih => exact ih h

theorem call_sure {α : Type} {f : World → Out (World × α)} {en : Nat} {k : α → Nat → Prog World} {x : FileId × Nat} {y : Byte}
    (h : ∀ w w' a, Sure x y w → f w = .val (w', a) → Sure x y w' ∧ ∀ en', (k a en').Keeps (Sure x y)) :
    (call f en k).Keeps (Sure x y) := by
  intro s s' a hs hf
  obtain ⟨a, en'⟩ := a
  cases hq : f { s with errno := en } with
  | ub => simp [hq] at hf
  | exit => simp [hq] at hf
  | val pr =>
    obtain ⟨w', a'⟩ := pr
    simp only [hq, Out.val.injEq, Prod.mk.injEq] at hf
    obtain ⟨rfl, rfl, rfl⟩ := hf
    obtain ⟨h1, h2⟩ := h _ _ _ ((keeps_errno (· ≠ x) s en).sure hs) hq
    exact ⟨h1, h2 _⟩

theorem call_sure' {α : Type} {f : World → Out (World × α)} {en : Nat} {k : α → Nat → Prog World} {x : FileId × Nat} {y : Byte}
    (h : ∀ w w' a, f w = .val (w', a) → Keeps (· ≠ x) w w' ∧ ∀ en', (k a en').Keeps (Sure x y)) :
    (call f en k).Keeps (Sure x y) :=
  call_sure fun w w' a hs hf => ⟨(h w w' a hf).1.sure hs, (h w w' a hf).2⟩

theorem sendChunkP_sure {x : FileId × Nat} {y : Byte} (lg : Bool) (m : Msg) (k : Prog World) (h : k.Keeps (Sure x y)) :
    (sendChunkP lg m k).Keeps (Sure x y) := by
  unfold sendChunkP
  show Prog.Keeps (Sure x y) (if lg = true then _ else _)
  split <;> exact h

/-- What the programs of all requests received keep true stays true. -/
theorem Exec.keepsSure {v : Nat → Server World} {I : World → Prop}
    (htake : ∀ sid st st' stream x, (v sid).take st stream = .val (st', x) → I st → I st')
    {S T : System World} {tr : List (Nat × Ext)} (hf : ∀ s ∈ S.sessions, s.Fresh) (h0 : I S.sh.st) (hx : Exec v S tr T)
    (hgood : ∀ sid j, (sid, .recv j) ∈ tr → ∀ en, ((v sid).code en j.req j.payload).Keeps I) :
    I T.sh.st ∧ ∀ (sid : Nat) (s : Session World), T.sessions[sid]? = some s →
      (∀ j ∈ s.queue, (sid, .recv j) ∈ tr) ∧ ∀ (i : Nat) y, s.workers[i]? = some y → y.Keeps I := by
  induction hx with
  | nil =>
    refine ⟨h0, ?_⟩
    intro sid s hs
    obtain ⟨stream, errnos, pos, rfl⟩ := hf s (List.mem_of_getElem? hs)
    refine ⟨fun j hj => (by cases hj), ?_⟩
    intro i y hy
    obtain ⟨en, _, rfl⟩ := List.mem_map.mp (List.mem_of_getElem? hy)
    trivial
  | step tr T sid' s s' evs sh' h hs h1 ih =>
    obtain ⟨h2, h3⟩ := ih (fun sid j hj => hgood sid j (List.mem_append_left _ hj))
    obtain ⟨h4, h5⟩ := h3 _ _ hs
    have hset : ∀ {i : Nat} {z : Worker World}, z.Keeps I → s'.workers = s.workers.set i z → ∀ (i : Nat) y, s'.workers[i]? = some y → y.Keeps I := by
      intro i z hz hw i' y hy
      rw [hw] at hy
      rcases getElem?_set_cases hy with ⟨rfl, rfl⟩ | ⟨_, hy⟩
      · exact hz
      · exact h5 i' y hy
    have hold : ∀ {q : List Job}, (∀ j ∈ q, j ∈ s.queue) → ∀ j ∈ q, (sid', .recv j) ∈ tr ++ evs.map (fun x => (sid', x)) :=
      fun hq j hj => List.mem_append_left _ (h4 j (hq j hj))
    have hmain : I sh'.st ∧ (∀ j ∈ s'.queue, (sid', .recv j) ∈ tr ++ evs.map (fun x => (sid', x))) ∧
        ∀ (i : Nat) y, s'.workers[i]? = some y → y.Keeps I := by
      have hd := h1.does
      generalize sh'.st = st' at hd
      cases hd with
      | main js st' s' hw hq hjs hst =>
        refine ⟨?_, ?_, by rw [hw]; exact h5⟩
        · rcases hst with rfl | ⟨x, hst⟩
          · exact h2
          · exact htake _ _ _ _ _ hst h2
        · intro j hj
          rw [hq] at hj
          rcases List.mem_append.mp hj with hj | hj
          · exact hold (fun _ h => h) j hj
          · exact List.mem_append_right _ (List.mem_map_of_mem (List.mem_map_of_mem hj))
      | start i en j s' hi hq hw =>
        refine ⟨h2, hold (fun j' hj' => by rw [hq]; exact List.mem_cons_of_mem _ hj'), hset (i := i) ?_ hw⟩
        exact hgood sid' j (List.mem_append_left _ (h4 j (by rw [hq]; exact List.mem_cons_self))) en
      | op i j f k st' a s' hi hf' hq hw =>
        obtain ⟨g1, g2⟩ := (show Prog.Keeps I (.op f k) from h5 _ _ hi) _ _ _ h2 hf'
        exact ⟨g1, hold (fun j hj => by rw [hq] at hj; exact hj), hset (i := i) (z := .busy j (k a)) g2 hw⟩
      | hidden i x x' s' hi hx' hq hw =>
        refine ⟨h2, hold (fun j hj => by rw [hq] at hj; exact hj), hset (i := i) ?_ hw⟩
        have := h5 _ _ hi
        cases hx' with
        | lock j m k => exact this
        | write j m xs ys k => exact this
        | log j bs k => exact this
        | finish j en => trivial
      | unlock i j m rest k s' hi hq hw =>
        exact ⟨h2, hold (fun j hj => by rw [hq] at hj; exact hj), hset (i := i) (z := .busy j k) (show Worker.Keeps I (.sending j m rest k) from h5 _ _ hi) hw⟩
    refine ⟨hmain.1, ?_⟩
    intro sid t ht
    rcases getElem?_set_cases ht with ⟨rfl, rfl⟩ | ⟨_, ht⟩
    · exact hmain.2
    · exact ⟨fun j hj => List.mem_append_left _ ((h3 _ _ ht).1 j hj), (h3 _ _ ht).2⟩

theorem openOld_keeps (T : FileId × Nat → Prop) (p : List Char) (w w' : World) (r : Option Handle) (h : openOld p w = .val (w', r)) :
    Keeps T w w' := by
  unfold openOld at h
  split at h
  · split at h <;> cases h
    · exact .step _ _
    · exact .fail _ _ _
  · split at h <;> cases h <;> exact .fail _ _ _

theorem openNew_keeps (T : FileId × Nat → Prop) (p : List Char) (w w' : World) (r : Unit) (h : openNew p w = .val (w', r)) :
    Keeps T w w' := by
  unfold openNew at h
  split at h
  · cases h
  · split at h <;> cases h
    · exact .step _ _
    · rename_i hn
      exact (Keeps.step T w).trans (keeps_create T _ p _ hn (by intro o b hb; simpa [File.clean] using hb))

theorem extend_sure {x : FileId × Nat} {y : Byte} (p : List Char) (hp : y = 0 ∨ x.1 ≠ .path p) (w w' : World) (r : Unit)
    (hs : Sure x y w) (h : extend p w = .val (w', r)) : Sure x y w' := by
  unfold extend at h
  split at h
  · cases h
  · cases h
  · split at h <;> cases h
    · exact (Keeps.step (· ≠ x) w).sure hs
    · rename_i f hf
      rcases hp with rfl | hp
      · refine Keeps.sure (keeps_set hf ?_) hs
        intro o ho b hb
        have hox : (FileId.path p, o) = x := by simpa using ho
        have h0 : f.data o = 0 := by
          refine hs _ ?_
          rw [← hox]
          exact ⟨some f, by unfold entries; rw [hf]; exact List.mem_cons_self, .inl rfl⟩
        by_cases ho : o = TREEPAGESIZE - 1
        · subst ho
          simp only [File.pwrite] at hb
          rw [Flat.write_apply] at hb
          simp at hb
          rcases hb with hb | hb | hb
          · exact .inl (hb.trans h0.symm)
          · exact .inl hb
          · exact .inr hb
        · simp only [File.pwrite] at hb
          rw [Flat.write_outside _ _ _ _ (by simp; omega), if_neg (by simp; omega)] at hb
          exact hb
      · refine Keeps.sure (keeps_pwrite hf ?_) hs
        intro k hk he
        exact hp (congrArg Prod.fst he).symm

theorem openDummy_keeps (T : FileId × Nat → Prop) (w w' : World) (r : Unit) (h : openDummy w = .val (w', r)) : Keeps T w w' := by
  unfold openDummy at h
  split at h <;> cases h
  exact .step _ _

theorem openTreeP_sure {x : FileId × Nat} {y : Byte} (ex : Export) (a : Nat) (k : Handle → Nat → Prog World)
    (hk : ∀ h en, (∀ id, h = .file id → ∃ p, treeFilename ex.name ex.exportsize a = some p ∧ id = .path p) →
      (k h en).Keeps (Sure x y)) (en : Nat) : (openTreeP ex a k en).Keeps (Sure x y) := by
  unfold openTreeP
  cases hp : treeFilename ex.name ex.exportsize a with
  | none => intro s s' x _ hf; cases hf
  | some p =>
    dsimp only
    refine call_sure ?_
    intro w w' r hs hf
    refine ⟨(openOld_keeps _ p w w' r hf).sure hs, fun en' => ?_⟩
    cases r with
    | some h =>
      refine hk _ _ ?_
      intro id hid
      subst hid
      unfold openOld at hf
      split at hf <;> split at hf <;> cases hf
      exact ⟨p, hp, rfl⟩
    | none =>
      have hyp : y = 0 ∨ x.1 ≠ .path p := by
        by_cases hx : x.1 = .path p
        · left
          symm
          refine hs 0 ⟨none, ?_, rfl⟩
          unfold entries
          unfold openOld at hf
          split at hf
          · split at hf <;> cases hf
          · rename_i hn
            rw [hx, hn]
            exact List.mem_cons_self
        · exact .inr hx
      dsimp only
      split
      · refine call_sure' ?_
        intro w w' r hf
        refine ⟨openNew_keeps _ p w w' r hf, fun en' => call_sure ?_⟩
        intro w w' r hs hf
        refine ⟨extend_sure p hyp w w' r hs hf, fun en' => hk _ _ ?_⟩
        intro id hid
        cases hid
        exact ⟨p, hp, rfl⟩
      · refine call_sure' ?_
        intro w w' r hf
        refine ⟨openDummy_keeps _ w w' r hf, fun en' => hk _ _ ?_⟩
        intro id hid
        cases hid

theorem writeFullyT_sure {ex : Export} (hg : GoodExport ex) (ht : has ex.flags F_TREEFILES = true) {x : FileId × Nat} {y : Byte}
    (fua : Bool) (k : Bool → Nat → Prog World) (hk : ∀ ok en, (k ok en).Keeps (Sure x y)) (n : Nat) :
    ∀ (a : Nat) (buf : List Byte) (en : Nat), buf.length = n → (0 < buf.length → a + buf.length ≤ ex.exportsize) →
      (0 < buf.length → ¬ Touch ex a buf.length x) → (writeFullyT ex fua k a buf en).Keeps (Sure x y) := by
  induction n using Nat.strongRecOn with
  | _ n ih =>
    intro a buf en hn hr hT
    unfold writeFullyT
    split
    · exact hk _ _
    · rename_i h0
      have hr := hr (by omega)
      have hT := hT (by omega)
      split
      · exact hk _ _
      · refine openTreeP_sure ex a _ ?_ en
        intro h en hh
        refine call_sure' ?_
        intro w w' v hf
        refine ⟨?_, ?_⟩
        · simp only [Out.val.injEq] at hf
          have hf1 := congrArg Prod.fst hf
          change _ = w' at hf1
          rw [← hf1]
          refine Keeps.mono (T := Touch ex a buf.length) ?_ (fun z hz hzx => hT (hzx ▸ hz))
          unfold handlePwrite
          cases h with
          | bad => exact .fail _ _ _
          | dummy =>
            simp only []
            split
            · exact .fail _ _ _
            · exact .step _ _
          | file id =>
            obtain ⟨p, hp, rfl⟩ := hh id rfl
            simp only [sysPwrite]
            split
            · exact .fail _ _ _
            · rename_i f hf
              split
              · exact .fail _ _ _
              · rename_i n hn
                apply keeps_pwrite hf
                intro q hq
                simp only [List.length_take] at hq
                have hcl := clip_le ((1 + a / TREEPAGESIZE) * TREEPAGESIZE - a) buf.length
                have hlt := clip_lt (show q < clip ((1 + a / TREEPAGESIZE) * TREEPAGESIZE - a) buf.length by omega)
                have hdiv : a / TREEPAGESIZE = (a + q) / TREEPAGESIZE := by
                  simp only [TREEPAGESIZE] at hlt ⊢
                  omega
                have hhome : home ex (a + q) = some (.path p, a % TREEPAGESIZE + q) := by
                  unfold home
                  rw [if_pos ht, (treeFilename_eq_iff ex.name ex.exportsize a (a + q) (by omega) (by omega) p hp).mpr
                    (by first | exact hdiv | exact hdiv.symm)]
                  simp only [Option.map_some, Option.some.injEq, Prod.mk.injEq, true_and]
                  simp only [TREEPAGESIZE] at hdiv ⊢
                  omega
                exact touch_home hg hhome (by omega) hr
        · intro en'
          have hnext : ∀ en, Prog.Keeps (Sure x y) (match v with
              | none => k false en
              | some 0 => k false en
              | some (n + 1) => writeFullyT ex fua k (a + (n + 1)) (buf.drop (n + 1)) en) := by
            intro en
            cases v with
            | none => exact hk _ _
            | some m =>
              cases m with
              | zero => exact hk _ _
              | succ m =>
                have hdl : (buf.drop (m + 1)).length = buf.length - (m + 1) := List.length_drop
                exact ih _ (by omega) _ _ _ rfl (fun _ => by omega) (fun _ hy => hT (Touch.mono (by omega) (by omega) x hy))
          show Prog.Keeps (Sure x y) (if has ex.flags F_SYNC || fua then _ else _)
          split
          · refine call_sure' ?_
            intro w w' _ hh
            cases hh
            exact ⟨handleSyncIgnored_keeps _ _ _, hnext⟩
          · exact hnext en'

theorem writeZeroesT_sure {ex : Export} (hg : GoodExport ex) (ht : has ex.flags F_TREEFILES = true) {x : FileId × Nat} {y : Byte}
    (fua : Bool) (k : Bool → Nat → Prog World) (hk : ∀ ok en, (k ok en).Keeps (Sure x y)) (a : Nat)
    (n : Nat) : ∀ (en : Nat), a + n ≤ ex.exportsize → ¬ Touch ex a n x → (writeZeroesT ex fua k a n en).Keeps (Sure x y) := by
  induction n using Nat.strongRecOn with
  | _ n ih =>
    intro en hr hT
    unfold writeZeroesT
    split
    · exact hk _ _
    · rename_i h0
      have hzl : (Flat.zeros (min n ZEROCHUNK)).length = min n ZEROCHUNK := by simp [Flat.zeros]
      have hpos : 0 < ZEROCHUNK := by decide
      refine writeFullyT_sure hg ht fua _ ?_ _ a _ en rfl (fun _ => by rw [hzl]; omega) ?_
      · intro ok en
        split
        · exact ih _ (by omega) en (by omega) (fun hy => hT (Touch.mono (by omega) (by omega) x hy))
        · exact hk _ _
      · intro _ hy
        rw [hzl] at hy
        exact hT (Touch.mono (by omega) (by omega) x hy)

theorem preadOnce_keeps (T : FileId × Nat → Prop) (c : ReadCtx) (h : Handle) (w w' : World) (r : Option (ReadCtx × List Byte × Nat))
    (hf : preadOnce c h w = .val (w', r)) : Keeps T w w' := by
  unfold preadOnce at hf
  dsimp only at hf
  have hk := handlePread_keeps T w h ((c.start + c.curOff) % TREEPAGESIZE)
    (clip ((1 + (c.start + c.curOff) / TREEPAGESIZE) * TREEPAGESIZE - (c.start + c.curOff)) c.curLen)
  split at hf
  · rename_i hq; rw [hq] at hk; cases hf; exact hk
  · rename_i hq; rw [hq] at hk; cases hf; exact hk
  · rename_i hq
    rw [hq] at hk
    split at hf
    · cases hf
    · cases hf
    · cases hf; exact hk

theorem readFullyT_sure {x : FileId × Nat} {y : Byte} (e : Endian) (ex : Export)
    (cookie : List Byte) (lg : Bool) (k : ReadCtx → Bool → Nat → Prog World) (hk : ∀ c ok en, (k c ok en).Keeps (Sure x y)) (n : Nat) :
    ∀ (c : ReadCtx) (en : Nat), c.curLen = n → (readFullyT e ex cookie lg k c en).Keeps (Sure x y) := by
  induction n using Nat.strongRecOn with
  | _ n ih =>
    intro c en hn
    unfold readFullyT
    split
    · exact hk _ _ _
    · split
      · exact hk _ _ _
      · refine openTreeP_sure ex _ _ ?_ en
        intro h en _
        refine call_sure' ?_
        intro w w' r hf
        refine ⟨preadOnce_keeps _ c h w w' r hf, ?_⟩
        intro en'
        cases r with
        | none => exact hk _ _ _
        | some v =>
          obtain ⟨c', bs, m⟩ := v
          have hnext : ∀ c'' : ReadCtx, c''.curLen = c.curLen - (m + 1) → (readFullyT e ex cookie lg k c'' en').Keeps (Sure x y) :=
            fun c'' hc => ih _ (by omega) c'' en' hc
          show Prog.Keeps (Sure x y) (if c.chunked then _ else _)
          split
          · exact sendChunkP_sure _ _ _ (hnext _ rfl)
          · exact hnext _ rfl

/-- What the program of a request on a tree leaves alone. -/
theorem requestT_sure (e : Endian) (cl : Client) (hcl : Treefile cl) (lg : Bool) (en : Nat) (j : Job) (hj : j.Wf) (i : Nat)
    (hi : i < cl.ex.exportsize) (x : FileId × Nat) (y : Byte) (hx : home cl.ex i = some x)
    (hn : Changes j.req i → cl.ex.exportsize < j.req.start + j.req.len) :
    (requestT e cl lg en j.req j.payload).Keeps (Sure x y) := by
  obtain ⟨id, r, p⟩ := j
  have hlen : r.len < 2 ^ 32 := hj.len
  have hg := hcl.plain.good
  have hin : ∀ h : ¬ badRange cl r = true, r.start + r.len ≤ cl.ex.exportsize := by
    intro h
    exact inRange hg hlen (by simpa using h)
  have hm : r.type % 65536 ∈ [1, 4, 6] → r.start + r.len ≤ cl.ex.exportsize → ¬ Touch cl.ex r.start r.len x := by
    intro ht hr hT
    have : cl.ex.exportsize < r.start + r.len := hn ⟨ht, hT i hi hx⟩
    omega
  show Prog.Keeps (Sure x y) (requestT e cl lg en r p)
  unfold requestT
  dsimp only
  split
  · exact (sendReplyP_keep _ _ (.done _) trivial).sure
  · split
    · split
      · exact (sendReplyP_keep _ _ (.done _) trivial).sure
      · unfold readT
        dsimp only
        split
        · exact (sendChunkP_keep _ _ (.done _) trivial).sure
        · exact readFullyT_sure _ _ _ _ _ (fun c ok en => (completeReadP_keep _ _ _ _ _ _).sure) _ _ _ rfl
    · split
      · rename_i ht
        split
        · exact (sendReplyP_keep _ _ (.done _) trivial).sure
        · split
          · exact (sendReplyP_keep _ _ (.done _) trivial).sure
          · rename_i hb
            have hrr := hin hb
            obtain ⟨bs, hp, hbl⟩ := hj.data ht
            change p = .data bs at hp
            change bs.length = r.len at hbl
            subst hp
            refine writeFullyT_sure hg hcl.tree _ _ (fun ok en => (answerP_keep _ _ _ _ _).sure) _ _ _ _ rfl (fun _ => by omega) ?_
            rw [hbl]
            exact fun _ => hm (by rw [ht]; decide) hrr
      · split
        · refine call_sure' ?_
          intro w w' a hf
          simp only [Out.val.injEq] at hf
          refine ⟨?_, fun en' => (answerP_keep _ _ _ _ _).sure⟩
          have := expflush_keeps (· ≠ x) cl w
          rwa [hf] at this
        · split
          · rename_i ht
            split
            · exact (sendReplyP_keep _ _ (.done _) trivial).sure
            · split
              · exact (sendReplyP_keep _ _ (.done _) trivial).sure
              · rename_i hb
                refine call_sure' ?_
                intro w w' a hf
                refine ⟨?_, fun en' => (answerP_keep _ _ _ _ _).sure⟩
                split at hf
                · cases hf
                · cases hf
                · rename_i hq
                  cases hf
                  exact (exptrim_keeps cl hg _ _ _ _ (hin hb) hq).mono (fun z hz hzx => hm (by rw [ht]; decide) (hin hb) (hzx ▸ hz))
          · split
            · rename_i ht
              split
              · exact (sendReplyP_keep _ _ (.done _) trivial).sure
              · split
                · exact (sendReplyP_keep _ _ (.done _) trivial).sure
                · rename_i hb
                  exact writeZeroesT_sure hg hcl.tree _ _ (fun ok en => (answerP_keep _ _ _ _ _).sure) _ _ _
                    (hin hb) (hm (by rw [ht]; decide) (hin hb))
            · exact (sendReplyP_keep _ _ (.done _) trivial).sure

end Nbd
