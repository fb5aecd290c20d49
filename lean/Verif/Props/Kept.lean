import Verif.SchedKept
import Verif.Props.Linear
/-!
# C73: what an acknowledged flush, or write with FUA, promises while other requests are in flight

The setting is that of C72 (Verif/Props/Linear.lean): several connections to one export of plain files, each with worker threads,
all their system calls in any order. `Survives ex w i b` (Verif/DurableLemmas.lean): after a crash of the machine in state `w`, byte
`i` of the export is `b`, whatever the crash does to what was not synced. The `fsync` of one thread may come between any two calls
of another.

Restricted to exports of plain files like C72, hence `_partial`.
-/

set_option autoImplicit false

namespace Nbd
namespace Props
open Spec

theorem asked_touches {j : Job} {i : Nat} (h : Touches (asked j) i) : Changes j.req i ∧ j.req.type < 262144 := by
  obtain ⟨h1, h2, h3⟩ := h
  simp only [asked, cmdOf] at h1 h2 h3
  split at h1
  · rename_i ht
    exact ⟨⟨h1, h2, h3⟩, ht⟩
  · simp at h1

theorem plain_careful (e : Endian) (ex : Export) (cls : Nat → Client) (lgs : Nat → Bool) (hcl : OneExport ex cls) (i : Nat)
    (hi : i < ex.exportsize) (x : FileId × Nat) (hx : home ex i = some x) (I : World → Prop) (hI : ∀ T w w', Keeps T w w' → I w → I w') :
    Careful (fun sid => plainServer e (cls sid) (lgs sid)) (fun _ => Job.Wf) (fun j => Touches (asked j) i) x I where
  any sid en j hj := (requestP_keep e (cls sid) (hcl.flat sid).plain (hcl.flat sid).tree (lgs sid) en j hj).mono (fun _ _ => trivial)
  keep sid en j hj hn := by
    by_cases ht : j.req.type < 262144
    · refine (requestP_keep e (cls sid) (hcl.flat sid).plain (hcl.flat sid).tree (lgs sid) en j hj).mono ?_
      intro y hy hyx
      subst hyx
      rw [hcl.same sid] at hy
      obtain ⟨h1, h2, h3⟩ := hy i hi hx
      exact hn ⟨by simp only [asked, cmdOf, ht, if_true]; exact h1, h2, h3⟩
    · show Prog.Keep _ (requestP e (cls sid) (lgs sid) en j.req j.payload)
      unfold requestP
      dsimp only
      rw [if_pos (by omega)]
      exact sendReplyP_keep _ _ _ trivial
  one sid en j hj ht := by
    refine requestP_oneMsg e (cls sid) (lgs sid) en j.req j.payload ?_
    obtain ⟨⟨h1, _⟩, _⟩ := asked_touches ht
    intro h0
    rw [h0] at h1
    simp at h1
  take sid st st' stream f h := fetch_keeps _ e (cls sid) st st' stream f h
  inv := hI

theorem survives_settled {ex : Export} {w : World} {i : Nat} {b : Byte} (hv : view ex w i = b)
    (h : ∀ x, i < ex.exportsize → home ex i = some x → Settled w x) : Survives ex w i b := by
  by_cases hi : i < ex.exportsize
  · cases hx : home ex i with
    | some x =>
      have := (h x hi hx).survives hi hx
      rwa [hv] at this
    | none =>
      intro w' _
      unfold view at hv ⊢
      rw [if_pos hi, hx] at hv ⊢
      exact hv
  · intro w' _
    unfold view at hv ⊢
    rw [if_neg hi] at hv ⊢
    exact hv

theorem plain_meets (e : Endian) (ex : Export) (cls : Nat → Client) (lgs : Nat → Bool) (hcl : OneExport ex cls) (sid : Nat) :
    (plainServer e (cls sid) (lgs sid)).Meets (view ex) Job.Wf
      (fun j => Complete ex.exportsize (badWrite (cls sid)) [(cls sid).structured] (asked j))
      (fun j => Partial ex.exportsize (badWrite (cls sid)) [(cls sid).structured] (asked j)) := by
  have := plainServer_meets e (cls sid) (hcl.flat sid) (lgs sid)
  rw [hcl.same sid] at this
  exact this

/-- No request is received again after a message for it was sent. -/
theorem received_before {size : Nat} {ro : Nat → Bool} {fr : Nat → List Bool} {A B : Flat} {tr : List (Nat × Ext)}
    (hh : ∃ h, visible h = tr ∧ Hist (fun sid => Complete size (ro sid) (fr sid)) asked A B h)
    (p q : List (Nat × Ext)) (htr : tr = p ++ q) (sid : Nat) (j : Job) (m : Msg)
    (hs : (sid, .sent j.id m) ∈ p) : (sid, .recv j) ∉ q := by
  intro hr
  obtain ⟨h, h1, h2⟩ := hh
  rw [htr] at h1
  obtain ⟨p1, p2, rfl⟩ := List.append_of_mem hs
  rw [List.append_assoc, List.cons_append] at h1
  obtain ⟨ha, ev, h4, rfl, ea, e1, v1⟩ := visible_split h1
  obtain rfl := visible_sent e1
  obtain ⟨j', hj', hid⟩ := h2.causal ha sid j.id (.msg m) h4 rfl
  have hnd := h2.ids sid
  rw [recvs_append, List.map_append] at hnd
  have hj : j ∈ recvs sid (.act sid j.id (.msg m) :: h4) := by
    show j ∈ recvs sid h4
    rw [← recvs_visible, v1, mem_received]
    exact List.mem_append_right _ hr
  exact (List.nodup_append.mp hnd).2.2 _ (List.mem_map.mpr ⟨j', hj', rfl⟩) _ (List.mem_map.mpr ⟨j, hj, rfl⟩) hid

section
variable {ex : Export} {v : Nat → Server World} {J : Nat → Job → Prop} {P Q : Nat → Job → List Act → Prop}
  {S T : System World}

/-- For any servers whose code is careful: after an acknowledged write and an acknowledged flush the byte is settled. -/
theorem flush_settles (hv : ∀ sid, (v sid).Meets (view ex) (J sid) (P sid) (Q sid)) (hf : ∀ s ∈ S.sessions, s.Fresh)
    (a b b' c d : List (Nat × Ext)) (s1 s2 : Nat) (W F : Job) (ok ok' : Msg)
    (hx : Exec v S
      (a ++ (s1, .recv W) :: (b ++ (s1, .sent W.id ok) :: (b' ++ (s2, .recv F) :: (c ++ (s2, .sent F.id ok') :: d)))) T)
    (hrb : ∀ p q, a ++ (s1, .recv W) :: (b ++ (s1, .sent W.id ok) :: (b' ++ (s2, .recv F) :: (c ++ (s2, .sent F.id ok') :: d))) =
      p ++ q → ∀ sid (j : Job) m, (sid, .sent j.id m) ∈ p → (sid, .recv j) ∉ q)
    (i : Nat) (hok' : ok'.bytes = (Reply.simple 0 F.req.cookie []).encode)
    (hothers : ∀ sid j, (sid, .recv j) ∈ a ++ b ++ b' ++ c ++ d → Touches (asked j) i → ∃ m, (sid, .sent j.id m) ∈ a)
    (x : FileId × Nat) (hcar : Careful v J (fun j => Touches (asked j) i) x (fun _ => True))
    (hpend : ∀ en, ((v s2).code en F.req F.payload).Pend (fun _ => True) x (Reply.simple 0 F.req.cookie []).encode) :
    Settled T.sh.st x := by
  have hs := Exec.settled (x := x) (I := fun _ => True) (s1 := s2) (D := F) (ok := (Reply.simple 0 F.req.cookie []).encode)
    (pre := a ++ (s1, .recv W) :: (b ++ (s1, .sent W.id ok) :: b')) hv hcar hf trivial hpend ?_ hx
  · have hnt : ∀ sid j, (sid, .recv j) ∈ c ++ (s2, .sent F.id ok') :: d → ¬ Touches (asked j) i := by
      intro sid j hj ht
      obtain ⟨m, hm⟩ := hothers sid j (by
        simp only [List.mem_append, List.mem_cons] at hj ⊢
        rcases hj with h | h | h
        · exact .inl (.inr h)
        · cases h
        · exact .inr h) ht
      exact hrb (a ++ (s1, .recv W) :: (b ++ (s1, .sent W.id ok) :: (b' ++ [(s2, .recv F)])))
        (c ++ (s2, .sent F.id ok') :: d) (by simp) sid j m (List.mem_append_left _ hm) hj
    rcases hs.2 (c ++ (s2, .sent F.id ok') :: d) (by simp) hnt with hw | hw
    · exact absurd hok' (hw.1 ok' (by simp))
    · exact hw.1
  · intro sid j hj ht
    simp only [List.mem_append, List.mem_cons] at hj ⊢
    rcases hj with h | h | h | h | h
    · obtain ⟨m, hm⟩ := hothers sid j (by simp [h]) ht
      exact ⟨m, .inl hm⟩
    · cases h
      exact ⟨ok, .inr (.inr (.inr (.inl rfl)))⟩
    · obtain ⟨m, hm⟩ := hothers sid j (by simp [h]) ht
      exact ⟨m, .inl hm⟩
    · cases h
    · obtain ⟨m, hm⟩ := hothers sid j (by simp [h]) ht
      exact ⟨m, .inl hm⟩

/-- For any servers whose code is careful: after an acknowledged write whose success is sent only when the byte is settled, it is. -/
theorem fua_settles (hv : ∀ sid, (v sid).Meets (view ex) (J sid) (P sid) (Q sid)) (hf : ∀ s ∈ S.sessions, s.Fresh)
    (hno : ∀ t err, S.sh.st.orc t ≠ .err err) (a b c : List (Nat × Ext)) (s1 : Nat) (W : Job) (ok : Msg)
    (hx : Exec v S (a ++ (s1, .recv W) :: (b ++ (s1, .sent W.id ok) :: c)) T)
    (hrb : ∀ p q, a ++ (s1, .recv W) :: (b ++ (s1, .sent W.id ok) :: c) =
      p ++ q → ∀ sid (j : Job) m, (sid, .sent j.id m) ∈ p → (sid, .recv j) ∉ q)
    (i : Nat) (hok : ok.bytes = (Reply.simple 0 W.req.cookie []).encode)
    (hothers : ∀ sid j, (sid, .recv j) ∈ a ++ b ++ c → Touches (asked j) i → ∃ m, (sid, .sent j.id m) ∈ a)
    (x : FileId × Nat) (hcar : Careful v J (fun j => Touches (asked j) i) x NoErr)
    (hpend : ∀ en, ((v s1).code en W.req W.payload).Pend NoErr x (Reply.simple 0 W.req.cookie []).encode) :
    Settled T.sh.st x := by
  have hs := Exec.settled (x := x) (I := NoErr) (s1 := s1) (D := W) (ok := (Reply.simple 0 W.req.cookie []).encode)
    (pre := a) hv hcar hf hno hpend (fun sid j hj ht => hothers sid j (by simp [hj]) ht) hx
  have hnt : ∀ sid j, (sid, .recv j) ∈ b ++ (s1, .sent W.id ok) :: c → ¬ Touches (asked j) i := by
    intro sid j hj ht
    obtain ⟨m, hm⟩ := hothers sid j (by
      simp only [List.mem_append, List.mem_cons] at hj ⊢
      rcases hj with h | h | h
      · exact .inl (.inr h)
      · cases h
      · exact .inr h) ht
    exact hrb (a ++ [(s1, .recv W)]) (b ++ (s1, .sent W.id ok) :: c) (by simp) sid j m (List.mem_append_left _ hm) hj
  rcases hs.2 (b ++ (s1, .sent W.id ok) :: c) rfl hnt with hw | hw
  · exact absurd hok (hw.1 ok (by simp))
  · exact hw.1

/-- The other requests of the hypothesis of C72, from those of C73. -/
theorem others_final {a b b' c d : List (Nat × Ext)} {s2 : Nat} {F : Job} {ok' : Msg} {i : Nat} (hF : (asked F).code = 3)
    (hothers : ∀ sid j, (sid, .recv j) ∈ a ++ b ++ b' ++ c ++ d → Touches (asked j) i → ∃ m, (sid, .sent j.id m) ∈ a) :
    ∀ sid j, (sid, .recv j) ∈ a ++ b ++ (b' ++ (s2, .recv F) :: (c ++ (s2, .sent F.id ok') :: d)) → Touches (asked j) i →
      ∃ m, (sid, .sent j.id m) ∈ a := by
  have hFt : ¬ Touches (asked F) i := by
    rintro ⟨h, _⟩
    rw [hF] at h
    simp at h
  intro sid j hj ht
  refine hothers sid j ?_ ht
  simp only [List.mem_append, List.mem_cons] at hj ⊢
  rcases hj with (h | h) | h | h | h | h | h
  · exact .inl (.inl (.inl (.inl h)))
  · exact .inl (.inl (.inl (.inr h)))
  · exact .inl (.inl (.inr h))
  · cases h
    exact absurd ht hFt
  · exact .inl (.inr h)
  · cases h
  · exact .inr h

theorem asked_flush {F : Job} (hF : (asked F).code = 3) : F.req.type % 65536 = 3 := by
  simp only [asked, cmdOf] at hF
  split at hF
  · exact hF
  · omega

/-- Where the byte of a request that stores it is. -/
theorem stores_shape {W : Job} {i : Nat} {y : Byte} (hl : (asked W).code = 1 → (asked W).data.length = (asked W).len)
    (hW : Stores (asked W) i y) :
    (W.req.type % 65536 = 1 ∨ (W.req.type % 65536 = 6 ∧ i < W.req.start + 64 * 1024 * 1024)) ∧
      W.req.start ≤ i ∧ i < W.req.start + W.req.len := by
  rcases hW with ⟨h1, h2, h3⟩ | ⟨h1, h2, h3, h4, h5⟩
  · have hl := hl h1
    have hlt := (List.getElem?_eq_some_iff.mp h3).1
    simp only [asked, cmdOf] at h1 h2 hl hlt
    split at h1
    · exact ⟨.inl h1, h2, by omega⟩
    · omega
  · simp only [asked, cmdOf] at h1 h2 h3 h4
    split at h1
    · exact ⟨.inr ⟨h1, h2⟩, h3, h4⟩
    · omega

end

/-- **C73.** When the success of a write was sent, and after that a flush was received, on the same connection or another, and the
success of the flush was sent, then every byte of the write survives a crash from then on, provided no other request that may change
this byte is in flight: every other one received so far had been answered before the write was received. Nothing is assumed about
the kernel: calls may fail and transfer any number of bytes. -/
theorem C73_flush_partial (e : Endian) (ex : Export) (cls : Nat → Client) (lgs : Nat → Bool) (hcl : OneExport ex cls)
    (S T : System World) (hf : ∀ s ∈ S.sessions, s.Fresh) (a b b' c d : List (Nat × Ext)) (s1 s2 : Nat) (W F : Job) (ok ok' : Msg)
    (hx : Exec (fun sid => plainServer e (cls sid) (lgs sid)) S
      (a ++ (s1, .recv W) :: (b ++ (s1, .sent W.id ok) :: (b' ++ (s2, .recv F) :: (c ++ (s2, .sent F.id ok') :: d)))) T)
    (i : Nat) (y : Byte) (hW : Stores (asked W) i y) (hok : ok.bytes = (Reply.simple 0 (asked W).cookie []).encode)
    (hF : (asked F).code = 3) (hok' : ok'.bytes = (Reply.simple 0 (asked F).cookie []).encode)
    (hothers : ∀ sid j, (sid, .recv j) ∈ a ++ b ++ b' ++ c ++ d → Touches (asked j) i → ∃ m, (sid, .sent j.id m) ∈ a) :
    Survives ex T.sh.st i y := by
  refine survives_settled (C72_final_contents_partial e ex cls lgs hcl S T hf a b _ s1 W ok hx i y hW hok
    (others_final hF hothers)) ?_
  intro x hi hhome
  obtain ⟨h, h1, h2, _⟩ := linear_history e ex cls lgs hcl S T _ hf hx
  refine flush_settles (plain_meets e ex cls lgs hcl) hf a b b' c d s1 s2 W F ok ok' hx
    (fun p q htr sid j m => received_before ⟨h, h1, h2⟩ p q htr sid j m) i hok' hothers x
    (plain_careful e ex cls lgs hcl i hi x hhome (fun _ => True) (fun _ _ _ _ h => h)) (fun en => ?_)
  exact requestP_pend_flush e (cls s2) (hcl.flat s2).tree (hcl.flat s2).wait (lgs s2) en F.payload i
    (by rw [hcl.same]; exact hhome) (asked_flush hF) (fun _ _ h => h)

/-- **C73.** When the success of a write with FUA (or of any write on a `sync` export) was sent and no system call fails, every byte
of the write survives a crash from then on, provided no other request that may change this byte is in flight: every other one
received so far had been answered before the write was received. -/
theorem C73_fua_partial (e : Endian) (ex : Export) (cls : Nat → Client) (lgs : Nat → Bool) (hcl : OneExport ex cls)
    (S T : System World) (hf : ∀ s ∈ S.sessions, s.Fresh) (hno : ∀ t err, S.sh.st.orc t ≠ .err err)
    (a b c : List (Nat × Ext)) (s1 : Nat) (W : Job) (ok : Msg)
    (hx : Exec (fun sid => plainServer e (cls sid) (lgs sid)) S (a ++ (s1, .recv W) :: (b ++ (s1, .sent W.id ok) :: c)) T)
    (i : Nat) (y : Byte) (hW : Stores (asked W) i y) (hok : ok.bytes = (Reply.simple 0 (asked W).cookie []).encode)
    (hsync : W.req.type.testBit 16 = true ∨ has ex.flags F_SYNC = true)
    (hothers : ∀ sid j, (sid, .recv j) ∈ a ++ b ++ c → Touches (asked j) i → ∃ m, (sid, .sent j.id m) ∈ a) :
    Survives ex T.sh.st i y := by
  refine survives_settled (C72_final_contents_partial e ex cls lgs hcl S T hf a b c s1 W ok hx i y hW hok hothers) ?_
  intro x hi hhome
  have hwf : W.Wf := Exec.recv_wf (J := fun _ => Job.Wf) (plain_meets e ex cls lgs hcl) hf hx s1 W (by simp)
  have hshape := stores_shape (asked_data hwf) hW
  obtain ⟨h, h1, h2, _⟩ := linear_history e ex cls lgs hcl S T _ hf hx
  refine fua_settles (plain_meets e ex cls lgs hcl) hf hno a b c s1 W ok hx
    (fun p q htr sid j m => received_before ⟨h, h1, h2⟩ p q htr sid j m) i hok hothers x
    (plain_careful e ex cls lgs hcl i hi x hhome NoErr (fun _ _ _ hk h => by unfold NoErr; rw [hk.orc]; exact h)) (fun en => ?_)
  exact requestP_pend_fua e (cls s1) (hcl.flat s1).plain (hcl.flat s1).tree (lgs s1) en W hwf i
    (by rw [hcl.same]; exact hhome) hshape.1 (by rw [hcl.same, has_fua]; exact hsync) hshape.2.1 hshape.2.2 (fun _ _ h => h) (fun _ h => h)

/-! ### Examples -/

deriving instance DecidableEq for Job
deriving instance DecidableEq for Msg
deriving instance DecidableEq for Ext

/-- The first connection writes twice, the second asks for a flush. -/
def keptSys (first : Nat) : System World :=
  ⟨⟨Demo.world, none, []⟩,
   [Session.fresh ((⟨⟨0x25609513, first, Demo.cookie, 0, 4⟩, [20, 21, 22, 23]⟩ : Sent).encode ++ (Demo.write 8 [30, 31]).encode) [0, 0] 0,
    Session.fresh (Demo.request 3 0 0).encode [0, 0] 0]⟩

/-- The first write is done; the flush begins, and between its two `fsync` calls a thread starts the second write. -/
def keptTurns : List (Nat × Move) :=
  [(0, .main)] ++ List.replicate 8 (0, .work 0 99) ++
  [(0, .main), (1, .main), (1, .work 0 99), (1, .work 0 99), (0, .work 1 99), (0, .work 1 99)] ++ List.replicate 12 (1, .work 0 99)

/-- A success. -/
def keptOk : Msg := ⟨[103, 68, 102, 152, 0, 0, 0, 0, 1, 2, 3, 4, 5, 6, 7, 8], []⟩

/-- The first write, as received. -/
def keptW (type : Nat) : Job := ⟨0, ⟨328556581, type, Demo.cookie, 0, 4⟩, .data [20, 21, 22, 23]⟩

/-- The second. -/
def keptW2 : Job := ⟨1, ⟨328556581, 1, Demo.cookie, 8, 2⟩, .data [30, 31]⟩

/-- The flush. -/
def keptF : Job := ⟨0, ⟨328556581, 3, Demo.cookie, 0, 0⟩, .nothing⟩

theorem kept_exec (S : System World) (turns : List (Nat × Move)) (tr : List (Nat × Ext))
    (h : (System.play (fun sid => plainServer .little (linCls sid) false) turns [] S).map Prod.fst = some tr) :
    ∃ T, Exec (fun sid => plainServer .little (linCls sid) false) S tr T ∧
      System.play (fun sid => plainServer .little (linCls sid) false) turns [] S = some (tr, T) := by
  cases hp : System.play (fun sid => plainServer .little (linCls sid) false) turns [] S with
  | none => rw [hp] at h; cases h
  | some q =>
    obtain ⟨tr', T⟩ := q
    rw [hp] at h
    cases h
    exact ⟨T, System.play_start _ S turns _ hp, rfl⟩

theorem keptSys_fresh (first : Nat) : ∀ s ∈ (keptSys first).sessions, s.Fresh := by
  intro s hs
  simp only [keptSys, List.mem_cons, List.not_mem_nil, or_false] at hs
  rcases hs with rfl | rfl
  · exact ⟨_, _, _, rfl⟩
  · exact ⟨_, _, _, rfl⟩

/-- The bytes of the first write are safe, while the second is being worked on. -/
example : ∃ T, Exec (fun sid => plainServer .little (linCls sid) false) (keptSys 1)
    [(0, .recv (keptW 1)), (0, .sent 0 keptOk), (0, .recv keptW2), (1, .recv keptF), (1, .sent 0 keptOk)] T ∧
    Survives Demo.ex T.sh.st 1 21 := by
  obtain ⟨T, hT, -⟩ := kept_exec (keptSys 1) keptTurns
    [(0, .recv (keptW 1)), (0, .sent 0 keptOk), (0, .recv keptW2), (1, .recv keptF), (1, .sent 0 keptOk)] (by decide +kernel)
  refine ⟨T, hT, ?_⟩
  refine C73_flush_partial .little Demo.ex linCls (fun _ => false) linCls_one (keptSys 1) T (keptSys_fresh 1) [] []
    [(0, .recv keptW2)] [] [] 0 1 (keptW 1) keptF keptOk keptOk hT 1 21 (.inl ⟨rfl, by decide, rfl⟩) (by decide +kernel) rfl
    (by decide +kernel) ?_
  intro sid j hj ht
  simp only [List.append_nil, List.nil_append, List.mem_singleton, Prod.mk.injEq, Ext.recv.injEq] at hj
  obtain ⟨-, rfl⟩ := hj
  obtain ⟨-, h, -⟩ := ht
  exact absurd h (by decide)

/-- The same with FUA in place of the flush. -/
example : ∃ T, Exec (fun sid => plainServer .little (linCls sid) false) (keptSys 65537)
    [(0, .recv (keptW 65537)), (0, .recv keptW2), (0, .sent 0 keptOk)] T ∧ Survives Demo.ex T.sh.st 1 21 := by
  obtain ⟨T, hT, -⟩ := kept_exec (keptSys 65537)
    ([(0, .main), (0, .work 0 99), (0, .work 0 99), (0, .main), (0, .work 1 99), (0, .work 1 99)] ++ List.replicate 8 (0, .work 0 99))
    [(0, .recv (keptW 65537)), (0, .recv keptW2), (0, .sent 0 keptOk)] (by decide +kernel)
  refine ⟨T, hT, ?_⟩
  refine C73_fua_partial .little Demo.ex linCls (fun _ => false) linCls_one (keptSys 65537) T (keptSys_fresh _)
    (by intro t err h; cases h) [] [(0, .recv keptW2)] [] 0 (keptW 65537) keptOk hT 1 21 (.inl ⟨rfl, by decide, rfl⟩)
    (by decide +kernel) (.inl (by decide)) ?_
  intro sid j hj ht
  simp only [List.append_nil, List.nil_append, List.mem_singleton, Prod.mk.injEq, Ext.recv.injEq] at hj
  obtain ⟨-, rfl⟩ := hj
  obtain ⟨-, h, -⟩ := ht
  exact absurd h (by decide)

/-- A flush that was received before the write was acknowledged promises nothing, even if it is acknowledged after the write: the
order in the hypotheses of `C73_flush_partial` matters. -/
example : ∃ T, Exec (fun sid => plainServer .little (linCls sid) false) (keptSys 1)
    [(0, .recv (keptW 1)), (1, .recv keptF), (0, .sent 0 keptOk), (1, .sent 0 keptOk)] T ∧
    ¬ Survives Demo.ex T.sh.st 1 21 := by
  have hp : (System.play (fun sid => plainServer .little (linCls sid) false)
      ([(0, .main), (1, .main), (1, .work 0 99), (1, .work 0 99), (1, .work 0 99)] ++ List.replicate 8 (0, .work 0 99) ++
        [(1, .work 0 99), (1, .work 0 99)]) [] (keptSys 1)).all
      (fun q => (q.2.sh.st.files (.fd 3)).any (fun f => decide (2 ∈ f.hist 1))) = true := by decide +kernel
  obtain ⟨T, hT, hq⟩ := kept_exec (keptSys 1)
    ([(0, .main), (1, .main), (1, .work 0 99), (1, .work 0 99), (1, .work 0 99)] ++ List.replicate 8 (0, .work 0 99) ++
      [(1, .work 0 99), (1, .work 0 99)])
    [(0, .recv (keptW 1)), (1, .recv keptF), (0, .sent 0 keptOk), (1, .sent 0 keptOk)] (by decide +kernel)
  refine ⟨T, hT, ?_⟩
  rw [hq] at hp
  simp only [Option.all_some] at hp
  refine not_survives (x := (.fd 3, 1)) (c := 2) (by decide) (by decide +kernel) ?_ (by decide)
  refine ⟨_, List.mem_cons_self, ?_⟩
  revert hp
  cases T.sh.st.files (.fd 3) with
  | none => intro h; cases h
  | some f => exact fun h => .inr (by simpa using h)

end Props
end Nbd
