import Verif.DurableLemmas
import Verif.Props.Session
/-!
# What survives a crash: C20, C21

`Spec.Crash w w'` says which states the storage may be in after a crash in state `w`; `Spec.Survives ex w i b` says that byte `i` of
the export is `b` after every such crash. A crash in the middle of a request is covered because the theorems quantify over all
kernels: calls that fail change nothing on the storage, so the state in which the crash happens is also the state at the end of the
run in which every later call fails.
-/

set_option autoImplicit false

namespace Nbd.Spec

/-- The request was answered with success. -/
def Acked (d : Done) : Prop := (d.msgs.map Msg.bytes).flatten = wire [.simple 0 d.req.cookie []]

/-- The byte that an accepted write or write-zeroes request puts at its `k`th position. -/
def putByte (d : Done) (k : Nat) : Byte := if d.req.type % 65536 = 1 then d.payload.bytes.getD k 0 else 0

/-- A write, or a write-zeroes request of at most 64 MiB. -/
def IsWrite (r : Req) : Prop := r.type % 65536 = 1 ∨ (r.type % 65536 = 6 ∧ r.len ≤ 64 * 1024 * 1024)

end Nbd.Spec

namespace Nbd.Props

open Nbd.Spec

theorem ok_of_acked (e : Endian) (r : Req) (w : World) (ok : Bool)
    (h : ([simpleMsg e r (resultOf e w ok)].map Msg.bytes).flatten = wire [.simple 0 r.cookie []]) : ok = true := by
  cases ok with
  | true => rfl
  | false =>
    exfalso
    have henc := simpleMsg_encodes e r (some (errnoWire w.errno))
    rw [resultOf_eq] at h
    have hw := henc.wire
    simp only [Bool.false_eq_true, if_false] at h
    rw [h] at hw
    have hm := errnoWire_toNat_mem w.errno
    simp only [Option.getD_some] at hw
    have := simple_encode_inj (a := 0) (b := (errnoWire w.errno).toNat) (c := r.cookie) (d := r.cookie) (by decide)
      (UInt32.toNat_lt _) (by simpa [wire] using hw)
    rw [← this] at hm
    simp [Spec.errnos] at hm

theorem refused_not_acked (e : Endian) (r : Req) (n : Nat)
    (h : ([simpleMsg e r (some (nbdErrno e n))].map Msg.bytes).flatten = wire [.simple 0 r.cookie []]) : False := by
  have := ok_of_acked e r ⟨fun _ => none, fun _ => .done 0, 0, n, fun _ => []⟩ false (by simpa [resultOf] using h)
  cases this

theorem getElem_of_stored {ex : Export} (hg : GoodExport ex) {w w' : World} {a : Nat} {bs : List Byte}
    (hr : a + bs.length ≤ ex.exportsize) (h : Stored ex w w' a bs) (k : Nat) (hk : k < bs.length) :
    ∃ x, home ex (a + k) = some x ∧ view ex w' (a + k) = bs[k] := by
  obtain ⟨x, hx, hc⟩ := h.inside k hk
  refine ⟨x, hx, ?_⟩
  unfold view
  rw [if_pos (by omega), hx]
  exact hc

/-! ### C20 -/

/-- **C20** for one request (partial: a failing `fsync` is not noticed, see `C20_false`; in tree exports the block files must already
be there with permanent names, see `C20_tree_false`; write-zeroes above 64 MiB is wrong anyway, see C09; no copy-on-write or waiting
export). When a write or write-zeroes carrying FUA, or any write on a sync export, is acknowledged, then a system call failed during the
request, or every byte it wrote survives a crash. -/
theorem C20_fua_partial (e : Endian) (cl cl' : Client) (hp : Plain cl) (w w' : World) (d : Done) (hlen : d.req.len < 2 ^ 32)
    (hpl : d.payload.fits d.req) (hcmd : IsWrite d.req)
    (hsync : d.req.type.testBit 16 = true ∨ has cl.ex.flags F_SYNC = true)
    (hdir : ∀ k x, k < d.req.len → home cl.ex (d.req.start + k) = some x → Linked w x.1)
    (h : handleRequest e cl w d.req d.payload = .val (cl', w', d.msgs)) (hack : Acked d) :
    CallFailed w w' ∨ ∀ k, k < d.req.len → Survives cl.ex w' (d.req.start + k) (putByte d k) := by
  obtain ⟨r, p, msgs⟩ := d
  simp only [Acked] at *
  have hs : (has cl.ex.flags F_SYNC || has r.type CMD_FLAG_FUA) = true := by
    rw [has_fua]
    rcases hsync with h | h <;> simp [h]
  cases handleRequest_handled _ _ _ _ _ _ _ _ h with
  | refused n hn why => exact (refused_not_acked e r n hack).elim
  | read hf ht => rcases hcmd with h1 | ⟨h1, _⟩ <;> omega
  | flush hf ht => rcases hcmd with h1 | ⟨h1, _⟩ <;> omega
  | trim hf ht => rcases hcmd with h1 | ⟨h1, _⟩ <;> omega
  | write hf ht hw hr _ _ _ hq =>
    have hrange := inRange hp.good hlen hr
    obtain ⟨ok, rfl, hc⟩ := handleWrite_cases _ _ _ _ _ _ _ _ hq
    obtain rfl := ok_of_acked e r w' ok hack
    have key : ∀ bs : List Byte, p.bytes = bs → bs.length = r.len → Stored cl.ex w w' r.start bs →
        (CallFailed w w' ∨ ∀ k x, k < r.len → home cl.ex (r.start + k) = some x → Settled w' x) →
        CallFailed w w' ∨ ∀ k, k < r.len → Survives cl.ex w' (r.start + k) (putByte ⟨r, p, [simpleMsg e r (resultOf e w' true)]⟩ k) := by
      intro bs hb hl hst hx
      rcases hx with hx | hx
      · exact .inl hx
      · right
        intro k hk
        obtain ⟨x, hxh, hv⟩ := getElem_of_stored hp.good (by omega) hst k (by omega)
        have := (hx k x hk hxh).survives (by omega) hxh
        rw [hv] at this
        have hpb : putByte ⟨r, p, [simpleMsg e r (resultOf e w' true)]⟩ k = bs[k] := by
          unfold putByte
          simp only [ht, if_true, hb]
          rw [List.getD_eq_getElem?_getD, List.getElem?_eq_getElem (by omega)]
          rfl
        rw [hpb]
        exact this
    rcases hc with ⟨bs, rfl, hq2⟩ | ⟨bs, rfl, _, hq2⟩
    · have hl : bs.length = r.len := hpl
      obtain ⟨_, n, hn, hst, hok⟩ := (expwrite_plain cl hp w r.start bs _ (by omega) (notReadonly hw)).2 _ _ _ hq2
      have hst' : Stored cl.ex w w' r.start bs := by rwa [hok rfl, List.take_length] at hst
      refine key bs rfl hl hst' ?_
      have := expwrite_settled cl hp w r.start bs _ (by omega) (notReadonly hw) hs (by rw [hl]; exact hdir) _ _ hq2
      rwa [hl] at this
    · have hl : bs.length = r.len := hpl
      obtain ⟨n, hn, hst, hok⟩ := (expspliceOut_spec cl.ex hp.good w r.start r.len bs _ hl hrange (notReadonly hw)).2 _ _ hq2
      have hst' : Stored cl.ex w w' r.start bs := by rwa [hok rfl, ← hl, List.take_length] at hst
      exact key bs rfl hl hst' (expspliceOut_settled cl.ex hp.good w r.start r.len bs _ hl hrange (notReadonly hw) hs hdir _ hq2)
  | zeroes hf ht hw hr _ _ _ hq =>
    have hrange := inRange hp.good hlen hr
    have hzl : r.len ≤ ZEROCHUNK := by
      rcases hcmd with h1 | ⟨_, h1⟩
      · omega
      · exact h1
    unfold handleWriteZeroes at hq
    split at hq
    · cases hq
    · cases hq
    · rename_i cl1 w1 ok hq1
      cases hq
      obtain rfl := ok_of_acked e r w' ok hack
      obtain ⟨_, n, hn, hst, hok⟩ := (expwriteZeroes_plain cl hp w r.start r.len _ hrange (notReadonly hw)).2 _ _ _ hq1
      rw [hok rfl, Nat.min_eq_left hzl] at hst
      have hl : (Flat.zeros r.len).length = r.len := Flat.zeros_length _
      rcases expwriteZeroes_settled cl hp w r.start r.len _ hrange (notReadonly hw) hzl hs hdir _ _ hq1 with hx | hx
      · exact .inl hx
      · right
        intro k hk
        obtain ⟨x, hxh, hv⟩ := getElem_of_stored hp.good (by omega) hst k (by omega)
        have := (hx k x hk hxh).survives (by omega) hxh
        rw [hv] at this
        have hz : (Flat.zeros r.len)[k]'(by omega) = 0 := by simp [Flat.zeros]
        rw [hz] at this
        have hpb : putByte ⟨r, p, [simpleMsg e r (resultOf e w' true)]⟩ k = 0 := by
          unfold putByte
          simp [ht]
        rw [hpb]
        exact this

/-! ### C21 -/

/-- **C21** for one request (partial: not on an export with `waitfile`, see `C21_false`; copy-on-write changes are thrown away at
disconnect anyway; a read-only tree export is not synced). When a flush is acknowledged, every byte of the export survives a crash with the
value it had when the flush was handled. If some file cannot be synced the flush is therefore answered with an error. -/
theorem C21_flush_partial (e : Endian) (cl cl' : Client) (hp : Plain cl) (w w' : World) (d : Done)
    (hcmd : d.req.type % 65536 = 3) (hwait : has cl.ex.flags F_WAIT = false)
    (htree : has cl.ex.flags F_TREEFILES = true → has cl.ex.flags F_READONLY = false)
    (h : handleRequest e cl w d.req d.payload = .val (cl', w', d.msgs)) (hack : Acked d) :
    ∀ i, Survives cl.ex w' i (view cl.ex w i) := by
  obtain ⟨r, p, msgs⟩ := d
  simp only [Acked] at *
  intro i
  cases handleRequest_handled _ _ _ _ _ _ _ _ h with
  | refused n hn why => exact (refused_not_acked e r n hack).elim
  | read hf ht => omega
  | write hf ht => omega
  | trim hf ht => omega
  | zeroes hf ht => omega
  | flush hf ht =>
    unfold handleFlush at hack ⊢
    simp only [] at hack ⊢
    have hok := ok_of_acked e r _ _ hack
    have hsame : SameContent w (expflush cl w).1 := expflush_same cl w
    by_cases hi : i < cl.ex.exportsize
    · cases hx : home cl.ex i with
      | none =>
        intro w1 _
        unfold view
        rw [if_pos hi, if_pos hi, hx]
      | some x =>
        have hset := expflush_settled cl hp w (expflush cl w).1 hwait htree (Prod.ext rfl hok) i x hx
        have := hset.survives hi hx
        rwa [hsame.view] at this
    · intro w1 _
      unfold view
      rw [if_neg hi, if_neg hi]

/-! ### Later requests -/

/-- **C20/C21, later requests.** What survives a crash now still does after any further traffic on the connection, as long as no
request of it writes, zeroes or trims that byte. -/
theorem C20_later (e : Endian) (i : Nat) (b : Byte) (stream : List Byte) : ∀ (cl : Client) (w : World), Plain cl →
    Survives cl.ex w i b →
    ((mainloop e cl w stream).ending = .gone ∨ (mainloop e cl w stream).ending = .disconnected) →
    (∀ d ∈ (mainloop e cl w stream).handled, ¬ Changes d.req i) →
    Survives cl.ex (mainloop e cl w stream).w i b := by
  intro cl w
  fun_induction mainloop e cl w stream with
  | case1 => intro _ _ h; rcases h with h | h <;> cases h
  | case2 => intro _ _ h; rcases h with h | h <;> cases h
  | case3 cl w stream w1 hf =>
    intro hp hs _ _
    exact survives_kept hs (fetch_keeps (fun _ => False) _ _ _ _ _ _ hf) (by simp)
  | case4 cl w stream w1 rest hf =>
    intro hp hs _ _
    exact survives_kept hs (fetch_keeps (fun _ => False) _ _ _ _ _ _ hf) (by simp)
  | case5 => intro _ _ h; rcases h with h | h <;> cases h
  | case6 => intro _ _ h; rcases h with h | h <;> cases h
  | case7 cl w stream w1 r p rest hf cl' w' msgs hq ih =>
    intro hp hs hend hno
    obtain ⟨hl, hfits⟩ := fetch_push_fits _ _ _ _ _ _ _ _ hf
    obtain ⟨rfl, hk⟩ := handleRequest_keeps e cl cl' hp w1 w' r p msgs hl hfits hq
    have hs1 := survives_kept hs (fetch_keeps (fun _ => False) _ _ _ _ _ _ hf) (by simp)
    have hs2 := survives_kept hs1 hk (by
      intro hi x hx hc
      exact hno ⟨r, p, msgs⟩ (by simp [Run.cons]) (hc i hi hx))
    exact ih hp hs2 hend (fun d hd => hno d (by simp [Run.cons, hd]))

/-- The value of a byte after a session none of whose requests names it. -/
theorem session_view (e : Endian) (i : Nat) (stream : List Byte) : ∀ (cl : Client) (w : World), Plain cl →
    ∀ pre d post, (mainloop e cl w stream).handled = pre ++ d :: post → (∀ x ∈ pre, ¬ Changes x.req i) →
    ∃ w1 w2 rest, SplitAt e cl w (mainloop e cl w stream) d post w1 w2 rest ∧ view cl.ex w1 i = view cl.ex w i := by
  intro cl w
  fun_induction mainloop e cl w stream with
  | case1 => intro _ pre d post h; simp at h
  | case2 => intro _ pre d post h; simp at h
  | case3 => intro _ pre d post h; simp at h
  | case4 => intro _ pre d post h; simp at h
  | case5 => intro _ pre d post h; simp at h
  | case6 => intro _ pre d post h; simp at h
  | case7 cl w stream w1 r p rest hf cl' w' msgs hq ih =>
    intro hp pre d post h hno
    have hk0 := fetch_keeps (fun _ => False) _ _ _ _ _ _ hf
    have hs0 : view cl.ex w1 i = view cl.ex w i := by
      have hs : SameContent w w1 := by
        unfold fetch at hf
        split at hf
        · cases hf
        · simp only [] at hf
          split at hf
          · cases hf
          · split at hf
            · have hk : SameContent w (if has cl.ex.flags F_SPLICE then mkpipe w (loadReq e (stream.take 28)).len else (w, false)).1 := by
                split
                · exact mkpipe_same w _
                · exact SameContent.refl _
              generalize (if has cl.ex.flags F_SPLICE = true then _ else _ : World × Bool) = mp at hf hk
              split at hf
              · cases hf
              · split at hf <;> cases hf
                exact hk
            · split at hf <;> cases hf
              exact SameContent.refl _
      rw [hs.view]
    obtain ⟨hl, hfit⟩ := fetch_push_fits _ _ _ _ _ _ _ _ hf
    obtain ⟨rfl, hk⟩ := handleRequest_keeps e cl cl' hp w1 w' r p msgs hl hfit hq
    simp only [Run.cons] at h
    cases pre with
    | nil =>
      simp only [List.nil_append, List.cons.injEq] at h
      obtain ⟨rfl, hpost⟩ := h
      exact ⟨w1, w', rest, ⟨hq, hl, hfit, hk0.orc, hk0.tick, hpost, rfl, rfl⟩, hs0⟩
    | cons d0 pre =>
      simp only [List.cons_append, List.cons.injEq] at h
      obtain ⟨a, b, c, hs, hv⟩ := ih hp pre d post h.2 (fun x hx => hno x (by simp [hx]))
      have hd0 : d0.req = r := by rw [← h.1]
      have hv1 := handleRequest_viewkept e cl' cl' hp w1 w' r p msgs hl hfit hq i (by
        have := hno d0 (by simp)
        rwa [hd0] at this)
      exact ⟨a, b, c, ⟨hs.handle, hs.len, hs.fits, hs.orc.trans (hk.orc.trans hk0.orc),
        Nat.le_trans hk0.tick (Nat.le_trans hk.tick hs.tick), hs.post, hs.final, hs.ending⟩, hv.trans (hv1.trans hs0)⟩

/-- **C20** for whole sessions (partial as above; exports of plain files): in a session in which no system call fails, a byte written
by an acknowledged write carrying FUA (or on a sync export) survives a crash at the end of the session, whatever else was
requested before and after, unless a later request writes, zeroes or trims it. -/
theorem C20_session_partial (e : Endian) (cl : Client) (hp : Plain cl) (hfiles : has cl.ex.flags F_TREEFILES = false) (w : World)
    (stream : List Byte) (pre post : List Done) (d : Done)
    (hrun : (mainloop e cl w stream).handled = pre ++ d :: post)
    (hend : (mainloop e cl w stream).ending = .gone ∨ (mainloop e cl w stream).ending = .disconnected)
    (hcalls : ¬ CallFailed w (mainloop e cl w stream).w) (hcmd : IsWrite d.req)
    (hsync : d.req.type.testBit 16 = true ∨ has cl.ex.flags F_SYNC = true) (hack : Acked d) (k : Nat) (hk : k < d.req.len)
    (hlater : ∀ x ∈ post, ¬ Changes x.req (d.req.start + k)) :
    Survives cl.ex (mainloop e cl w stream).w (d.req.start + k) (putByte d k) := by
  obtain ⟨w1, w2, rest, hs⟩ := mainloop_splitAt e stream cl w hp pre d post hrun
  have hlink : ∀ k x, k < d.req.len → home cl.ex (d.req.start + k) = some x → Linked w1 x.1 := by
    intro k x _ hx
    unfold home at hx
    rw [hfiles] at hx
    simp only [Bool.false_eq_true, if_false, Option.map_eq_some_iff, Prod.exists] at hx
    obtain ⟨fi, nx, hloc, rfl⟩ := hx
    trivial
  have hclock := mainloop_clock e rest cl w2 hp
  rw [hs.final] at hclock
  rcases C20_fua_partial e cl cl hp w1 w2 d hs.len hs.fits hcmd hsync hlink hs.handle hack with hc | hc
  · exact absurd (CallFailed.mono hc hs.orc.symm hs.tick hclock.2) hcalls
  · have := C20_later e (d.req.start + k) (putByte d k) rest cl w2 hp (hc k hk) (by rw [hs.ending]; exact hend)
      (by rw [hs.post]; exact hlater)
    rwa [hs.final] at this

/-- The acknowledged write is in the export right after it was handled. -/
theorem acked_view (e : Endian) (cl cl' : Client) (hp : Plain cl) (w w' : World) (d : Done) (hlen : d.req.len < 2 ^ 32)
    (hpl : d.payload.fits d.req) (hcmd : IsWrite d.req)
    (h : handleRequest e cl w d.req d.payload = .val (cl', w', d.msgs)) (hack : Acked d) (k : Nat) (hk : k < d.req.len) :
    view cl.ex w' (d.req.start + k) = putByte d k := by
  obtain ⟨r, p, msgs⟩ := d
  simp only [Acked] at *
  cases handleRequest_handled _ _ _ _ _ _ _ _ h with
  | refused n hn why => exact (refused_not_acked e r n hack).elim
  | read hf ht => rcases hcmd with h1 | ⟨h1, _⟩ <;> omega
  | flush hf ht => rcases hcmd with h1 | ⟨h1, _⟩ <;> omega
  | trim hf ht => rcases hcmd with h1 | ⟨h1, _⟩ <;> omega
  | write hf ht hw hr _ _ _ hq =>
    have hrange := inRange hp.good hlen hr
    obtain ⟨ok, rfl, hc⟩ := handleWrite_cases _ _ _ _ _ _ _ _ hq
    obtain rfl := ok_of_acked e r w' ok hack
    have key : ∀ bs : List Byte, p.bytes = bs → bs.length = r.len → Stored cl.ex w w' r.start bs →
        view cl.ex w' (r.start + k) = putByte ⟨r, p, [simpleMsg e r (resultOf e w' true)]⟩ k := by
      intro bs hb hl hst
      obtain ⟨x, hxh, hv⟩ := getElem_of_stored hp.good (by omega) hst k (by omega)
      rw [hv]
      unfold putByte
      simp only [ht, if_true, hb]
      rw [List.getD_eq_getElem?_getD, List.getElem?_eq_getElem (by omega)]
      rfl
    rcases hc with ⟨bs, rfl, hq2⟩ | ⟨bs, rfl, _, hq2⟩
    · have hl : bs.length = r.len := hpl
      obtain ⟨_, n, hn, hst, hok⟩ := (expwrite_plain cl hp w r.start bs _ (by omega) (notReadonly hw)).2 _ _ _ hq2
      exact key bs rfl hl (by rwa [hok rfl, List.take_length] at hst)
    · have hl : bs.length = r.len := hpl
      obtain ⟨n, hn, hst, hok⟩ := (expspliceOut_spec cl.ex hp.good w r.start r.len bs _ hl hrange (notReadonly hw)).2 _ _ hq2
      exact key bs rfl hl (by rwa [hok rfl, ← hl, List.take_length] at hst)
  | zeroes hf ht hw hr _ _ _ hq =>
    have hrange := inRange hp.good hlen hr
    have hzl : r.len ≤ ZEROCHUNK := by
      rcases hcmd with h1 | ⟨_, h1⟩
      · omega
      · exact h1
    unfold handleWriteZeroes at hq
    split at hq
    · cases hq
    · cases hq
    · rename_i cl1 w1 ok hq1
      cases hq
      obtain rfl := ok_of_acked e r w' ok hack
      obtain ⟨_, n, hn, hst, hok⟩ := (expwriteZeroes_plain cl hp w r.start r.len _ hrange (notReadonly hw)).2 _ _ _ hq1
      rw [hok rfl, Nat.min_eq_left hzl] at hst
      have hl : (Flat.zeros r.len).length = r.len := Flat.zeros_length _
      obtain ⟨x, hxh, hv⟩ := getElem_of_stored hp.good (by omega) hst k (by omega)
      rw [hv]
      unfold putByte
      simp [ht, Flat.zeros]

theorem acked_writable (e : Endian) (cl cl' : Client) (w w' : World) (d : Done) (hcmd : IsWrite d.req)
    (h : handleRequest e cl w d.req d.payload = .val (cl', w', d.msgs)) (hack : Acked d) : has cl.ex.flags F_READONLY = false := by
  obtain ⟨r, p, msgs⟩ := d
  simp only [Acked] at *
  cases handleRequest_handled _ _ _ _ _ _ _ _ h with
  | refused n hn why => exact (refused_not_acked e r n hack).elim
  | read hf ht => rcases hcmd with h1 | ⟨h1, _⟩ <;> omega
  | flush hf ht => rcases hcmd with h1 | ⟨h1, _⟩ <;> omega
  | trim hf ht => rcases hcmd with h1 | ⟨h1, _⟩ <;> omega
  | write hf ht hw => exact notReadonly hw
  | zeroes hf ht hw => exact notReadonly hw

/-- **C21** for whole sessions (partial as above): when a write is acknowledged and later a flush is acknowledged, every byte of the
write survives a crash at the end of the session, unless some other request after the write writes, zeroes or trims it. Nothing is
assumed about the kernel: calls may fail and transfer any number of bytes. -/
theorem C21_session_partial (e : Endian) (cl : Client) (hp : Plain cl) (hwait : has cl.ex.flags F_WAIT = false) (w : World)
    (stream : List Byte) (pre mid post : List Done) (d f : Done)
    (hrun : (mainloop e cl w stream).handled = pre ++ d :: (mid ++ f :: post))
    (hend : (mainloop e cl w stream).ending = .gone ∨ (mainloop e cl w stream).ending = .disconnected)
    (hcmd : IsWrite d.req) (hack : Acked d) (hflush : f.req.type % 65536 = 3) (hfack : Acked f) (k : Nat) (hk : k < d.req.len)
    (hlater : ∀ x ∈ mid ++ post, ¬ Changes x.req (d.req.start + k)) :
    Survives cl.ex (mainloop e cl w stream).w (d.req.start + k) (putByte d k) := by
  obtain ⟨w1, w2, rest, hs⟩ := mainloop_splitAt e stream cl w hp pre d _ hrun
  have hv := acked_view e cl cl hp w1 w2 d hs.len hs.fits hcmd hs.handle hack k hk
  obtain ⟨w3, w4, rest2, hs2, hv2⟩ := session_view e (d.req.start + k) rest cl w2 hp mid f post hs.post
    (fun x hx => hlater x (by simp [hx]))
  have hrw := acked_writable e cl cl w1 w2 d hcmd hs.handle hack
  have hsv := C21_flush_partial e cl cl hp w3 w4 f hflush hwait (fun _ => hrw) hs2.handle hfack (d.req.start + k)
  rw [hv2, hv] at hsv
  have := C20_later e (d.req.start + k) (putByte d k) rest2 cl w4 hp hsv (by rw [hs2.ending, hs.ending]; exact hend)
    (by rw [hs2.post]; exact fun x hx => hlater x (by simp [hx]))
  rwa [hs2.final, hs.final] at this

/-! ### Concrete sessions -/

/-- A write with FUA. -/
def demoFua (start : Nat) (data : List Byte) : Sent := ⟨⟨0x25609513, 65537, Demo.cookie, start, data.length⟩, data⟩

/-- The acknowledged write of the sessions below: four bytes at offset 3 of the export. -/
def demoDone (type : Nat) : Done :=
  ⟨⟨328556581, type, Demo.cookie, 3, 4⟩, .data [10, 11, 12, 13],
   [⟨[103, 68, 102, 152, 0, 0, 0, 0, 1, 2, 3, 4, 5, 6, 7, 8], []⟩]⟩

/-- The acknowledged flush. -/
def demoFlush : Done :=
  ⟨⟨328556581, 3, Demo.cookie, 0, 0⟩, .nothing, [⟨[103, 68, 102, 152, 0, 0, 0, 0, 1, 2, 3, 4, 5, 6, 7, 8], []⟩]⟩

/-- A FUA write across the boundary of two files with a kernel that writes a few bytes at a time, then a trim of other bytes. -/
example : Survives Demo.ex (mainloop .little (Demo.client false) Demo.world
    ((demoFua 3 [10, 11, 12, 13]).encode ++ (Demo.request 4 0 2).encode)).w 5 12 := by
  have hrun : (mainloop .little (Demo.client false) Demo.world
      ((demoFua 3 [10, 11, 12, 13]).encode ++ (Demo.request 4 0 2).encode)).handled =
      [] ++ demoDone 65537 :: [⟨⟨328556581, 4, Demo.cookie, 0, 2⟩, .nothing,
        [⟨[103, 68, 102, 152, 0, 0, 0, 0, 1, 2, 3, 4, 5, 6, 7, 8], []⟩]⟩] := by decide +kernel
  refine C20_session_partial .little (Demo.client false) (Demo.client_plain false) (by decide) Demo.world _ _ _ _ hrun
    (by decide +kernel) ?_ (.inl rfl) (.inl (by decide)) (by unfold Acked; decide +kernel) 2 (by decide) ?_
  · rintro ⟨t, e, _, _, h⟩
    cases h
  · simp [Changes, demoDone]

/-- A write without FUA, then a flush. -/
example : Survives Demo.ex (mainloop .little (Demo.client false) Demo.world
    ((Demo.write 3 [10, 11, 12, 13]).encode ++ (Demo.request 3 0 0).encode)).w 5 12 := by
  have hrun : (mainloop .little (Demo.client false) Demo.world
      ((Demo.write 3 [10, 11, 12, 13]).encode ++ (Demo.request 3 0 0).encode)).handled =
      [] ++ demoDone 1 :: ([] ++ demoFlush :: []) := by decide +kernel
  exact C21_session_partial .little (Demo.client false) (Demo.client_plain false) (by decide) Demo.world _ _ _ _ _ _ hrun
    (by decide +kernel) (.inl rfl) (by unfold Acked; decide +kernel) rfl (by unfold Acked; decide +kernel) 2 (by decide)
    (by simp)

theorem not_survives {ex : Export} {w : World} {i : Nat} {x : FileId × Nat} {b c : Byte} (hi : i < ex.exportsize)
    (hx : home ex i = some x) (hc : Poss w x c) (hne : c ≠ b) : ¬ Survives ex w i b := by
  intro h
  obtain ⟨w', hw', hv⟩ := hc.crash
  have := h w' hw'
  unfold view at this
  rw [if_pos hi, hx] at this
  simp only [] at this
  rw [hv] at this
  exact hne this

/-- Without the flush the same write can be lost: the hypotheses of C21 matter. -/
example : ¬ Survives Demo.ex (mainloop .little (Demo.client false) Demo.world (Demo.write 3 [10, 11, 12, 13]).encode).w 5 12 := by
  refine not_survives (x := (.fd 4, 0)) (c := 1) (by decide) (by decide +kernel) ?_ (by decide)
  have h : ((mainloop .little (Demo.client false) Demo.world (Demo.write 3 [10, 11, 12, 13]).encode).w.files (.fd 4)).any
      (fun f => decide (1 ∈ f.hist 0)) = true := by decide +kernel
  refine ⟨_, List.mem_cons_self, ?_⟩
  revert h
  cases (mainloop .little (Demo.client false) Demo.world (Demo.write 3 [10, 11, 12, 13]).encode).w.files (.fd 4) with
  | none => intro h; cases h
  | some f => intro h; exact .inr (by simpa using h)

/-- One file of sixteen bytes; the second system call fails with EIO. -/
def demoBadDisk : World :=
  ⟨fun id => if id = .fd 3 then some (Demo.file 16) else none, fun t => if t = 1 then .err EIO else .done 4096, 0, 0, fun _ => []⟩

/-- **C20 is false when `fdatasync` fails**: the server ignores the result and acknowledges the FUA write, whose data a crash can
undo. -/
theorem C20_false : ∃ (e : Endian) (cl : Client) (w : World) (stream : List Byte) (d : Done),
    Plain cl ∧ has cl.ex.flags F_TREEFILES = false ∧ (mainloop e cl w stream).handled = [d] ∧
    (mainloop e cl w stream).ending = .gone ∧ IsWrite d.req ∧ d.req.type.testBit 16 = true ∧ Acked d ∧ 0 < d.req.len ∧
    ¬ Survives cl.ex (mainloop e cl w stream).w d.req.start (putByte d 0) := by
  refine ⟨.little, ⟨⟨0, 16, [⟨3, 0⟩], []⟩, false, [], 0, 0, 0, false, false⟩, demoBadDisk, (demoFua 3 [10, 11, 12, 13]).encode,
    demoDone 65537, ⟨⟨by decide, fun _ => ⟨by decide, by decide, by decide⟩⟩, by decide⟩, by decide, by decide +kernel,
    by decide +kernel, .inl rfl, by decide, by unfold Acked; decide +kernel, by decide, ?_⟩
  refine not_survives (x := (.fd 3, 3)) (c := 4) (by decide) (by decide +kernel) ?_ (by decide)
  have h : ((mainloop .little ⟨⟨0, 16, [⟨3, 0⟩], []⟩, false, [], 0, 0, 0, false, false⟩ demoBadDisk
      (demoFua 3 [10, 11, 12, 13]).encode).w.files (.fd 3)).any (fun f => decide (4 ∈ f.hist 3)) = true := by decide +kernel
  refine ⟨_, List.mem_cons_self, ?_⟩
  revert h
  cases (mainloop .little ⟨⟨0, 16, [⟨3, 0⟩], []⟩, false, [], 0, 0, 0, false, false⟩ demoBadDisk
      (demoFua 3 [10, 11, 12, 13]).encode).w.files (.fd 3) with
  | none => intro h; cases h
  | some f => intro h; exact .inr (by simpa using h)

/-- A tree export of two blocks, no block file there yet. -/
def demoTree : Client := ⟨⟨F_TREEFILES, 8192, [], ['/', 't']⟩, false, [], 0, 0, 0, false, false⟩

/-- An empty file system and a kernel that never fails. -/
def demoEmpty : World := ⟨fun _ => none, fun _ => .done 4096, 0, 0, fun _ => []⟩

/-- **C20 is false on tree exports**: a FUA write that creates a block file syncs the file but not the directory it was created in, so
after a crash the file may not be there and the block reads as zeroes, although no system call failed. -/
theorem C20_tree_false : ∃ (e : Endian) (cl : Client) (w : World) (stream : List Byte) (d : Done),
    Plain cl ∧ (mainloop e cl w stream).handled = [d] ∧ (mainloop e cl w stream).ending = .gone ∧
    (∀ t err, w.orc t ≠ .err err) ∧ IsWrite d.req ∧ d.req.type.testBit 16 = true ∧ Acked d ∧ 0 < d.req.len ∧
    ¬ Survives cl.ex (mainloop e cl w stream).w d.req.start (putByte d 0) := by
  refine ⟨.little, demoTree, demoEmpty, (demoFua 3 [10, 11, 12, 13]).encode,
    demoDone 65537, ⟨⟨by decide, fun h => absurd h (by decide)⟩, by decide⟩, by decide +kernel, by decide +kernel,
    fun t err h => (by cases h), .inl rfl, by decide, by unfold Acked; decide +kernel, by decide, ?_⟩
  refine not_survives (x := (.path ['/', 't', '/', 'F', 'I', 'L', 'E', '0', '0', '0', '0'], 3)) (c := 0) (by decide)
    (by decide +kernel) ?_ (by decide)
  have h : ((mainloop .little demoTree demoEmpty (demoFua 3 [10, 11, 12, 13]).encode).w.old
      ['/', 't', '/', 'F', 'I', 'L', 'E', '0', '0', '0', '0']).any Option.isNone = true := by decide +kernel
  rw [List.any_eq_true] at h
  obtain ⟨en, hen, hn⟩ := h
  refine ⟨en, List.mem_cons_of_mem _ hen, ?_⟩
  cases en with
  | none => rfl
  | some f => cases hn

/-- A client of an export with `waitfile` after the awaited file has appeared: the diff file is descriptor 5, the file itself 3. -/
def demoWaited : Client := ⟨⟨F_WAIT, 16, [⟨3, 0⟩], []⟩, false, [], 0, 5, 0, false, false⟩

/-- The two files, and a kernel that never fails. -/
def demoWaitDisk : World :=
  ⟨fun id => if id = .fd 3 ∨ id = .fd 5 then some (Demo.file 16) else none, fun _ => .done 4096, 0, 0, fun _ => []⟩

/-- **C21 is false on an export with `waitfile`** once the file has appeared: a flush syncs the diff file, which is no longer used, and
is acknowledged, but an acknowledged write to the file itself can still be lost. No system call fails. -/
theorem C21_false : ∃ (e : Endian) (cl : Client) (w : World) (stream : List Byte) (d f : Done),
    Plain cl ∧ (mainloop e cl w stream).handled = [d, f] ∧ (mainloop e cl w stream).ending = .gone ∧
    (∀ t err, w.orc t ≠ .err err) ∧ IsWrite d.req ∧ Acked d ∧ f.req.type % 65536 = 3 ∧ Acked f ∧ 0 < d.req.len ∧
    ¬ Survives cl.ex (mainloop e cl w stream).w d.req.start (putByte d 0) := by
  refine ⟨.little, demoWaited, demoWaitDisk, (Demo.write 3 [10, 11, 12, 13]).encode ++ (Demo.request 3 0 0).encode,
    demoDone 1, demoFlush, ⟨⟨by decide, fun _ => ⟨by decide, by decide, by decide⟩⟩, by decide⟩, by decide +kernel, by decide +kernel,
    fun t err h => (by cases h), .inl rfl, by unfold Acked; decide +kernel, rfl, by unfold Acked; decide +kernel, by decide, ?_⟩
  refine not_survives (x := (.fd 3, 3)) (c := 4) (by decide) (by decide +kernel) ?_ (by decide)
  have h : ((mainloop .little demoWaited demoWaitDisk
      ((Demo.write 3 [10, 11, 12, 13]).encode ++ (Demo.request 3 0 0).encode)).w.files (.fd 3)).any
      (fun f => decide (4 ∈ f.hist 3)) = true := by decide +kernel
  refine ⟨_, List.mem_cons_self, ?_⟩
  revert h
  cases (mainloop .little demoWaited demoWaitDisk
      ((Demo.write 3 [10, 11, 12, 13]).encode ++ (Demo.request 3 0 0).encode)).w.files (.fd 3) with
  | none => intro h; cases h
  | some f => intro h; exact .inr (by simpa using h)

end Nbd.Props
