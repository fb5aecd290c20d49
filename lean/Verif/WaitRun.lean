import Verif.WaitLemmas
/-! # The waiting thread and the requests together -/

set_option autoImplicit false

namespace Nbd

open Spec (Sent)

/-- One request, through the request loop. -/
theorem mainloop_wait_one (e : Endian) {fh : Nat} (cl : Client) (w : World) (s : Sent) (hs : s.Ok) (hok : WaitOk fh cl w)
    (hgen : Generous w) (ht : Spec.Whole s.cmd) (hroom : cl.difffilelen + s.cmd.blocks ≤ 2 ^ 20) :
    ∃ rs, (mainloop e cl w s.encode).sent = Spec.wire rs ∧ (mainloop e cl w s.encode).ending = .gone ∧
      Spec.PatientStep cl.ex.exportsize (badWrite cl) cl.structured (waitView fh cl w) s.cmd rs
        (waitView fh (mainloop e cl w s.encode).cl (mainloop e cl w s.encode).w) ∧
      WaitKept fh s.cmd.blocks cl w (mainloop e cl w s.encode).cl (mainloop e cl w s.encode).w := by
  rcases fetch_sent e cl w s hs [] with ⟨_, _, hx⟩ | ⟨w1, p, hf, _, _, hfit, hbytes, _⟩
  · rw [hok.nosplice] at hx; cases hx
  · have hw1 := fetch_nosplice e cl hok.nosplice w w1 _ _ hf
    subst hw1
    rw [List.append_nil] at hf
    have hcmd : cmdOf (reqOf e s) p = s.cmd := by
      unfold cmdOf Spec.Sent.cmd; rw [hbytes]; rfl
    obtain ⟨cl', w', msgs, rs, h1, h2, h3, h4⟩ := handleRequest_wait e cl w1 (reqOf e s) p hok hgen hs.fits.len hfit
      (fetch_piped e cl hok.nosplice _ _ _ _ _ _ hf) (by rw [hcmd]; exact ht) (by rw [hcmd]; exact hroom)
    rw [mainloop_push _ _ _ _ _ _ _ _ hf, h1]
    simp only [mainloop_nil]
    rw [hcmd] at h3 h4
    refine ⟨rs, ?_, rfl, h3, h4⟩
    have := Run.cons_sent ⟨reqOf e s, p, msgs⟩ ⟨[], cl', w', .gone⟩ rs [] h2.wire rfl
    rw [List.append_nil] at this
    exact this

theorem pagecount_wait {fh : Nat} {cl : Client} {w : World} (hok : WaitOk fh cl w) : pagecount cl = cl.difmap.length := by
  have := hok.small
  unfold pagecount
  rw [hok.len, show DIFFPAGESIZE = 4096 from rfl]
  simp only []
  rw [Nat.mod_eq_of_lt (by omega), if_pos (by omega)]

/-- What copying one block does. -/
theorem commitPage_wait {fh : Nat} {cl : Client} {w : World} (hok : WaitOk fh cl w) (hgen : Generous w) (i : Nat)
    (hi : i < cl.difmap.length) :
    ∃ w' c, commitPage fh cl w i = .val ({ cl with difmap := cl.difmap.set i NOPAGE }, w', c) ∧
      c = (if cl.difmap[i]? = some NOPAGE then .clean else .moved) ∧
      WaitKept fh 0 cl w { cl with difmap := cl.difmap.set i NOPAGE } w' ∧
      waitView fh { cl with difmap := cl.difmap.set i NOPAGE } w' = waitView fh cl w := by
  have hsz := hok.small
  have hlen := hok.len
  have hwhole := hok.whole
  obtain ⟨m, hm⟩ : ∃ m, cl.difmap[i]? = some m := ⟨_, List.getElem?_eq_getElem hi⟩
  unfold commitPage
  rw [show DIFFPAGESIZE = 4096 from rfl, if_neg (by omega), hm]
  simp only []
  by_cases hne : m = NOPAGE
  · subst hne
    have hset : cl.difmap.set i NOPAGE = cl.difmap := by
      apply List.ext_getElem?
      intro q
      by_cases hq : q = i
      · subst hq; rw [List.getElem?_set_self hi, hm]
      · rw [List.getElem?_set_ne (Ne.symm hq)]
    rw [if_pos rfl, hset]
    exact ⟨w, _, rfl, by simp, ⟨hok, .refl _, rfl, Nat.le_refl _⟩, rfl⟩
  · rw [if_neg hne, hok.sysPread hgen hm hne 0 4096 (by omega), Nat.add_zero]
    generalize hbs : (waitView fh cl w).read (i * 4096) 4096 = bs
    have hbl : bs.length = 4096 := by rw [← hbs, Flat.read_length]
    dsimp only
    rw [if_neg (by rw [hbl]; simp)]
    obtain ⟨f, hf⟩ := hok.real
    have hf1 : w.step.files (.fd fh) = some f := hf
    rw [sysPwrite_generous (w := w.step) (hgen.of_orc rfl) fh f hf1 (i * 4096) _ (by omega), hbl]
    dsimp only
    rw [if_neg (by simp)]
    generalize hw' : (w.step.step).set (.fd fh) (f.pwrite (i * 4096) bs) = w'
    have hf' : w'.files (.fd fh) = some (f.pwrite (i * 4096) bs) := by
      rw [← hw']; exact World.set_files_same _ _ _
    have hne2 : FileId.fd cl.difffile ≠ .fd fh := by
      have := hok.apart
      intro h; cases h; exact this rfl
    have hoth : ∀ id, id ≠ .fd fh → w'.files id = w.files id := by
      intro id hid; rw [← hw', World.set_files_ne _ _ hid]; rfl
    have hset : ∀ q : Nat, (cl.difmap.set i NOPAGE)[q]? = if q = i then some NOPAGE else cl.difmap[q]? := by
      intro q
      by_cases hq : q = i
      · subst hq; rw [if_pos rfl, List.getElem?_set_self hi]
      · rw [if_neg hq, List.getElem?_set_ne (Ne.symm hq)]
    refine ⟨w', _, rfl, by rw [if_neg (by simpa using hne)], ⟨{ hok with len := ?_, file := ?_, slots := ?_, inj := ?_, real := ?_ },
      ⟨rfl, rfl, rfl, rfl, rfl⟩, by rw [← hw']; rfl, Nat.le_refl _⟩, ?_⟩
    · show (cl.difmap.set i NOPAGE).length = _
      rw [List.length_set]; exact hok.len
    · show ∃ f, w'.files (.fd cl.difffile) = some f ∧ _
      rw [hoth _ hne2]; exact hok.file
    · intro q m' hq hn
      have hq : (cl.difmap.set i NOPAGE)[q]? = some m' := hq
      rw [hset] at hq
      split at hq
      · cases hq; exact absurd rfl hn
      · exact hok.slots q m' hq hn
    · intro q q' m' h1 h2 hn
      have h1 : (cl.difmap.set i NOPAGE)[q]? = some m' := h1
      have h2 : (cl.difmap.set i NOPAGE)[q']? = some m' := h2
      rw [hset] at h1 h2
      split at h1
      · cases h1; exact absurd rfl hn
      · split at h2
        · cases h2; exact absurd rfl hn
        · exact hok.inj q q' m' h1 h2 hn
    · exact ⟨_, hf'⟩
    · funext a
      have hd : ∀ o, content w' (.fd cl.difffile, o) = content w (.fd cl.difffile, o) := by
        intro o; unfold content; rw [hoth _ hne2]
      have hc : ∀ o, content w' (.fd fh, o) = f.data.write (i * 4096) bs o := by
        intro o; unfold content; simp only [hf']; rfl
      have hc0 : ∀ o, content w (.fd fh, o) = f.data o := by
        intro o; unfold content; simp only [hf]
      by_cases ha : a < cl.ex.exportsize
      · by_cases hai : a / 4096 = i
        · rw [waitView_clean (cl := { cl with difmap := cl.difmap.set i NOPAGE }) (p := i)
            (by show (cl.difmap.set i NOPAGE)[i]? = _; rw [hset, if_pos rfl]) a hai ha, hc]
          have hlt : a % 4096 < bs.length := by rw [hbl]; exact Nat.mod_lt _ (by decide)
          have h1 : a = i * 4096 + a % 4096 := by omega
          conv => lhs; rw [h1]
          rw [Flat.write_inside _ _ _ _ hlt]
          have h2 := Flat.read_getElem? (waitView fh cl w) (i * 4096) 4096 (a % 4096)
          rw [hbs, List.getElem?_eq_getElem hlt, if_pos (Nat.mod_lt _ (by decide))] at h2
          rw [Option.some.inj h2, ← h1]
        · unfold waitView
          show (if a < cl.ex.exportsize then (match (cl.difmap.set i NOPAGE)[a / 4096]? with
            | some m => if m ≠ NOPAGE then content w' (.fd cl.difffile, m * 4096 + a % 4096) else content w' (.fd fh, a)
            | none => content w' (.fd fh, a)) else 0) = _
          rw [if_pos ha, if_pos ha, hset, if_neg hai]
          have hout : content w' (.fd fh, a) = content w (.fd fh, a) := by
            rw [hc, hc0, Flat.write_outside _ _ _ _ (by rw [hbl]; omega)]
          cases cl.difmap[a / 4096]? with
          | none => exact hout
          | some m' =>
            dsimp only
            split
            · exact hd _
            · exact hout
      · unfold waitView
        rw [if_neg ha]
        exact (if_neg ha).symm

/-- The invariant of the waiting phase. -/
structure WaitInv (fh : Nat) (s : Waiting) : Prop where
  ok : WaitOk fh s.cl s.w
  gen : Generous s.w
  fh0 : 0 < fh
  active : s.pc ≠ .done
  index : ∀ b i d, s.pc = .commit b i d → i ≤ s.cl.difmap.length
  clean : ∀ i, s.pc = .commit true i 0 → ∀ q : Nat, q < i → s.cl.difmap[q]? = some NOPAGE

/-- The first `size` bytes of the file behind descriptor `fh`. -/
def Spec.inFile (fh size : Nat) (w : World) : Flat := fun i => if i < size then content w (.fd fh, i) else 0

theorem view_single (ex : Export) (fh : Nat) (h : ex.files = [⟨fh, 0⟩]) (ht : has ex.flags F_TREEFILES = false) (w : World) :
    view ex w = Spec.inFile fh ex.exportsize w := by
  funext a
  have hh : home ex a = some (.fd fh, a) := by
    unfold home
    rw [ht, if_neg (by simp), h]
    simp [locate]
  unfold view Spec.inFile
  rw [hh]

theorem switch_view {fh : Nat} {cl : Client} {w : World} (hok : WaitOk fh cl w)
    (hclean : ∀ q : Nat, q < cl.difmap.length → cl.difmap[q]? = some NOPAGE) :
    Plain (cl.switch fh) ∧ view (cl.switch fh).ex w = waitView fh cl w := by
  have hsz := hok.small
  have hlen := hok.len
  have hg : GoodFiles [⟨fh, 0⟩] := ⟨rfl, List.pairwise_singleton _ _, List.pairwise_singleton _ _⟩
  refine ⟨⟨⟨by show cl.ex.exportsize ≤ _; omega, fun _ => hg⟩, ?_⟩, ?_⟩
  · show (has cl.ex.flags F_COPYONWRITE || false) = false
    rw [hok.nocow]; rfl
  · rw [view_single (cl.switch fh).ex fh rfl hok.notree]
    funext a
    unfold Spec.inFile
    show (if a < cl.ex.exportsize then content w (.fd fh, a) else 0) = _
    have hwhole := hok.whole
    by_cases ha : a < cl.ex.exportsize
    · rw [if_pos ha, waitView_clean (hclean (a / 4096) (by omega)) a rfl ha]
    · unfold waitView
      rw [if_neg ha, if_neg ha]

/-- What can happen to a waiting session, with requests as the protocol describes them. -/
inductive Spec.WaitTurn where
  | appear                 -- the file appears and is opened
  | commit                 -- the waiting thread does one step
  | send (s : Sent)        -- the client sends a request and it is handled

def Spec.WaitTurn.ev : Spec.WaitTurn → WaitEv
  | .appear => .appear
  | .commit => .commit
  | .send s => .request s.encode

/-- The requests among the turns. -/
def Spec.requests (ts : List Spec.WaitTurn) : List Sent :=
  ts.filterMap fun | .send s => some s | _ => none

/-- How many blocks the requests write. -/
def Spec.blocksOf : List Sent → Nat
  | [] => 0
  | s :: rest => s.cmd.blocks + Spec.blocksOf rest

/-- One step of the waiting thread. -/
theorem waitStep_wait {fh : Nat} {s : Waiting} (h : WaitInv fh s) :
    ∃ s', waitStep fh s = .val s' ∧ s'.w.orc = s.w.orc ∧ s'.cl.structured = s.cl.structured ∧ s'.cl.ex.flags = s.cl.ex.flags ∧
      s'.cl.ex.exportsize = s.cl.ex.exportsize ∧ s'.cl.difffilelen ≤ s.cl.difffilelen ∧
      ((WaitInv fh s' ∧ waitView fh s'.cl s'.w = waitView fh s.cl s.w) ∨
       (s'.pc = .done ∧ Plain s'.cl ∧ s'.cl.ex.files = [⟨fh, 0⟩] ∧ view s'.cl.ex s'.w = waitView fh s.cl s.w)) := by
  obtain ⟨cl, w, pc⟩ := s
  obtain ⟨hok, hgen, hfh, hact, hidx, hcl⟩ := h
  unfold waitStep
  simp only [] at hok hgen hact hidx hcl ⊢
  cases pc with
  | absent => exact ⟨_, rfl, rfl, rfl, rfl, rfl, Nat.le_refl _, .inl ⟨⟨hok, hgen, hfh, hact, hidx, hcl⟩, rfl⟩⟩
  | done => exact absurd rfl hact
  | commit b i d =>
    simp only []
    rw [pagecount_wait hok]
    have hi := hidx b i d rfl
    by_cases hlt : i < cl.difmap.length
    · rw [if_pos hlt]
      obtain ⟨w', c, h1, h2, h3, h4⟩ := commitPage_wait hok hgen i hlt
      rw [h1]
      have hidx' : ∀ d' : Nat, ∀ b1 i1 d1, WaitPc.commit b (i + 1) d' = .commit b1 i1 d1 →
          i1 ≤ (cl.difmap.set i NOPAGE).length := by
        intro d' b1 i1 d1 he; cases he; rw [List.length_set]; omega
      have hk := h3
      by_cases hc : cl.difmap[i]? = some NOPAGE
      · rw [if_pos hc] at h2
        subst h2
        refine ⟨_, rfl, h3.orc, rfl, rfl, rfl, Nat.le_refl _, .inl ⟨⟨h3.ok, hgen.of_orc h3.orc, hfh, by simp, hidx' d, ?_⟩, h4⟩⟩
        intro i1 he q hq
        cases he
        show (cl.difmap.set i NOPAGE)[q]? = _
        by_cases hqi : q = i
        · subst hqi; rw [List.getElem?_set_self hlt]
        · rw [List.getElem?_set_ne (Ne.symm hqi)]; exact hcl i rfl q (by omega)
      · rw [if_neg hc] at h2
        subst h2
        refine ⟨_, rfl, h3.orc, rfl, rfl, rfl, Nat.le_refl _, .inl ⟨⟨h3.ok, hgen.of_orc h3.orc, hfh, by simp, hidx' (d + 1), ?_⟩, h4⟩⟩
        intro i1 he
        cases he
    · rw [if_neg hlt]
      split
      · refine ⟨_, rfl, rfl, rfl, rfl, rfl, Nat.le_refl _, .inl ⟨⟨hok, hgen, hfh, by simp, ?_, ?_⟩, rfl⟩⟩
        · intro b1 i1 d1 he; cases he; exact Nat.zero_le _
        · intro i1 he q hq; cases he; omega
      · have hd : d = 0 := by omega
        subst hd
        cases b with
        | false =>
          refine ⟨_, rfl, rfl, rfl, rfl, rfl, Nat.le_refl _, .inl ⟨⟨hok, hgen, hfh, by simp, ?_, ?_⟩, rfl⟩⟩
          · intro b1 i1 d1 he; cases he; exact Nat.zero_le _
          · intro i1 he q hq; cases he; omega
        | true =>
          have hall : ∀ q : Nat, q < cl.difmap.length → cl.difmap[q]? = some NOPAGE := fun q hq => hcl i rfl q (by omega)
          obtain ⟨hp, hv⟩ := switch_view hok hall
          exact ⟨_, rfl, rfl, rfl, rfl, rfl, Nat.le_refl _, .inr ⟨rfl, hp, rfl, hv⟩⟩

/-- Every run of a waiting session. -/
theorem waitRun_wait (e : Endian) (fh : Nat) (ts : List Spec.WaitTurn) : ∀ (s : Waiting) (out : Out (Waiting × List Byte)),
    WaitInv fh s → (∀ x ∈ Spec.requests ts, x.Ok ∧ Spec.Whole x.cmd) →
    s.cl.difffilelen + Spec.blocksOf (Spec.requests ts) ≤ 2 ^ 20 →
    waitRun e fh (ts.map Spec.WaitTurn.ev) s = some out →
    ∃ s' sent rs g, out = .val (s', sent) ∧ sent = Spec.wire rs ∧
      Spec.PatientRun s.cl.ex.exportsize (badWrite s.cl) s.cl.structured (waitView fh s.cl s.w)
        ((Spec.requests ts).map Sent.cmd) rs g ∧
      s'.w.orc = s.w.orc ∧ s'.cl.structured = s.cl.structured ∧ s'.cl.ex.flags = s.cl.ex.flags ∧
      s'.cl.ex.exportsize = s.cl.ex.exportsize ∧
      ((WaitInv fh s' ∧ waitView fh s'.cl s'.w = g) ∨
       (s'.pc = .done ∧ Plain s'.cl ∧ s'.cl.ex.files = [⟨fh, 0⟩] ∧ view s'.cl.ex s'.w = g)) := by
  induction ts with
  | nil =>
    intro s out hinv _ _ h
    simp only [List.map_nil, waitRun, Option.some.injEq] at h
    subst h
    exact ⟨s, [], [], _, rfl, rfl, .nil _, rfl, rfl, rfl, rfl, .inl ⟨hinv, rfl⟩⟩
  | cons t rest ih =>
    intro s out hinv hreq hroom h
    obtain ⟨cl, w, pc⟩ := s
    cases t with
    | appear =>
      simp only [List.map_cons, Spec.WaitTurn.ev, waitRun] at h
      have hreq' : Spec.requests (.appear :: rest) = Spec.requests rest := rfl
      rw [hreq'] at hreq hroom ⊢
      cases pc with
      | commit b i d => cases h
      | done => cases h
      | absent =>
        simp only [] at h
        have := hinv.fh0
        rw [if_neg (by omega)] at h
        obtain ⟨hok, hgen, hfh, _, _, _⟩ := hinv
        refine ih ⟨cl, w, .commit false 0 0⟩ out ⟨hok, hgen, hfh, by simp, ?_, ?_⟩ hreq hroom h
        · intro b1 i1 d1 he; cases he; exact Nat.zero_le _
        · intro i1 he; cases he
    | commit =>
      simp only [List.map_cons, Spec.WaitTurn.ev, waitRun] at h
      have hreq' : Spec.requests (.commit :: rest) = Spec.requests rest := rfl
      rw [hreq'] at hreq hroom ⊢
      cases pc with
      | absent => cases h
      | done => cases h
      | commit b i d =>
        simp only [] at h
        obtain ⟨s1, h1, h2, h3, h4, h5, h5', h6⟩ := waitStep_wait hinv
        rw [h1] at h
        simp only [] at h
        have hbw : ∀ c : Client, c.ex.flags = cl.ex.flags → badWrite c = badWrite cl := by
          intro c hc; unfold badWrite; rw [hc]
        rcases h6 with ⟨h6, h7⟩ | ⟨h6, h7, h8, h9⟩
        · obtain ⟨s', sent, rs, g, k1, k2, k3, k4, k5, k6, k7, k8⟩ := ih s1 out h6 hreq (by simp only [] at h5' hroom ⊢; omega) h
          rw [h3, h5, h7, hbw _ h4] at k3
          exact ⟨s', sent, rs, g, k1, k2, k3, k4.trans h2, k5.trans h3, k6.trans h4, k7.trans h5, k8⟩
        · cases rest with
          | nil =>
            simp only [List.map_nil, waitRun, Option.some.injEq] at h
            subst h
            exact ⟨s1, [], [], _, rfl, rfl, .nil _, h2, h3, h4, h5, .inr ⟨h6, h7, h8, h9⟩⟩
          | cons t' rest' =>
            cases t' <;> (simp only [List.map_cons, Spec.WaitTurn.ev, waitRun, h6] at h; cases h)
    | send x =>
      simp only [List.map_cons, Spec.WaitTurn.ev, waitRun] at h
      have hreq' : Spec.requests (.send x :: rest) = x :: Spec.requests rest := rfl
      rw [hreq'] at hreq hroom ⊢
      obtain ⟨hxo, hxw⟩ := hreq x (by simp)
      have hblk : Spec.blocksOf (x :: Spec.requests rest) = x.cmd.blocks + Spec.blocksOf (Spec.requests rest) := rfl
      rw [hblk] at hroom
      simp only [] at hroom
      obtain ⟨rs, m1, m2, m3, m4⟩ := mainloop_wait_one e (fh := fh) cl w x hxo hinv.ok hinv.gen hxw (by omega)
      have hpc : ∀ i d, pc ≠ .commit true i d := by
        intro i d he; subst he; cases h
      have hinv' : WaitInv fh ⟨(mainloop e cl w x.encode).cl, (mainloop e cl w x.encode).w, pc⟩ := by
        refine ⟨m4.ok, hinv.gen.of_orc m4.orc, hinv.fh0, hinv.active, ?_, ?_⟩
        · intro b i d he
          have := hinv.index b i d he
          have h1 := m4.ok.len
          have h2 := hinv.ok.len
          simp only [] at this h1 h2 ⊢
          rw [h1, m4.seat.ex, ← h2]; exact this
        · intro i he; exact absurd he (hpc i 0)
      have h : (match waitRun e fh (rest.map Spec.WaitTurn.ev)
            ⟨(mainloop e cl w x.encode).cl, (mainloop e cl w x.encode).w, pc⟩ with
          | some (.val (s, out)) => some (.val (s, (mainloop e cl w x.encode).sent ++ out))
          | r => r) = some out := by
        rw [← h]
        cases pc with
        | done => exact absurd rfl hinv.active
        | absent => simp only [m2]; rfl
        | commit b i d =>
          cases b with
          | true => exact absurd rfl (hpc i d)
          | false => simp only [m2]; rfl
      cases hrest : waitRun e fh (rest.map Spec.WaitTurn.ev)
            ⟨(mainloop e cl w x.encode).cl, (mainloop e cl w x.encode).w, pc⟩ with
      | none => rw [hrest] at h; cases h
      | some out1 =>
        obtain ⟨s', sent, rs', g, k1, k2, k3, k4, k5, k6, k7, k8⟩ := ih _ out1 hinv' (fun y hy => hreq y (by simp [hy]))
          (by have := m4.used; simp only []; omega) hrest
        subst k1
        rw [hrest] at h
        simp only [Option.some.injEq] at h
        subst h
        have hbw : badWrite (mainloop e cl w x.encode).cl = badWrite cl := by unfold badWrite; rw [m4.seat.ex]
        simp only [m4.seat.ex, m4.seat.structured, hbw] at k3 k5 k6 k7
        refine ⟨s', _, rs ++ rs', g, rfl, ?_, .cons _ _ _ _ _ _ _ m3 k3, k4.trans m4.orc, k5, k6, k7, k8⟩
        rw [m1, k2]
        unfold Spec.wire
        rw [List.map_append, List.flatten_append]

/-! ### The waiting thread gets there -/

/-- `n` steps of the waiting thread lead from `s` to `s'`. -/
def Reach (e : Endian) (fh : Nat) (s s' : Waiting) : Prop :=
  ∃ n, waitRun e fh (List.replicate n .commit) s = some (.val (s', []))

theorem Reach.refl (e : Endian) (fh : Nat) (s : Waiting) : Reach e fh s s := ⟨0, rfl⟩

theorem Reach.step {e : Endian} {fh : Nat} {s s1 s' : Waiting} (hpc : ∃ b i d, s.pc = .commit b i d)
    (h : waitStep fh s = .val s1) (hr : Reach e fh s1 s') : Reach e fh s s' := by
  obtain ⟨n, hn⟩ := hr
  obtain ⟨b, i, d, hpc⟩ := hpc
  refine ⟨n + 1, ?_⟩
  rw [List.replicate_succ, waitRun]
  simp only [hpc, h]
  exact hn

theorem Reach.trans {e : Endian} {fh : Nat} {s s1 s' : Waiting} (h1 : Reach e fh s s1) (h2 : Reach e fh s1 s') : Reach e fh s s' := by
  obtain ⟨n, hn⟩ := h1
  induction n generalizing s with
  | zero =>
    simp only [List.replicate_zero, waitRun, Option.some.injEq, Out.val.injEq, Prod.mk.injEq, and_true] at hn
    subst hn
    exact h2
  | succ n ih =>
    rw [List.replicate_succ, waitRun] at hn
    split at hn
    · rename_i b i d hpc
      split at hn
      · cases hn
      · cases hn
      · rename_i s2 hs
        exact .step ⟨b, i, d, hpc⟩ hs (ih hn)
    · cases hn

/-- Through the rest of one pass. -/
theorem wait_pass (e : Endian) (fh n : Nat) : ∀ (s : Waiting) (b : Bool) (i d : Nat), WaitInv fh s → s.pc = .commit b i d →
    i + n = s.cl.difmap.length →
    ∃ s' d', Reach e fh s s' ∧ WaitInv fh s' ∧ s'.pc = .commit b (i + n) d' ∧ s'.cl.difmap.length = s.cl.difmap.length ∧
      (∀ q : Nat, i ≤ q → q < s.cl.difmap.length → s'.cl.difmap[q]? = some NOPAGE) ∧
      (∀ q : Nat, s.cl.difmap[q]? = some NOPAGE → s'.cl.difmap[q]? = some NOPAGE) ∧
      ((∀ q : Nat, i ≤ q → q < s.cl.difmap.length → s.cl.difmap[q]? = some NOPAGE) → d' = d) := by
  induction n with
  | zero =>
    intro s b i d hinv hpc hn
    exact ⟨s, d, .refl _ _ _, hinv, hpc, rfl, fun q h1 h2 => by omega, fun q h => h, fun _ => rfl⟩
  | succ n ih =>
    intro s b i d hinv hpc hn
    have hlt : i < s.cl.difmap.length := by omega
    obtain ⟨s1, h1, _, _, _, _, _, h6⟩ := waitStep_wait hinv
    obtain ⟨w', c, k1, k2, k3, k4⟩ := commitPage_wait hinv.ok hinv.gen i hlt
    have hs1 : s1 = ⟨{ s.cl with difmap := s.cl.difmap.set i NOPAGE }, w',
        .commit b (i + 1) (if s.cl.difmap[i]? = some NOPAGE then d else d + 1)⟩ := by
      unfold waitStep at h1
      rw [hpc] at h1
      simp only [] at h1
      rw [pagecount_wait hinv.ok, if_pos hlt, k1] at h1
      by_cases hc : s.cl.difmap[i]? = some NOPAGE
      · rw [if_pos hc] at k2 ⊢
        subst k2
        cases h1
        rfl
      · rw [if_neg hc] at k2 ⊢
        subst k2
        cases h1
        rfl
    rcases h6 with ⟨h6, _⟩ | ⟨h6, _⟩
    · subst hs1
      obtain ⟨s', d', r1, r2, r3, r4, r5, r6, r7⟩ := ih _ b (i + 1) _ h6 rfl (by show _ = (s.cl.difmap.set i NOPAGE).length; rw [List.length_set]; omega)
      simp only [List.length_set] at r4 r5 r7
      have hself : (s.cl.difmap.set i NOPAGE)[i]? = some NOPAGE := List.getElem?_set_self hlt
      have hkeep : ∀ q : Nat, s.cl.difmap[q]? = some NOPAGE → (s.cl.difmap.set i NOPAGE)[q]? = some NOPAGE := by
        intro q hq
        by_cases hqi : q = i
        · subst hqi; exact hself
        · rw [List.getElem?_set_ne (Ne.symm hqi)]; exact hq
      refine ⟨s', d', .step ⟨b, i, d, hpc⟩ h1 r1, r2, by rw [r3]; congr 1; omega, r4, ?_, ?_, ?_⟩
      · intro q hq1 hq2
        by_cases hqi : q = i
        · subst hqi; exact r6 q hself
        · exact r5 q (by omega) hq2
      · intro q hq; exact r6 q (hkeep q hq)
      · intro hall
        rw [r7 (fun q hq1 hq2 => hkeep q (hall q (by omega) hq2)), if_pos (hall i (Nat.le_refl _) hlt)]
    · rw [hs1] at h6; cases h6

/-- The end of a pass. -/
theorem wait_end (fh : Nat) (s : Waiting) (b : Bool) (d : Nat) (hinv : WaitInv fh s) (hpc : s.pc = .commit b s.cl.difmap.length d) :
    ∃ s', waitStep fh s = .val s' ∧
      (0 < d → WaitInv fh s' ∧ s'.cl = s.cl ∧ s'.pc = .commit b 0 0) ∧
      (d = 0 → b = false → WaitInv fh s' ∧ s'.cl = s.cl ∧ s'.pc = .commit true 0 0) ∧
      (d = 0 → b = true → s'.pc = .done) := by
  obtain ⟨s1, h1, _, _, _, _, _, h6⟩ := waitStep_wait hinv
  refine ⟨s1, h1, ?_, ?_, ?_⟩ <;>
  (unfold waitStep at h1
   rw [hpc] at h1
   simp only [] at h1
   rw [pagecount_wait hinv.ok, if_neg (by omega)] at h1)
  · intro hd
    rw [if_pos hd] at h1
    cases h1
    rcases h6 with ⟨h6, _⟩ | ⟨h6, _⟩
    · exact ⟨h6, rfl, rfl⟩
    · cases h6
  · intro hd hb
    subst hd hb
    cases h1
    rcases h6 with ⟨h6, _⟩ | ⟨h6, _⟩
    · exact ⟨h6, rfl, rfl⟩
    · cases h6
  · intro hd hb
    subst hd hb
    cases h1
    rfl

/-- From the beginning of a pass to the end of that loop. -/
theorem wait_loop (e : Endian) (fh : Nat) (s : Waiting) (b : Bool) (hinv : WaitInv fh s) (hpc : s.pc = .commit b 0 0) :
    ∃ s', Reach e fh s s' ∧ WaitInv fh s' ∧ s'.pc = .commit b s'.cl.difmap.length 0 := by
  obtain ⟨s1, d1, r1, i1, p1, l1, c1, _, _⟩ := wait_pass e fh s.cl.difmap.length s b 0 0 hinv hpc (by omega)
  rw [Nat.zero_add, ← l1] at p1
  by_cases hd : d1 = 0
  · subst hd; exact ⟨s1, r1, i1, p1⟩
  · obtain ⟨s2, h2, h3, _, _⟩ := wait_end fh s1 b d1 i1 p1
    obtain ⟨i2, e2, p2⟩ := h3 (by omega)
    obtain ⟨s3, d3, r3, i3, p3, l3, _, _, z3⟩ := wait_pass e fh s2.cl.difmap.length s2 b 0 0 i2 p2 (by omega)
    have : d3 = 0 := z3 (by
      intro q _ hq
      rw [e2] at hq ⊢
      exact c1 q (Nat.zero_le _) (by omega))
    subst this
    rw [Nat.zero_add, ← l3] at p3
    exact ⟨s3, r1.trans (.step ⟨_, _, _, p1⟩ h2 r3), i3, p3⟩

/-- From anywhere to the switch. -/
theorem wait_reaches (e : Endian) (fh : Nat) (s : Waiting) (hinv : WaitInv fh s) (hpc : s.pc ≠ .absent) :
    ∃ s', Reach e fh s s' ∧ s'.pc = .done := by
  have hlast : ∀ s : Waiting, WaitInv fh s → s.pc = .commit true 0 0 → ∃ s', Reach e fh s s' ∧ s'.pc = .done := by
    intro s hinv hpc
    obtain ⟨s1, r1, i1, p1⟩ := wait_loop e fh s true hinv hpc
    obtain ⟨s2, h2, _, _, h3⟩ := wait_end fh s1 true 0 i1 p1
    exact ⟨s2, r1.trans (.step ⟨_, _, _, p1⟩ h2 (.refl _ _ _)), h3 rfl rfl⟩
  have hfirst : ∀ (s : Waiting) (b : Bool), WaitInv fh s → s.pc = .commit b 0 0 → ∃ s', Reach e fh s s' ∧ s'.pc = .done := by
    intro s b hinv hpc
    cases b with
    | true => exact hlast s hinv hpc
    | false =>
      obtain ⟨s1, r1, i1, p1⟩ := wait_loop e fh s false hinv hpc
      obtain ⟨s2, h2, _, h3, _⟩ := wait_end fh s1 false 0 i1 p1
      obtain ⟨i2, _, p2⟩ := h3 rfl rfl
      obtain ⟨s3, r3, p3⟩ := hlast s2 i2 p2
      exact ⟨s3, r1.trans (.step ⟨_, _, _, p1⟩ h2 r3), p3⟩
  cases hp : s.pc with
  | absent => exact absurd hp hpc
  | done => exact absurd hp hinv.active
  | commit b i d =>
    have hi := hinv.index b i d hp
    obtain ⟨s1, d1, r1, i1, p1, l1, _, _, _⟩ := wait_pass e fh (s.cl.difmap.length - i) s b i d hinv hp (by omega)
    rw [show i + (s.cl.difmap.length - i) = s.cl.difmap.length by omega, ← l1] at p1
    obtain ⟨s2, h2, h3, h4, h5⟩ := wait_end fh s1 b d1 i1 p1
    by_cases hd : d1 = 0
    · cases b with
      | true => exact ⟨s2, r1.trans (.step ⟨_, _, _, p1⟩ h2 (.refl _ _ _)), h5 hd rfl⟩
      | false =>
        obtain ⟨i2, _, p2⟩ := h4 hd rfl
        obtain ⟨s3, r3, p3⟩ := hfirst s2 true i2 p2
        exact ⟨s3, r1.trans (.step ⟨_, _, _, p1⟩ h2 r3), p3⟩
    · obtain ⟨i2, _, p2⟩ := h3 (by omega)
      obtain ⟨s3, r3, p3⟩ := hfirst s2 b i2 p2
      exact ⟨s3, r1.trans (.step ⟨_, _, _, p1⟩ h2 r3), p3⟩

end Nbd
