import Verif.CowView
/-! # Copy-on-write sessions, interleaved -/

set_option autoImplicit false

namespace Nbd.Spec

/-- What a flat array that never fails answers, and what it holds afterwards. A trim may be ignored, and here is. -/
inductive SureStep (size : Nat) (ro structured : Bool) (f : Flat) (c : Cmd) : List Reply → Flat → Prop where
  | read (rs : List Reply) (hc : c.code = 0) (hr : c.start + c.len ≤ size)
      (h : ReadAnswer c.cookie c.start (f.read c.start c.len) structured rs) : SureStep size ro structured f c rs f
  | write (hc : c.code = 1) (hw : ro = false) (hr : c.start + c.len ≤ size) :
      SureStep size ro structured f c [.simple 0 c.cookie []] (f.write c.start c.data)
  | zeroes (hc : c.code = 6) (hw : ro = false) (hr : c.start + c.len ≤ size) :
      SureStep size ro structured f c [.simple 0 c.cookie []] (f.write c.start (Flat.zeros c.len))
  | trim (hc : c.code = 4) (hw : ro = false) (hr : c.start + c.len ≤ size) :
      SureStep size ro structured f c [.simple 0 c.cookie []] f
  | flush (hc : c.code = 3) : SureStep size ro structured f c [.simple 0 c.cookie []] f
  | refused (err : Nat) (he : err ∈ errnos)
      (why : c.code ∉ [0, 1, 3, 4, 6] ∨ (c.code ∈ [1, 4, 6] ∧ ro = true) ∨
        (c.code ∈ [0, 1, 4, 6] ∧ size < c.start + c.len)) :
      SureStep size ro structured f c [.simple err c.cookie []] f

/-- A sequence of commands on such an array. -/
inductive SureRun (size : Nat) (ro structured : Bool) : Flat → List Cmd → List Reply → Flat → Prop where
  | nil (f : Flat) : SureRun size ro structured f [] [] f
  | cons (f g k : Flat) (c : Cmd) (rs : List Reply) (cs : List Cmd) (rest : List Reply)
      (h1 : SureStep size ro structured f c rs g) (h2 : SureRun size ro structured g cs rest k) :
      SureRun size ro structured f (c :: cs) (rs ++ rest) k

/-- The 4096-byte block `q` is touched by the command. -/
def Cmd.touches (c : Cmd) (q : Nat) : Prop :=
  0 < c.len ∧ c.start / 4096 ≤ q ∧ q ≤ (c.start + c.len - 1) / 4096

/-- Some earlier write or write-zeroes touched block `q`. -/
def Written (before : List Cmd) (q : Nat) : Prop := ∃ c ∈ before, (c.code = 1 ∨ c.code = 6) ∧ c.touches q

/-- The commands a copy-on-write session can be trusted with, given the commands before it: reads and writes are not
empty, a write-zeroes is at most 64 MiB, and of the blocks a read touches none was written before, except the last one
(with structured replies: except when the read touches only one block). -/
structure Tractable (structured : Bool) (before : List Cmd) (c : Cmd) : Prop where
  nonempty : c.code = 0 ∨ c.code = 1 → 0 < c.len
  zeroes : c.code = 6 → c.len ≤ 64 * 1024 * 1024
  read : c.code = 0 → ∀ q, c.touches q → Written before q →
    q = (c.start + c.len - 1) / 4096 ∧ (structured = true → q = c.start / 4096)

/-- Every command is tractable after the ones before it. -/
def AllTractable (structured : Bool) (cs : List Cmd) : Prop :=
  ∀ before c after, cs = before ++ c :: after → Tractable structured before c

end Nbd.Spec

namespace Nbd

open Spec (Sent)

theorem fetch_nosplice (e : Endian) (cl : Client) (hns : has cl.ex.flags F_SPLICE = false) (w w1 : World)
    (stream : List Byte) (f : Fetched) (h : fetch e cl w stream = .val (w1, f)) : w1 = w := by
  unfold fetch at h
  rw [hns] at h
  split at h
  · cases h; rfl
  · simp only [] at h
    split at h
    · cases h; rfl
    · split at h
      · simp only [Bool.false_eq_true, if_false, Bool.false_and] at h
        split at h <;> cases h <;> rfl
      · split at h <;> cases h <;> rfl

/-- One request of a copy-on-write session. -/
theorem handleRequest_cow (e : Endian) (cl : Client) (w : World) (r : Req) (p : Payload) (hok : CowOk cl w)
    (hgen : Generous w) (hb : Backed cl.ex w) (hlen : r.len < 2 ^ 32) (hfit : p.fits r) (hp : p.piped = false)
    (before : List Spec.Cmd) (hd : ∀ q, Dirty cl q → Spec.Written before q)
    (ht : Spec.Tractable cl.structured before (cmdOf r p)) :
    ∃ cl' w' msgs rs, handleRequest e cl w r p = .val (cl', w', msgs) ∧ Encodes msgs rs ∧
      Spec.SureStep cl.ex.exportsize (badWrite cl) cl.structured (cowView cl w) (cmdOf r p) rs (cowView cl' w') ∧
      CowStep cl w cl' w' ∧ ∀ q, Dirty cl' q → Spec.Written (before ++ [cmdOf r p]) q := by
  have hsz := hok.good.size
  have hmono : ∀ q, Dirty cl q → Spec.Written (before ++ [cmdOf r p]) q := by
    intro q hq
    obtain ⟨c, h1, h2⟩ := hd q hq
    exact ⟨c, by simp [h1], h2⟩
  have hsame : CowStep cl w cl w := ⟨hok, .refl _, rfl, .refl _ _ _⟩
  have hrefuse : ∀ n, errorReply e cl w r n = .val (cl, w, [simpleMsg e r (some (nbdErrno e n))]) ∧
      Encodes [simpleMsg e r (some (nbdErrno e n))] [.simple (errnoWire n).toNat r.cookie []] := by
    intro n
    refine ⟨rfl, ?_⟩
    rw [nbdErrno_eq]; exact simpleMsg_encodes e r (some _)
  have hok0 : Encodes [simpleMsg e r none] [.simple 0 r.cookie []] := simpleMsg_encodes e r none
  have hcode : r.type < 262144 → (cmdOf r p).code = r.type % 65536 := by
    intro h; simp only [cmdOf]; rw [if_pos h]
  have hinr : badRange cl r = false → r.start + r.len ≤ cl.ex.exportsize := inRange hok.good hlen
  unfold handleRequest
  simp only []
  split
  · rename_i hfl
    refine ⟨_, _, _, _, (hrefuse EINVAL).1, (hrefuse EINVAL).2, ?_, hsame, hmono⟩
    refine .refused (c := cmdOf r p) _ (errnoWire_toNat_mem _) (.inl ?_)
    simp only [cmdOf]; rw [if_neg (by omega)]; decide
  · rename_i hfl
    have hf : r.type < 262144 := by omega
    have hcode := hcode hf
    split
    · rename_i h0
      have h0 : r.type % 65536 = 0 := h0
      split
      · rename_i hbr
        refine ⟨_, _, _, _, (hrefuse EINVAL).1, (hrefuse EINVAL).2, ?_, hsame, hmono⟩
        exact .refused (c := cmdOf r p) _ (errnoWire_toNat_mem _)
          (.inr (.inr ⟨by rw [hcode, h0]; decide, badRange_size hok.good hlen hbr⟩))
      · rename_i hbr
        have hr := hinr (by simpa using hbr)
        have hl : 0 < r.len := ht.nonempty (.inl (by rw [hcode, h0]))
        obtain ⟨w', msgs, rs, h1, h2, h3, h4, h5⟩ := handleRead_cow e cl w r hok hgen hb hf hl hr (by
          intro q m k1 k2 k3 k4
          exact ht.read (by rw [hcode, h0]) q ⟨hl, k1, k2⟩ (hd q ⟨m, k3, k4⟩))
        rw [h1]
        refine ⟨_, _, _, rs, rfl, h4, ?_, ⟨hok.of_files h2, .refl _, h3, .of_files h2⟩, hmono⟩
        rw [cowView_of_files cl h2]
        exact .read (c := cmdOf r p) rs (by rw [hcode, h0]) hr h5
    · split
      · rename_i h1
        have h1 : r.type % 65536 = 1 := h1
        split
        · rename_i hbw
          refine ⟨_, _, _, _, (hrefuse EPERM).1, (hrefuse EPERM).2, ?_, hsame, hmono⟩
          exact .refused (c := cmdOf r p) _ (errnoWire_toNat_mem _)
            (.inr (.inl ⟨by rw [hcode, h1]; decide, hbw⟩))
        · rename_i hbw
          split
          · rename_i hbr
            refine ⟨_, _, _, _, (hrefuse ENOSPC).1, (hrefuse ENOSPC).2, ?_, hsame, hmono⟩
            exact .refused (c := cmdOf r p) _ (errnoWire_toNat_mem _)
              (.inr (.inr ⟨by rw [hcode, h1]; decide, badRange_size hok.good hlen hbr⟩))
          · rename_i hbr
            have hr := hinr (by simpa using hbr)
            have hl : 0 < r.len := ht.nonempty (.inr (by rw [hcode, h1]))
            cases p with
            | nothing => exact absurd h1 hfit
            | pipe bs => cases hp
            | data bs =>
              have hbl : bs.length = r.len := hfit
              obtain ⟨cl', w', k1, k2, k3, k4⟩ := expwrite_cow cl w r.start bs (has r.type CMD_FLAG_FUA) hok hgen hb
                (by omega) (by omega)
              unfold handleWrite
              simp only []
              rw [k1]
              refine ⟨_, _, _, _, rfl, hok0, ?_, k2, ?_⟩
              · rw [k3]
                exact .write (c := cmdOf r (.data bs)) (by rw [hcode, h1]) (by simpa using hbw) hr
              · intro q hq
                rcases k4 q hq with h | h
                · exact hmono q h
                · exact ⟨cmdOf r (.data bs), by simp, .inl (by rw [hcode, h1]), hl, h.1, by rw [hbl] at h; exact h.2⟩
      · split
        · rename_i h3
          have h3 : r.type % 65536 = 3 := h3
          obtain ⟨f, hfl, _⟩ := hok.file
          obtain ⟨n, hn4, hnext⟩ := hgen w.tick
          have hs : (expflush cl w).2 = true := by
            unfold expflush
            rw [hok.cow, if_pos rfl]
            unfold sysFsync
            simp only [hfl, World.next, hnext]
          have hw : (expflush cl w).1 = (sysFsync w (.fd cl.difffile)).1 := by
            unfold expflush
            rw [hok.cow, if_pos rfl]
          unfold handleFlush
          simp only []
          rw [hs, hw]
          refine ⟨_, _, _, _, rfl, hok0, ?_, sysFsync_cow cl w hok, hmono⟩
          rw [(sysFsync_content _ _).cowView]
          exact .flush (c := cmdOf r p) (by rw [hcode, h3])
        · split
          · rename_i h4
            have h4 : r.type % 65536 = 4 := h4
            split
            · rename_i hbw
              refine ⟨_, _, _, _, (hrefuse EPERM).1, (hrefuse EPERM).2, ?_, hsame, hmono⟩
              exact .refused (c := cmdOf r p) _ (errnoWire_toNat_mem _)
                (.inr (.inl ⟨by rw [hcode, h4]; decide, hbw⟩))
            · rename_i hbw
              have hbw : badWrite cl = false := by simpa using hbw
              split
              · rename_i hbr
                refine ⟨_, _, _, _, (hrefuse EINVAL).1, (hrefuse EINVAL).2, ?_, hsame, hmono⟩
                exact .refused (c := cmdOf r p) _ (errnoWire_toNat_mem _)
                  (.inr (.inr ⟨by rw [hcode, h4]; decide, badRange_size hok.good hlen hbr⟩))
              · rename_i hbr
                have hr := hinr (by simpa using hbr)
                have hro : has cl.ex.flags F_READONLY = false := by
                  unfold badWrite at hbw
                  exact (Bool.or_eq_false_iff.mp hbw).1
                unfold handleTrim exptrim
                rw [hro, if_neg (by simp), if_neg (by omega), hok.cow, if_pos rfl]
                refine ⟨_, _, _, _, rfl, hok0, ?_, hsame, hmono⟩
                exact .trim (c := cmdOf r p) (by rw [hcode, h4]) hbw hr
          · split
            · rename_i h6
              have h6 : r.type % 65536 = 6 := h6
              split
              · rename_i hbw
                refine ⟨_, _, _, _, (hrefuse EPERM).1, (hrefuse EPERM).2, ?_, hsame, hmono⟩
                exact .refused (c := cmdOf r p) _ (errnoWire_toNat_mem _)
                  (.inr (.inl ⟨by rw [hcode, h6]; decide, hbw⟩))
              · rename_i hbw
                have hbw : badWrite cl = false := by simpa using hbw
                split
                · rename_i hbr
                  refine ⟨_, _, _, _, (hrefuse ENOSPC).1, (hrefuse ENOSPC).2, ?_, hsame, hmono⟩
                  exact .refused (c := cmdOf r p) _ (errnoWire_toNat_mem _)
                    (.inr (.inr ⟨by rw [hcode, h6]; decide, badRange_size hok.good hlen hbr⟩))
                · rename_i hbr
                  have hr := hinr (by simpa using hbr)
                  have hz := ht.zeroes (by rw [hcode, h6])
                  have hz : r.len ≤ 64 * 1024 * 1024 := hz
                  unfold handleWriteZeroes
                  by_cases hl : r.len = 0
                  · rw [expwriteZeroes.eq_def, if_pos hl]
                    refine ⟨_, _, _, _, rfl, hok0, ?_, hsame, hmono⟩
                    have h := Spec.SureStep.zeroes (size := cl.ex.exportsize) (structured := cl.structured)
                      (f := cowView cl w) (c := cmdOf r p) (by rw [hcode, h6]) hbw hr
                    have hnil : Flat.zeros (cmdOf r p).len = [] := by
                      show Flat.zeros r.len = []
                      rw [hl]; rfl
                    rw [hnil, Flat.write_nil] at h
                    exact h
                  · obtain ⟨cl', w', k1, k2, k3, k4⟩ := expwrite_cow cl w r.start (Flat.zeros r.len)
                      (has r.type CMD_FLAG_FUA) hok hgen hb (by rw [Flat.zeros_length]; omega)
                      (by rw [Flat.zeros_length]; omega)
                    have hmin : min r.len ZEROCHUNK = r.len := Nat.min_eq_left hz
                    rw [expwriteZeroes.eq_def, if_neg hl]
                    simp only []
                    rw [hmin, k1]
                    simp only []
                    rw [Nat.sub_self, expwriteZeroes.eq_def, if_pos rfl]
                    refine ⟨_, _, _, _, rfl, hok0, ?_, k2, ?_⟩
                    · rw [k3]
                      exact .zeroes (c := cmdOf r p) (by rw [hcode, h6]) hbw hr
                    · intro q hq
                      rcases k4 q hq with h | h
                      · exact hmono q h
                      · refine ⟨cmdOf r p, by simp, .inr (by rw [hcode, h6]), ?_, h.1, ?_⟩
                        · show 0 < r.len; omega
                        · rw [Flat.zeros_length] at h; exact h.2
            · rename_i n0 n1 n3 n4 n6
              refine ⟨_, _, _, _, (hrefuse EINVAL).1, (hrefuse EINVAL).2, ?_, hsame, hmono⟩
              refine .refused (c := cmdOf r p) _ (errnoWire_toNat_mem _) (.inl ?_)
              rw [hcode]
              simp only [List.mem_cons, List.not_mem_nil, or_false, not_or]
              exact ⟨n0, n1, n3, n4, n6⟩

/-- One request, through the request loop. -/
theorem mainloop_cow_one (e : Endian) (cl : Client) (w : World) (s : Sent) (hs : s.Ok) (hok : CowOk cl w)
    (hgen : Generous w) (hb : Backed cl.ex w) (before : List Spec.Cmd) (hd : ∀ q, Dirty cl q → Spec.Written before q)
    (ht : Spec.Tractable cl.structured before s.cmd) :
    ∃ rs, (mainloop e cl w s.encode).sent = Spec.wire rs ∧ (mainloop e cl w s.encode).ending = .gone ∧
      Spec.SureStep cl.ex.exportsize (badWrite cl) cl.structured (cowView cl w) s.cmd rs
        (cowView (mainloop e cl w s.encode).cl (mainloop e cl w s.encode).w) ∧
      CowStep cl w (mainloop e cl w s.encode).cl (mainloop e cl w s.encode).w ∧
      ∀ q, Dirty (mainloop e cl w s.encode).cl q → Spec.Written (before ++ [s.cmd]) q := by
  rcases fetch_sent e cl w s hs [] with ⟨_, _, hx⟩ | ⟨w1, p, hf, _, _, hfit, hbytes, _⟩
  · rw [hok.nosplice] at hx; cases hx
  · have hw1 := fetch_nosplice e cl hok.nosplice w w1 _ _ hf
    subst hw1
    rw [List.append_nil] at hf
    have hcmd : cmdOf (reqOf e s) p = s.cmd := by
      unfold cmdOf Spec.Sent.cmd; rw [hbytes]; rfl
    obtain ⟨cl', w', msgs, rs, h1, h2, h3, h4, h5⟩ := handleRequest_cow e cl w1 (reqOf e s) p hok hgen hb hs.fits.len hfit
      (fetch_piped e cl hok.nosplice _ _ _ _ _ _ hf) before hd (by rw [hcmd]; exact ht)
    rw [mainloop_push _ _ _ _ _ _ _ _ hf, h1]
    simp only [mainloop_nil]
    rw [hcmd] at h3 h5
    refine ⟨rs, ?_, rfl, h3, h4, h5⟩
    have := Run.cons_sent ⟨reqOf e s, p, msgs⟩ ⟨[], cl', w', .gone⟩ rs [] h2.wire rfl
    rw [List.append_nil] at this
    exact this

/-- A whole session in one stream. -/
theorem mainloop_cow (e : Endian) (ss : List Sent) : ∀ (cl : Client) (w : World) (before : List Spec.Cmd)
    (_ : ∀ s ∈ ss, s.Ok) (_ : CowOk cl w) (_ : Generous w) (_ : Backed cl.ex w)
    (_ : ∀ q, Dirty cl q → Spec.Written before q)
    (_ : ∀ pre c post, ss.map Sent.cmd = pre ++ c :: post → Spec.Tractable cl.structured (before ++ pre) c),
    ∃ rs, (mainloop e cl w (ss.map Sent.encode).flatten).sent = Spec.wire rs ∧
      (mainloop e cl w (ss.map Sent.encode).flatten).ending = .gone ∧
      Spec.SureRun cl.ex.exportsize (badWrite cl) cl.structured (cowView cl w) (ss.map Sent.cmd) rs
        (cowView (mainloop e cl w (ss.map Sent.encode).flatten).cl (mainloop e cl w (ss.map Sent.encode).flatten).w) := by
  induction ss with
  | nil =>
    intro cl w before _ _ _ _ _ _
    simp only [List.map_nil, List.flatten_nil, mainloop_nil]
    exact ⟨[], rfl, trivial, .nil _⟩
  | cons s rest ih =>
    intro cl w before hs hok hgen hb hd ht
    have ht0 : Spec.Tractable cl.structured before s.cmd := by
      have := ht [] s.cmd (rest.map Sent.cmd) (by simp)
      rwa [List.append_nil] at this
    simp only [List.map_cons, List.flatten_cons]
    rcases fetch_sent e cl w s (hs s (by simp)) (rest.map Sent.encode).flatten with ⟨_, _, hx⟩ | ⟨w1, p, hf, _, _, hfit, hbytes, _⟩
    · rw [hok.nosplice] at hx; cases hx
    · have hw1 := fetch_nosplice e cl hok.nosplice w w1 _ _ hf
      subst hw1
      have hcmd : cmdOf (reqOf e s) p = s.cmd := by
        unfold cmdOf Spec.Sent.cmd; rw [hbytes]; rfl
      obtain ⟨cl', w', msgs, rs, h1, h2, h3, h4, h5⟩ := handleRequest_cow e cl w1 (reqOf e s) p hok hgen hb
        (hs s (by simp)).fits.len hfit (fetch_piped e cl hok.nosplice _ _ _ _ _ _ hf) before hd (by rw [hcmd]; exact ht0)
      rw [mainloop_push _ _ _ _ _ _ _ _ hf, h1]
      rw [hcmd] at h3 h5
      simp only []
      obtain ⟨rs', i1, i2, i3⟩ := ih cl' w' (before ++ [s.cmd]) (fun s hm => hs s (by simp [hm])) h4.ok
        (hgen.of_orc h4.orc)
        (by
          rw [h4.seat.ex]
          exact hb.of_keptOff hok.own h4.kept)
        h5
        (by
          intro pre c post hpre
          rw [h4.seat.structured, List.append_assoc]
          exact ht ([s.cmd] ++ pre) c post (by simp [hpre]))
      have hbw : badWrite cl' = badWrite cl := by unfold badWrite; rw [h4.seat.ex]
      rw [h4.seat.ex, h4.seat.structured, hbw] at i3
      exact ⟨rs ++ rs', Run.cons_sent _ _ _ _ h2.wire i1, i2, .cons _ _ _ _ _ _ _ h3 i3⟩

/-! ### Several sessions -/

/-- Several server processes, each serving one client of the same export, taking turns: entry `(i, bs)` of the schedule
is "process `i` reads `bs` from its connection and handles it". The result lists what each turn sent. -/
def turns (e : Endian) : List (Nat × List Byte) → (Nat → Client) → World →
    List (Nat × List Byte) × (Nat → Client) × World
  | [], cls, w => ([], cls, w)
  | (i, bs) :: rest, cls, w =>
    let run := mainloop e (cls i) w bs
    let r := turns e rest (fun j => if j = i then run.cl else cls j) run.w
    ((i, run.sent) :: r.1, r.2)

/-- What was sent to client `i`, in order. -/
def sentTo (i : Nat) (out : List (Nat × List Byte)) : List Byte :=
  ((out.filter (fun x => x.1 == i)).map Prod.snd).flatten

theorem turns_keptOff (e : Endian) (sched : List (Nat × List Byte)) : ∀ (cls : Nat → Client) (w : World),
    (∀ i, has (cls i).ex.flags F_COPYONWRITE = true ∧ has (cls i).ex.flags F_SPLICE = false) →
    (∀ i, SameSeat (cls i) ((turns e sched cls w).2.1 i)) ∧
    ∀ id, (∀ x ∈ sched, id ≠ .fd (cls x.1).difffile) → (turns e sched cls w).2.2.files id = w.files id ∨
      ((∃ x ∈ sched, has (cls x.1).ex.flags F_TREEFILES = true) ∧ w.files id = none ∧
        ∃ f, (turns e sched cls w).2.2.files id = some f ∧ ∀ o, f.data o = 0) := by
  induction sched with
  | nil => intro cls w _; exact ⟨fun i => .refl _, fun id _ => .inl rfl⟩
  | cons x rest ih =>
    obtain ⟨i, bs⟩ := x
    intro cls w hc
    obtain ⟨hk, hseat⟩ := mainloop_keptOff e (cls i) (hc i).1 (hc i).2 w bs
    rw [turns]
    simp only []
    have hnew : ∀ j, SameSeat (cls j) (if j = i then (mainloop e (cls i) w bs).cl else cls j) := by
      intro j
      split
      · rename_i h; subst h; exact hseat
      · exact .refl _
    obtain ⟨h1, h2⟩ := ih (fun j => if j = i then (mainloop e (cls i) w bs).cl else cls j) (mainloop e (cls i) w bs).w
      (by intro j; simp only [(hnew j).ex]; exact hc j)
    refine ⟨fun j => (hnew j).trans (h1 j), ?_⟩
    intro id hid
    have hid0 := hid (i, bs) (by simp)
    have h2 := h2 id (by
      intro y hy
      rw [(hnew y.1).difffile]
      exact hid y (by simp [hy]))
    rcases hk id hid0 with a | ⟨a1, a2, f, a3, a4⟩
    · rcases h2 with b | ⟨⟨y, b1, b2⟩, b3, g, b4, b5⟩
      · exact .inl (b.trans a)
      · rw [(hnew y.1).ex] at b2
        exact .inr ⟨⟨y, by simp [b1], b2⟩, a ▸ b3, g, b4, b5⟩
    · rcases h2 with b | ⟨_, b3, _⟩
      · exact .inr ⟨⟨(i, bs), by simp, a1⟩, a2, f, b.trans a3, a4⟩
      · rw [a3] at b3; cases b3

/-- What another session's changes leave alone. -/
theorem CowOk.other {cl : Client} {d : Nat} {tree : Bool} {w w' : World} (hok : CowOk cl w) (hd : cl.difffile ≠ d)
    (hbase : ∀ a x, home cl.ex a = some x → x.1 ≠ .fd d) (hk : KeptOff d tree w w') :
    CowOk cl w' ∧ cowView cl w' = cowView cl w := by
  have hv : view cl.ex w' = view cl.ex w := by
    funext a
    unfold view
    split
    · split
      · rename_i x hx
        exact hk.content x (hbase a x hx)
      · rfl
    · rfl
  refine ⟨{ hok with file := ?_ }, ?_⟩
  · obtain ⟨f, h1, h2⟩ := hok.file
    refine ⟨f, ?_, h2⟩
    rcases hk (.fd cl.difffile) (by simpa using hd) with h | ⟨_, h, _⟩
    · rw [h]; exact h1
    · rw [h] at h1; cases h1
  · funext i
    unfold cowView
    rw [hv]
    split
    · split
      · split
        · exact hk.content _ (by simpa using hd)
        · rfl
      · rfl
    · rfl

theorem turns_cow (e : Endian) (sched : List (Nat × Sent)) : ∀ (cls : Nat → Client) (w : World)
    (before : Nat → List Spec.Cmd) (_ : ∀ x ∈ sched, x.2.Ok) (_ : ∀ i, CowOk (cls i) w) (_ : Generous w)
    (_ : ∀ i, Backed (cls i).ex w)
    (_ : ∀ i j, i ≠ j → (cls i).difffile ≠ (cls j).difffile)
    (_ : ∀ i j a x, home (cls i).ex a = some x → x.1 ≠ .fd (cls j).difffile)
    (_ : ∀ i q, Dirty (cls i) q → Spec.Written (before i) q)
    (_ : ∀ i pre c post, (sched.filter (fun x => x.1 == i)).map (fun x => x.2.cmd) = pre ++ c :: post →
      Spec.Tractable (cls i).structured (before i ++ pre) c),
    ∀ i, ∃ rs, sentTo i (turns e (sched.map (fun x => (x.1, x.2.encode))) cls w).1 = Spec.wire rs ∧
      Spec.SureRun (cls i).ex.exportsize (badWrite (cls i)) (cls i).structured (cowView (cls i) w)
        ((sched.filter (fun x => x.1 == i)).map (fun x => x.2.cmd)) rs
        (cowView ((turns e (sched.map (fun x => (x.1, x.2.encode))) cls w).2.1 i)
          (turns e (sched.map (fun x => (x.1, x.2.encode))) cls w).2.2) := by
  induction sched with
  | nil => intro cls w before _ _ _ _ _ _ _ _ i; exact ⟨[], rfl, .nil _⟩
  | cons x rest ih =>
    obtain ⟨k, s⟩ := x
    intro cls w before hs hok hgen hb hdist hbase hd ht i
    have htk : Spec.Tractable (cls k).structured (before k) s.cmd := by
      have := ht k [] s.cmd ((rest.filter (fun x => x.1 == k)).map (fun x => x.2.cmd)) (by simp)
      rwa [List.append_nil] at this
    obtain ⟨rs, h1, h2, h3, h4, h5⟩ := mainloop_cow_one e (cls k) w s (hs (k, s) (by simp)) (hok k) hgen (hb k)
      (before k) (hd k) htk
    rw [List.map_cons, turns]
    simp only []
    generalize hrun : mainloop e (cls k) w s.encode = run at *
    have hseat : ∀ j, SameSeat (cls j) (if j = k then run.cl else cls j) := by
      intro j; split
      · rename_i h; subst h; exact h4.seat
      · exact .refl _
    have hokv : ∀ j, j ≠ k → CowOk (cls j) run.w ∧ cowView (cls j) run.w = cowView (cls j) w := by
      intro j hj
      exact (hok j).other (hdist j k hj) (hbase j k) h4.kept
    obtain ⟨rs', i1, i2⟩ := ih (fun j => if j = k then run.cl else cls j) run.w
      (fun j => if j = k then before k ++ [s.cmd] else before j)
      (fun y hy => hs y (by simp [hy]))
      (by
        intro j
        by_cases hj : j = k
        · simp only [hj, if_true]; exact h4.ok
        · simp only [hj, if_false]; exact (hokv j hj).1)
      (hgen.of_orc h4.orc)
      (by
        intro j
        simp only [(hseat j).ex]
        intro a ha
        obtain ⟨id, o, f, b1, b2, b3⟩ := hb j a ha
        refine ⟨id, o, f, b1, ?_, b3⟩
        rcases h4.kept id (hbase j k a _ b1) with h | ⟨_, h, _⟩
        · rw [h]; exact b2
        · rw [h] at b2; cases b2)
      (by intro a b hab; simp only [(hseat a).difffile, (hseat b).difffile]; exact hdist a b hab)
      (by intro a b c y; simp only [(hseat a).ex, (hseat b).difffile]; exact hbase a b c y)
      (by
        intro j q
        by_cases hj : j = k
        · simp only [hj, if_true]; exact h5 q
        · simp only [hj, if_false]; exact hd j q)
      (by
        intro j pre c post hpre
        simp only [(hseat j).structured]
        by_cases hj : j = k
        · subst hj
          simp only [if_true]
          rw [List.append_assoc]
          exact ht j ([s.cmd] ++ pre) c post (by simp [hpre])
        · simp only [hj, if_false]
          refine ht j pre c post ?_
          rw [List.filter_cons, if_neg (by simpa using Ne.symm hj)]
          exact hpre)
      i
    simp only [(hseat i).ex, (hseat i).structured] at i2
    have hbw : badWrite (if i = k then run.cl else cls i) = badWrite (cls i) := by
      unfold badWrite; rw [(hseat i).ex]
    rw [hbw] at i2
    by_cases hik : i = k
    · subst hik
      refine ⟨rs ++ rs', ?_, ?_⟩
      · unfold sentTo at i1 ⊢
        simp only [List.filter_cons, beq_self_eq_true, if_true, List.map_cons, List.flatten_cons]
        rw [i1, h1]
        simp [Spec.wire]
      · simp only [List.filter_cons, beq_self_eq_true, if_true, List.map_cons]
        simp only [if_true] at i2
        exact .cons _ _ _ _ _ _ _ h3 i2
    · refine ⟨rs', ?_, ?_⟩
      · unfold sentTo at i1 ⊢
        rw [List.filter_cons, if_neg (by simpa using Ne.symm hik)]
        exact i1
      · simp only [hik, if_false] at i2
        rw [(hokv i hik).2] at i2
        rw [List.filter_cons, if_neg (by simpa using Ne.symm hik)]
        exact i2

end Nbd
