import Verif.SchedCowRun
import Verif.SchedCowKept
import Verif.SchedAny
import Verif.Props.Cow
import Verif.Props.Linear
import Verif.Props.Sched
/-!
# One thread and many threads: C77, and C11 and C12 with requests processed at the same time

* C77: with one worker thread a connection's requests are carried out one at a time in the order sent: `C77_plain_partial`,
  `C77_cow_partial`, `C77_any_partial`.
* C11 with any number of threads: `C11_parallel_partial`.
* C12: `C12_one_thread_partial`; false with two threads: `C12_false_parallel`.
-/

set_option autoImplicit false

namespace Nbd.Props

open Nbd.Spec

/-! ## C77 -/

/-- **C77** (partial: no `splice`, and requests that end in undefined behaviour or the end of the process are left out). An export of
one or more files served with one worker thread, every system call a step of its own, in every execution, whatever the client sends:

* the bytes sent so far are a beginning of the bytes that are sent when every request is dealt with before the next one is read;
* once the session is over, they are all of them, and the files are as they are then. -/
theorem C77_plain_partial (e : Endian) (cl : Client) (hcl : Flatfile cl) (lg : Bool) (w : World) (stream : List Byte) (pos : Nat)
    (sem : Option Nat) (file : List Byte) (tr : List (Nat × Ext)) (T : System World)
    (hx : Exec (fun _ => plainServer e cl lg) ⟨⟨w, sem, file⟩, [Session.fresh stream [w.errno] pos]⟩ tr T) :
    ∃ s, T.sessions = [s] ∧
      ((mainloop e cl w stream).ending = .gone ∨ (mainloop e cl w stream).ending = .disconnected →
        s.sock <+: (mainloop e cl w stream).sent) ∧
      (s.main = .over → s.sock = (mainloop e cl w stream).sent ∧ T.sh.st = (mainloop e cl w stream).w ∧
        (received 0 tr).map (fun j => (j.req, j.payload)) = (mainloop e cl w stream).handled.map (fun d => (d.req, d.payload))) := by
  obtain ⟨s, h1, h2, h3⟩ := Exec.one_mainloop e (fun _ => plainServer e cl lg) (fun w => (cl, w)) ⟨w, sem, file⟩ stream pos tr T
    (fun _ T _ stream => by
      show fetch e cl T.sh.st stream = _
      exact fetch_plain e cl hcl.splice T.sh.st stream)
    (fun _ _ _ _ => hcl.splice)
    (by
      intro ds st j _ hp
      show SameEnd _ ((requestP e cl lg st.errno j.req j.payload).run [] st) _
      rw [requestP_run e cl hcl lg st j.req j.payload hp]
      cases hr : handleRequest e cl st j.req j.payload with
      | ub => trivial
      | exit => trivial
      | val x =>
        obtain ⟨cl', w', ms⟩ := x
        exact ⟨by rw [handleRequest_record e cl cl' hcl.plain.paged st w' _ _ _ hr], rfl, rfl⟩)
    hx
  refine ⟨s, h1, h2, fun ho => ?_⟩
  obtain ⟨a, b, c⟩ := h3 ho
  exact ⟨a, congrArg Prod.snd b, c⟩

/-- **C77** for a copy-on-write export (partial as `C77_plain_partial`): every system call and every access to the page map is a
step of its own. The last part says what the session's page map is, too. -/
theorem C77_cow_partial (e : Endian) (cl : Client) (hcow : has cl.ex.flags F_COPYONWRITE = true)
    (hsp : has cl.ex.flags F_SPLICE = false) (hwait : cl.waiting = false) (lg : Bool) (w : World) (mem : Nat → Client)
    (hmem : mem 0 = cl) (stream : List Byte) (pos : Nat)
    (sem : Option Nat) (file : List Byte) (tr : List (Nat × Ext)) (T : System Mem)
    (hx : Exec (fun _ => cowServer e cl 0 lg) ⟨⟨(mem, w), sem, file⟩, [Session.fresh stream [w.errno] pos]⟩ tr T) :
    ∃ s, T.sessions = [s] ∧
      ((mainloop e cl w stream).ending = .gone ∨ (mainloop e cl w stream).ending = .disconnected →
        s.sock <+: (mainloop e cl w stream).sent) ∧
      (s.main = .over → s.sock = (mainloop e cl w stream).sent ∧ T.sh.st.2 = (mainloop e cl w stream).w ∧
        T.sh.st.1 0 = (mainloop e cl w stream).cl ∧
        (received 0 tr).map (fun j => (j.req, j.payload)) = (mainloop e cl w stream).handled.map (fun d => (d.req, d.payload))) := by
  have hcl : CowSeat cl := ⟨hcow, hsp, hwait⟩
  have hrun : ∀ (s : Mem) (r : Req) (p : Payload), SameSeat cl (s.1 0) → (r.type % 65536 = CMD_WRITE → ∃ bs, p = .data bs) →
      (cowP e cl 0 lg s.2.errno r p).run [] s =
        match handleRequest e (s.1 0) s.2 r p with
        | .ub => .ub
        | .exit => .exit
        | .val (cl', w', msgs) => .val (s.both 0 cl' w', msgs, w'.errno) :=
    fun s r p hs hp => cowP_run e cl hcl 0 lg s hs r p hp
  -- the settings never change
  have hseat : ∀ ds st en, Serial (cowServer e cl 0 lg) (mem, w) w.errno ds st en → SameSeat cl (st.1 0) := by
    intro ds st en h
    induction h with
    | nil => show SameSeat cl (mem 0); rw [hmem]; exact .refl _
    | snoc ds st st' en en' j ms h hr ih =>
      -- the memory is one thing `Only` tells about every step
      have honly := cowP_only e cl 0 lg en j.req j.payload
      have hgo : ∀ (p : Prog Mem) (acc : List Msg) (s s' : Mem) (ms : List Msg) (en : Nat), p.Only (Seated cl 0) (OwnOnly cl 0) →
          Seated cl 0 s → p.run acc s = .val (s', ms, en) → Seated cl 0 s' := by
        intro p
        induction p with
        | done en => intro acc s s' ms en' _ hs h; rw [Prog.run] at h; cases h; exact hs
        | op f k ihp =>
          intro acc s s' ms en' ho hs h
          rw [Prog.run] at h
          split at h
          · cases h
          · cases h
          · rename_i s1 a hf
            exact ihp a acc s1 s' ms en' (ho.2 a) (SameSeat.trans hs (ho.1 _ _ _ hs hf).2.2) h
        | send m k ihp => intro acc s s' ms en' ho hs h; rw [Prog.run] at h; exact ihp _ _ _ _ _ ho hs h
        | log bs k ihp => intro acc s s' ms en' ho hs h; rw [Prog.run] at h; exact ihp _ _ _ _ _ ho hs h
      exact hgo _ _ _ _ _ _ honly ih hr
  obtain ⟨s, h1, h2, h3⟩ := Exec.one_mainloop e (fun _ => cowServer e cl 0 lg) (fun s => (s.1 0, s.2)) ⟨(mem, w), sem, file⟩ stream pos tr T
    (fun _ T _ stream => by
      show (match fetch e cl T.sh.st.2 stream with
        | .ub => Out.ub
        | .exit => .exit
        | .val (w, f) => .val ((T.sh.st.1, w), f)) = _
      rw [fetch_plain e cl hsp]
      cases fetchPlain e stream <;> rfl)
    (by
      intro ds st en h
      show has (st.1 0).ex.flags F_SPLICE = false
      rw [(hseat ds st en h).ex]; exact hsp)
    (by
      intro ds st j h hp
      show SameEnd _ ((cowP e cl 0 lg st.2.errno j.req j.payload).run [] st) _
      rw [hrun st j.req j.payload (hseat ds st _ h) hp]
      show SameEnd _ _ (handleRequest e (st.1 0) st.2 j.req j.payload)
      cases handleRequest e (st.1 0) st.2 j.req j.payload with
      | ub => trivial
      | exit => trivial
      | val x =>
        refine ⟨?_, rfl, rfl⟩
        show ((st.both 0 x.1 x.2.1).1 0, x.2.1) = _
        rw [Mem.both_at])
    hx
  simp only [hmem] at h2 h3
  refine ⟨s, h1, h2, fun ho => ?_⟩
  obtain ⟨a, b, c⟩ := h3 ho
  exact ⟨a, congrArg Prod.snd b, congrArg Prod.fst b, c⟩

/-- **C77** for an export of any kind - tree, awaited file, copy-on-write (partial as `C77_plain_partial`); here each
request's work on the files is one step. -/
theorem C77_any_partial (e : Endian) (cl : Client) (hsp : has cl.ex.flags F_SPLICE = false) (settings : Client) (lg : Bool) (w : World)
    (stream : List Byte) (pos : Nat) (sem : Option Nat) (file : List Byte) (tr : List (Nat × Ext)) (T : System (Client × World))
    (hx : Exec (fun _ => anyServer e settings lg) ⟨⟨(cl, w), sem, file⟩, [Session.fresh stream [w.errno] pos]⟩ tr T) :
    ∃ s, T.sessions = [s] ∧
      ((mainloop e cl w stream).ending = .gone ∨ (mainloop e cl w stream).ending = .disconnected →
        s.sock <+: (mainloop e cl w stream).sent) ∧
      (s.main = .over → s.sock = (mainloop e cl w stream).sent ∧
        T.sh.st = ((mainloop e cl w stream).cl, (mainloop e cl w stream).w) ∧
        (received 0 tr).map (fun j => (j.req, j.payload)) = (mainloop e cl w stream).handled.map (fun d => (d.req, d.payload))) := by
  refine Exec.one_mainloop e (fun _ => anyServer e settings lg) id ⟨(cl, w), sem, file⟩ stream pos tr T ?_ ?_ ?_ hx
  · intro tr T hx stream
    have h := (Exec.anySeat e settings lg cl hsp w _ pos sem file tr T _ hx).1
    show (match fetch e T.sh.st.1 T.sh.st.2 stream with
        | .ub => Out.ub
        | .exit => .exit
        | .val (w, f) => .val ((T.sh.st.1, w), f)) = _
    rw [fetch_plain e _ (by rw [h.ex]; exact hsp)]
    cases fetchPlain e stream <;> rfl
  · intro ds st en h
    have : SameSeat cl st.1 := by
      induction h with
      | nil => exact .refl _
      | snoc ds st st' en en' j ms h hr ih =>
        have hr : (wholeP e lg en j.req j.payload).run [] st = .val (st', ms, en') := hr
        rw [wholeP_run] at hr
        split at hr
        · cases hr
        · cases hr
        · rename_i cl' w' ms' hq
          cases hr
          exact ih.trans (handleRequest_seat _ _ _ _ _ _ _ _ hq)
    show has st.1.ex.flags F_SPLICE = false
    rw [this.ex]; exact hsp
  · intro ds st j _ _
    show SameEnd id ((wholeP e lg st.2.errno j.req j.payload).run [] st) (handleRequest e st.1 st.2 j.req j.payload)
    rw [wholeP_run]
    show SameEnd id (match handleRequest e st.1 st.2 j.req j.payload with
      | .ub => Out.ub
      | .exit => .exit
      | .val (cl', w', msgs) => .val ((cl', w'), msgs, w'.errno)) (handleRequest e st.1 st.2 j.req j.payload)
    cases handleRequest e st.1 st.2 j.req j.payload with
    | ub => trivial
    | exit => trivial
    | val x => exact ⟨rfl, rfl, rfl⟩

/-! ## C11 -/

/-- **C11** with requests processed at the same time (partial as `C11_partial`). Any number of copy-on-write sessions, each with any
number of worker threads, every system call and every access to a page map a step of its own. In every execution, whatever the
clients send:

* a file that is not the diff file of a session keeps exactly its contents, size and history (files of a tree export that
  did not exist may appear, filled with zeroes);
* the original bytes of every export are unchanged, so that a session that begins afterwards starts from them;
* what a client with a session that is not being served sees is unchanged. -/
theorem C11_parallel_partial (e : Endian) (cls : Nat → Client) (lgs : Nat → Bool) (w : World) (sem : Option Nat) (file : List Byte)
    (sessions : List (Session Mem)) (hf : ∀ s ∈ sessions, s.Fresh) (tr : List (Nat × Ext)) (T : System Mem)
    (hsp : ∀ i, has (cls i).ex.flags F_SPLICE = false)
    (hx : Exec (fun i => cowServer e (cls i) i (lgs i)) ⟨⟨(cls, w), sem, file⟩, sessions⟩ tr T) :
    (∀ id f, (∀ i, i < sessions.length → id ≠ .fd (cls i).difffile) → w.files id = some f → T.sh.st.2.files id = some f) ∧
    (∀ ex : Export, (∀ i, i < sessions.length → ∀ a x, home ex a = some x → x.1 ≠ .fd (cls i).difffile) →
      original ex T.sh.st.2 = original ex w ∧
      ∀ cl, CowExport ex → FreshCow ex cl T.sh.st.2 → (∀ a x, home ex a = some x → x.1 ≠ .fd cl.difffile) →
        cowView cl T.sh.st.2 = original ex w) ∧
    (∀ i, sessions.length ≤ i → (∀ j, j < sessions.length → (cls j).difffile ≠ (cls i).difffile) →
      (∀ j, j < sessions.length → ∀ a x, home (cls i).ex a = some x → x.1 ≠ .fd (cls j).difffile) →
      T.sh.st.1 i = cls i ∧ cowView (cls i) T.sh.st.2 = cowView (cls i) w) := by
  obtain ⟨_, _, hrec, hk, _⟩ := hx.cowKept e cls lgs _ T tr hsp (fun _ => .refl _) hf
  have hcontent : ∀ x : FileId × Nat, (∀ i, i < sessions.length → x.1 ≠ .fd (cls i).difffile) →
      content T.sh.st.2 x = content w x := by
    intro x hx
    unfold content
    rcases hk x.1 hx with h | ⟨_, h, f, h2, h3⟩
    · rw [h]
    · have h : w.files x.1 = none := h
      rw [h, h2]; exact h3 _
  have hview : ∀ ex : Export, (∀ i, i < sessions.length → ∀ a x, home ex a = some x → x.1 ≠ .fd (cls i).difffile) →
      view ex T.sh.st.2 = view ex w := by
    intro ex hex
    funext a
    unfold view
    split
    · split
      · rename_i x hx
        exact hcontent x (fun i hi => hex i hi a x hx)
      · rfl
    · rfl
  refine ⟨?_, ?_, ?_⟩
  · intro id f hid hf
    rcases hk id hid with h | ⟨_, h, _⟩
    · rw [h]; exact hf
    · have h : w.files id = none := h
      rw [h] at hf; cases hf
  · intro ex hex
    refine ⟨hview ex hex, ?_⟩
    intro cl hx hfr hown
    rw [(fresh_ok hfr hx hown).2.1]
    exact hview ex hex
  · intro i hi hne hbase
    refine ⟨hrec i hi, ?_⟩
    funext a
    unfold cowView
    rw [hview (cls i).ex hbase]
    split
    · split
      · split
        · refine hcontent _ ?_
          intro j hj h
          exact hne j hj (by simpa using h.symm)
        · rfl
      · rfl
    · rfl

/-! ## C12 -/

/-- **C12** with one worker thread (partial as `C12_one_partial`): in every execution what the client has been sent so far is a
beginning of the replies `SureRun` describes, which are those of a disk of its own that started with the original bytes; once the
session is over it is all of them. -/
theorem C12_one_thread_partial (e : Endian) (ex : Export) (hx : CowExport ex) (cl : Client) (w : World) (hfresh : FreshCow ex cl w)
    (hown : ∀ a x, home ex a = some x → x.1 ≠ .fd cl.difffile) (hb : Backed ex w) (hgen : NeverFails w)
    (ss : List Sent) (hs : ∀ s ∈ ss, s.Ok) (ht : AllTractable cl.structured (ss.map Sent.cmd))
    (lg : Bool) (mem : Nat → Client) (hmem : mem 0 = cl) (pos : Nat) (sem : Option Nat) (file : List Byte)
    (tr : List (Nat × Ext)) (T : System Mem)
    (hexec : Exec (fun _ => cowServer e cl 0 lg)
      ⟨⟨(mem, w), sem, file⟩, [Session.fresh (ss.map Sent.encode).flatten [w.errno] pos]⟩ tr T) :
    ∃ rs g s, T.sessions = [s] ∧ s.sock <+: wire rs ∧ (s.main = .over → s.sock = wire rs) ∧
      SureRun ex.exportsize (has ex.flags F_READONLY || has ex.flags F_AUTOREADONLY) cl.structured (original ex w)
        (ss.map Sent.cmd) rs g := by
  obtain ⟨rs, g, h1, h2, h3⟩ := C12_one_partial e ex hx cl w hfresh hown hb hgen ss hs ht
  obtain ⟨s, k1, k2, k3⟩ := C77_cow_partial e cl (by rw [hfresh.serves]; exact hx.cow) (by rw [hfresh.serves]; exact hx.nosplice)
    hfresh.waiting lg w mem hmem _ pos sem file tr T hexec
  exact ⟨rs, g, s, k1, by rw [← h1]; exact k2 (Or.inl h2), fun h => by rw [← h1]; exact (k3 h).1, h3⟩

/-- Two writes of one block each, and two reads. -/
def swapStream : List Byte :=
  (Demo.write 0 (List.replicate 4096 7)).encode ++ (Demo.write 4096 (List.replicate 4096 8)).encode ++
  (Demo.request 0 0 4).encode ++ (Demo.request 0 4096 4).encode

/-- One session with two threads. -/
def swapSys : System Mem := ⟨⟨(cowClient false, cowWorld), none, []⟩, [Session.fresh swapStream [0, 0] 0]⟩

/-- The first thread is about to write the new block to the diff file when the second gets to run. -/
def swapTurns : List (Nat × Move) :=
  [(0, .main), (0, .main)] ++ List.replicate 5 (0, .work 0 9999) ++ List.replicate 6 (0, .work 1 9999) ++
  List.replicate 9 (0, .work 0 9999) ++ List.replicate 9 (0, .work 1 9999) ++ [(0, .main), (0, .main)] ++
  List.replicate 25 (0, .work 0 9999)

/-- **C12** is false when a session has more than one thread: a client writes 7s to one block and 8s to the next; both writes are
acknowledged; then it reads 8s from the first block and 7s from the second. (`expwrite` moves `difffilelen` on, and `lseek`s, without a lock.) -/
theorem C12_false_parallel : ∃ tr T, Exec (fun i => cowServer .little (cowClient false i) i false) swapSys tr T ∧
    (tr.map shown == [(0, 0, []), (0, 1, []),
      (0, 0, (Reply.simple 0 Demo.cookie []).encode),
      (0, 1, (Reply.simple 0 Demo.cookie []).encode),
      (0, 2, []), (0, 3, []),
      (0, 2, (Reply.simple 0 Demo.cookie [8, 8, 8, 8]).encode),
      (0, 3, (Reply.simple 0 Demo.cookie [7, 7, 7, 7]).encode)]) = true :=
  System.play_check _ _ swapTurns _ (by decide +kernel)

/-! ### Examples -/

/-- Is the first session over, having sent these bytes? -/
def overWith {σ : Type} (bs : List Byte) (T : System σ) : Bool :=
  match T.sessions with
  | s :: _ => (match s.main with | .over => true | _ => false) && s.sock == bs
  | [] => false

/-- One thread, two requests that arrive before the thread begins; the client then closes the connection. -/
def oneTurns : List (Nat × Move) :=
  [(0, .main), (0, .main)] ++ List.replicate 40 (0, .work 0 9999) ++ List.replicate 4 (0, .main)

-- An execution as in C77_plain_partial that comes to an end: the read that was sent after the write shows it.
example : ∃ tr T, Exec (fun _ => plainServer .little (Demo.client false) false)
    ⟨⟨Demo.world, none, []⟩,
      [Session.fresh ((Demo.write 0 [20, 21, 22, 23]).encode ++ (Demo.request 0 0 6).encode) [0] 0]⟩ tr T ∧
    overWith ((Reply.simple 0 Demo.cookie []).encode ++ (Reply.simple 0 Demo.cookie [20, 21, 22, 23, 5, 1]).encode) T = true :=
  System.play_check _ _ oneTurns _ (by decide +kernel)

-- The same for C77_cow_partial and C12_one_thread_partial.
example : ∃ tr T, Exec (fun _ => cowServer .little (cowClient false 0) 0 false)
    ⟨⟨(cowClient false, cowWorld), none, []⟩,
      [Session.fresh ([Demo.write 4096 [7], Demo.request 0 4095 2].map Sent.encode).flatten [cowWorld.errno] 0]⟩ tr T ∧
    overWith ((Reply.simple 0 Demo.cookie []).encode ++ (Reply.simple 0 Demo.cookie [80, 7]).encode) T = true :=
  System.play_check _ _ oneTurns _ (by decide +kernel)

-- And for C77_any_partial.
example : ∃ tr T, Exec (fun _ => anyServer .little (cowClient false 0) false)
    ⟨⟨(cowClient false 0, cowWorld), none, []⟩,
      [Session.fresh ([Demo.write 4096 [7], Demo.request 0 4095 2].map Sent.encode).flatten [0] 0]⟩ tr T ∧
    overWith ((Reply.simple 0 Demo.cookie []).encode ++ (Reply.simple 0 Demo.cookie [80, 7]).encode) T = true :=
  System.play_check _ _ oneTurns _ (by decide +kernel)

-- The hypotheses of C12_one_thread_partial are met by that client.
example (e : Endian) (tr : List (Nat × Ext)) (T : System Mem)
    (h : Exec (fun _ => cowServer e (cowClient false 0) 0 false)
      ⟨⟨(cowClient false, cowWorld), none, []⟩,
        [Session.fresh ([Demo.write 4096 [7], Demo.request 0 4095 2].map Sent.encode).flatten [cowWorld.errno] 0]⟩ tr T) :=
  C12_one_thread_partial e cowEx cowEx_ok (cowClient false 0) cowWorld (cowClient_fresh false 0)
    (fun a x h => (cowClient_own false).2 0 a x h) cowEx_backed cowWorld_fine [Demo.write 4096 [7], Demo.request 0 4095 2]
    (by
      intro s hs
      simp only [List.mem_cons, List.not_mem_nil, or_false] at hs
      rcases hs with rfl | rfl
      · exact cowSched_ok (0, Demo.write 4096 [7]) (by simp [cowSched])
      · exact cowSched_ok (0, Demo.request 0 4095 2) (by simp [cowSched]))
    (cowSched_tractable 0) false _ rfl 0 none [] tr T h

-- Two threads that mix up the blocks of their own session leave the exported file alone.
example (tr : List (Nat × Ext)) (T : System Mem) (h : Exec (fun i => cowServer .little (cowClient false i) i false) swapSys tr T) :
    original cowEx T.sh.st.2 = original cowEx cowWorld :=
  ((C11_parallel_partial .little (cowClient false) (fun _ => false) cowWorld none [] [Session.fresh swapStream [0, 0] 0]
    (fun s hs => by rw [List.mem_singleton] at hs; subst hs; exact ⟨_, _, _, rfl⟩) tr T
    (fun _ => (by decide : has cowEx.flags F_SPLICE = false)) h).2.1 cowEx (fun i _ => (cowClient_own false).2 i)).1

end Nbd.Props
