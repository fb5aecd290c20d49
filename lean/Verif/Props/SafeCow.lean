import Verif.SafeCow
import Verif.Props.CowAny
import Verif.Props.FirstByte
/-! # C53, C04, C05, C99 for copy-on-write exports -/
set_option autoImplicit false

namespace Nbd.Spec
open Nbd

/-- A new session on a copy-on-write export: a page map without entries, a diff file that is none of the export's files, and an
export of whole blocks whose files are there. The kernel may fail and transfer less than asked for, but does not report an end of
file before the end. Nothing is asked of the size, and the diff file may be of either layout (`sparse_cow`). -/
structure ServesCow (cl : Client) (w : World) : Prop where
  good : GoodExport cl.ex
  cow : has cl.ex.flags F_COPYONWRITE = true
  nosplice : has cl.ex.flags F_SPLICE = false
  waiting : cl.waiting = false
  whole : cl.ex.exportsize % 4096 = 0
  map : cl.difmap = List.replicate (cl.ex.exportsize / 4096) 4294967295
  own : ∀ a x, home cl.ex a = some x → x.1 ≠ .fd cl.difffile
  there : Backed cl.ex w
  eof : NoEarlyEof w

end Nbd.Spec

namespace Nbd.Props
open Nbd Nbd.Spec

theorem servesCow_safe {cl : Client} {w : World} (h : ServesCow cl w) : CowSafe cl w :=
  ⟨h.good, h.cow, h.nosplice, h.waiting, h.whole, by rw [h.map, List.length_replicate], h.own, h.there, h.eof⟩

theorem servesCow_clean {cl : Client} {w : World} (h : ServesCow cl w) (q : Nat) : ¬ Dirty cl q := by
  rintro ⟨m, hm, hne⟩
  rw [h.map, List.getElem?_replicate] at hm
  split at hm
  · cases hm; exact hne rfl
  · cases hm

/-- `commandsIn` finds the requests that were sent. -/
theorem commandsIn_sent (ss : List Sent) (hok : ∀ s ∈ ss, s.Ok) (tail : List Byte)
    (htail : tail.length < 28 ∨ ∃ (r : Request) (junk : List Byte), r.Fits ∧ r.magic = 0x25609513 ∧
      r.type = 2 ∧ tail = r.encode ++ junk) :
    commandsIn (ss.flatMap Sent.encode ++ tail) = ss.map Sent.cmd := by
  induction ss with
  | nil =>
    simp only [List.flatMap_nil, List.nil_append, List.map_nil]
    rw [commandsIn]
    rcases htail with h | ⟨r, junk, hf, hm, ht, rfl⟩
    · rw [dif_pos h]
    · have hl : r.encode.length = 28 := by simp [Request.encode, hf.cookie]
      rw [dif_neg (by simp [hl])]
      have : (r.encode ++ junk).take 28 = r.encode := by rw [← hl, List.take_left]
      simp only []
      rw [this, Request.decode_encode r hf, if_pos (.inr (.inl ht))]
  | cons s ss ih =>
    have hs := hok s List.mem_cons_self
    have hl := Sent.encode_length s hs
    rw [List.flatMap_cons, List.append_assoc, commandsIn, dif_neg (by simp [Sent.encode, hl])]
    simp only [Sent.encode, List.append_assoc]
    have h1 : ∀ x : List Byte, (s.req.encode ++ x).take 28 = s.req.encode := fun x => by rw [← hl, List.take_left]
    have h2 : ∀ x : List Byte, (s.req.encode ++ x).drop 28 = x := fun x => by rw [← hl, List.drop_left]
    rw [h1, h2, Request.decode_encode s.req hs.fits, ← hs.data, List.take_left, List.drop_left, if_neg]
    · rw [ih (fun x hx => hok x (List.mem_cons_of_mem _ hx))]; rfl
    · rintro (h | h | h)
      · exact h hs.magic
      · exact hs.notDisc h
      · rw [List.length_append] at h; omega

/-- **C53** for copy-on-write (partial: commands that are `Gentle`; the others are the subject of `C12_false_read`,
`C12_false_structured` and `C12_false_empty`, and exports that end in a part of a block of `C12_false_odd`). Whatever bytes a client sends - requests of any
kind, outside the export, incomplete ones, junk -, and whichever reads, writes and syncs fail or are cut short, those on the diff
file included: the process does not run into undefined behaviour, and the session ends because the client disconnects, goes away
or sends a wrong magic number. -/
theorem C53_cow_partial (e : Endian) (cl : Client) (w : World) (h : ServesCow cl w) (stream : List Byte)
    (hg : AllGentle cl.ex.exportsize cl.structured (commandsIn stream)) :
    (mainloop e cl w stream).ending = .gone ∨ (mainloop e cl w stream).ending = .disconnected :=
  mainloop_gentle e cl w stream [] (servesCow_safe h) (fun q hq => absurd hq (servesCow_clean h q))
    (fun pre c post hp => hg pre c post hp)

/-- **C04, C05** for copy-on-write (partial: as above). Every well-formed request sent is carried out, in order and with its own
payload, and answered by exactly one complete reply, also when the store fails. -/
theorem C04_C05_cow_partial (e : Endian) (cl : Client) (w : World) (h : ServesCow cl w) (ss : List Sent)
    (hok : ∀ s ∈ ss, s.Ok) (hg : AllGentle cl.ex.exportsize cl.structured (ss.map Sent.cmd)) (tail : List Byte)
    (htail : tail.length < 28 ∨ ∃ (r : Request) (junk : List Byte), r.Fits ∧ r.magic = 0x25609513 ∧
      r.type = 2 ∧ tail = r.encode ++ junk) :
    let run := mainloop e cl w (ss.flatMap Sent.encode ++ tail)
    ∃ rs, run.handled.map Done.sent = ss.map Sent.fields ∧
      run.sent = wire rs ∧ Answers (ss.map (fun s => s.req.cookie)) rs := by
  obtain ⟨k, rs, h1, h2, h3, h4, h5⟩ := C04_C05_session e cl w ss hok tail htail
  have hsafe := C53_cow_partial e cl w h (ss.flatMap Sent.encode ++ tail)
    (by rw [commandsIn_sent ss hok tail htail]; exact hg)
  have hk : k = ss.length := by
    by_cases hlt : k < ss.length
    · rcases h5 hlt with h | h <;> rw [h] at hsafe <;> simp at hsafe
    · omega
  subst hk
  rw [List.take_length] at h2 h4
  exact ⟨rs, h2, h3, h4⟩

/-! ### A session on which every third call fails -/

theorem cowFlaky_serves (s : Bool) : ServesCow (cowClient s 0) cowFlaky where
  good := cowEx_ok.good
  cow := by show has cowEx.flags _ = true; decide
  nosplice := by show has cowEx.flags _ = false; decide
  waiting := rfl
  whole := by show cowEx.exportsize % 4096 = 0; decide
  map := by show [_, _] = List.replicate (8192 / 4096) _; rfl
  own := (cowClient_own s).2 0
  there := cowEx_backed
  eof := cowFlaky_eof

/-- It writes across the boundary of the two blocks, syncs, reads both blocks and more, clears 100 bytes, reads the second block
back, writes nothing outside the export, and stops in the middle of a request. -/
def gentleSent : List Sent :=
  [Demo.write 4090 [1, 2, 3, 4, 5, 6, 7, 8], Demo.request 3 0 0, Demo.request 0 4000 5000,
   Demo.request 6 5000 100, Demo.request 0 4096 4096, Demo.write 9000 []]

theorem gentleSent_ok : ∀ s ∈ gentleSent, s.Ok := by
  intro x hx
  simp only [gentleSent, List.mem_cons, List.not_mem_nil, or_false] at hx
  rcases hx with rfl | rfl | rfl | rfl | rfl | rfl
  all_goals exact ⟨⟨by decide, by decide, by decide, by decide, by decide⟩, rfl, by decide, by decide⟩

theorem gentleSent_gentle (s : Bool) : AllGentle 8192 s (gentleSent.map Sent.cmd) := by
  intro before c after h
  have other : ∀ (c : Cmd) (bs : List Cmd), c.code ≠ 0 → (c.code = 1 → c.start + c.len ≤ 8192 → 0 < c.len) → Gentle 8192 s bs c := by
    intro c bs h0 h1
    exact ⟨fun h => h.elim (fun h => absurd h h0) h1, fun h => absurd h h0⟩
  match before, h with
  | [], h => cases h; exact other _ _ (by decide) (by decide)
  | [_], h => cases h; exact other _ _ (by decide) (by decide)
  | [_, _], h => cases h; exact ⟨by decide, fun _ h => absurd h (by decide)⟩
  | [_, _, _], h => cases h; exact other _ _ (by decide) (by decide)
  | [_, _, _, _], h =>
    cases h
    refine ⟨by decide, fun _ _ q hq _ => ?_⟩
    obtain ⟨_, h1, h2⟩ := hq
    have h1 : 4096 / 4096 ≤ q := h1
    have h2 : q ≤ (4096 + 4096 - 1) / 4096 := h2
    refine ⟨?_, fun _ => ?_⟩
    · show q = (4096 + 4096 - 1) / 4096
      omega
    · show q = 4096 / 4096
      omega
  | [_, _, _, _, _], h => cases h; exact other _ _ (by decide) (by decide)
  | _ :: _ :: _ :: _ :: _ :: _ :: z, h =>
    have := congrArg List.length h
    simp [gentleSent] at this

-- The hypotheses of C53 and of C04, C05 are met, and whatever fails there are six replies.
example (e : Endian) (s : Bool) :
    let run := mainloop e (cowClient s 0) cowFlaky (gentleSent.flatMap Sent.encode ++ [0x25, 0x60])
    (run.ending = .gone ∨ run.ending = .disconnected) ∧
    ∃ rs, run.sent = wire rs ∧ Answers (gentleSent.map (fun s => s.req.cookie)) rs := by
  refine ⟨C53_cow_partial e _ _ (cowFlaky_serves s) _ ?_, ?_⟩
  · rw [commandsIn_sent _ gentleSent_ok _ (.inl (by decide))]; exact gentleSent_gentle s
  · obtain ⟨rs, _, h⟩ := C04_C05_cow_partial e _ _ (cowFlaky_serves s) gentleSent gentleSent_ok (gentleSent_gentle s)
      [0x25, 0x60] (.inl (by decide))
    exact ⟨rs, h⟩

/-! ### C99 -/

/-- **C99** with copy-on-write exports among those on offer (partial: as `C99_first_byte_partial`, and as `C53_cow_partial` for
the session on such an export: a new diff file, whole blocks, files that are there, and gentle requests). Whatever bytes a client
sends from the moment it is connected, in the clear and inside TLS: the process that serves it does not run into undefined
behaviour. -/
theorem C99_cow_partial (e : Endian) (env : NEnv) (cf : NConf) (n : Nat) (svs : List SrvExport) (nz : Bool)
    (inp : List Byte) (tlsIn : Option (List Byte)) (hi : inp.length < 2 ^ 32 - 1)
    (ht : ∀ i, tlsIn = some i → i.length < 2 ^ 32 - 1) (hn : ∀ sv ∈ svs, sv.name.length ≤ 1020)
    (ha : ∀ sv, (env.attempt 0 sv).acl ≠ none)
    (hc : cf.dontfork = true ∨ (session e env cf n svs nz inp tlsIn).2.commits ≤ 1)
    (hr : ∀ sv ∈ svs, has sv.flags F_WAIT = false ∧
      (has sv.flags F_COPYONWRITE = true ∨ tlsIn ≠ none → has sv.flags F_SPLICE = false)) (d : Nat) (w : World)
    (hcow : ∀ s cl, session e env cf n svs nz inp tlsIn = (.serving, s) → s.client d = some cl →
      has cl.ex.flags F_COPYONWRITE = true →
      GoodExport cl.ex ∧ cl.ex.exportsize % 4096 = 0 ∧ (∀ a x, home cl.ex a = some x → x.1 ≠ .fd d) ∧
      Backed cl.ex w ∧ NoEarlyEof w ∧ AllGentle cl.ex.exportsize cl.structured (commandsIn s.inp)) :
    ¬ Crashes e env cf n svs nz inp tlsIn d w := by
  rintro (h | ⟨s, cl, h1, h2, h3⟩)
  · exact C31_no_ub_partial e env cf n svs nz inp tlsIn hi ht hn ha hc h
  · obtain ⟨sv, hsv, ⟨flags, expected, name, probes, hset, hfl⟩, hex, hw, htls⟩ := session_client h1 h2
    obtain ⟨hwait, hspl⟩ := hr sv hsv
    have hw' : cl.waiting = false := by rw [hw, has_marked hex (by decide) (by decide)]; exact hwait
    cases hcw : has cl.ex.flags F_COPYONWRITE with
    | true =>
      obtain ⟨k1, k2, k3, k4, k5, k6⟩ := hcow s cl h1 h2 hcw
      have hd : cl.difffile = d ∧ cl.difmap = List.replicate (cl.ex.exportsize / 4096) 4294967295 := by
        unfold NState.client at h2
        cases hx : s.ex with
        | none => rw [hx] at h2; cases h2
        | some ex => rw [hx] at h2; cases h2; exact ⟨rfl, rfl⟩
      have := C53_cow_partial e cl w ⟨k1, hcw, by
        rw [has_marked hex (by decide) (by decide)]
        refine hspl (.inl ?_)
        rwa [has_marked hex (by decide) (by decide)] at hcw, hw', k2, hd.2, by rw [hd.1]; exact k3, k4, k5⟩ s.inp k6
      rw [h3] at this
      simp at this
    | false =>
      have := C53_every_layout_partial e cl w ⟨⟨flags, expected, name, probes, hset,
        by rw [has_marked hfl (by decide) (by decide)]; exact hwait⟩, hcw, hw'⟩ (by
        by_cases hk : tlsIn = none
        · left
          subst hk
          have := (session_clear e env cf n svs nz inp).1
          rw [h1] at this
          rw [htls]; exact this
        · right
          rw [has_marked hex (by decide) (by decide)]; exact hspl (.inr hk)) s.inp
      rw [h3] at this
      simp at this

/-- A client of `nbd-server 10809 /x -c` that asks for the export and sends the requests above. -/
def gentleTalk : List Byte := toBE 4 3 ++ optRequest 7 (infoData [] []) ++ gentleSent.flatMap Sent.encode

/-- The hypotheses are met, and the client is served. -/
example : ¬ Crashes .little cowEnv NDemo.cf 9 [offered 0 cowSrv] false gentleTalk none 9 cowFlaky ∧
    (session .little cowEnv NDemo.cf 9 [offered 0 cowSrv] false gentleTalk none).1 = .serving := by
  have hs : (session .little cowEnv NDemo.cf 9 [offered 0 cowSrv] false gentleTalk none).1 = .serving := by decide +kernel
  refine ⟨C99_cow_partial .little cowEnv NDemo.cf 9 _ false gentleTalk none (by decide +kernel) (by simp) ?_
    (fun _ h => (by cases h)) (.inr (by decide +kernel)) ?_ 9 cowFlaky ?_, hs⟩
  · intro sv h
    simp only [List.mem_singleton] at h
    subst h
    decide
  · intro sv h
    simp only [List.mem_singleton] at h
    subst h
    exact ⟨by decide, fun _ => by decide⟩
  · intro s cl h1 h2 _
    have hcl : (session .little cowEnv NDemo.cf 9 [offered 0 cowSrv] false gentleTalk none).2.client 9 =
      some (cowClient false 0) := by decide +kernel
    have hin : (session .little cowEnv NDemo.cf 9 [offered 0 cowSrv] false gentleTalk none).2.inp =
      gentleSent.flatMap Sent.encode := by decide +kernel
    rw [h1] at hcl hin
    have hcl : s.client 9 = some (cowClient false 0) := hcl
    have hin : s.inp = gentleSent.flatMap Sent.encode := hin
    rw [hcl] at h2
    cases h2
    have hc := commandsIn_sent gentleSent gentleSent_ok [] (.inl (by decide))
    rw [List.append_nil] at hc
    have hsv := cowFlaky_serves false
    refine ⟨hsv.good, hsv.whole, hsv.own, hsv.there, hsv.eof, ?_⟩
    rw [hin, hc]
    exact gentleSent_gentle false

end Nbd.Props
