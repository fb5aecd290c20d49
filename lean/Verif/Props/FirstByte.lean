import Verif.Props.AnyLayout
import Verif.Props.CowConf
import Verif.Props.Nego
import Verif.Props.Tls
/-! # C99: from the first byte a client sends to the last one -/
set_option autoImplicit false

namespace Nbd.Spec
open Nbd

/-- A configured export (`SERVER`) as the negotiation sees it: one and the same record in the source (nbdsrv.h `SERVER`), `i` its
place in the list. -/
def offered (i : Nat) (s : Srv) : SrvExport := ⟨i, s.servename.getD [], s.flags, s.expected⟩

/-- The process that serves one connection, to its end: the negotiation, then - if it ends with an export to serve - the requests.
`d` is the descriptor of the diff file, `w` the world when the requests begin. `true` if it runs into undefined behaviour. -/
def Crashes (e : Endian) (env : NEnv) (cf : NConf) (n : Nat) (svs : List SrvExport) (nz : Bool) (inp : List Byte)
    (tlsIn : Option (List Byte)) (d : Nat) (w : World) : Prop :=
  (session e env cf n svs nz inp tlsIn).1 = .ub ∨
  ∃ s cl, session e env cf n svs nz inp tlsIn = (.serving, s) ∧ s.client d = some cl ∧ (mainloop e cl w s.inp).ending = .ub

/-- Exports about which C99 holds: no copy-on-write and not waiting for a file. -/
structure Robust (sv : SrvExport) : Prop where
  cow : has sv.flags F_COPYONWRITE = false
  wait : has sv.flags F_WAIT = false

end Nbd.Spec

namespace Nbd.Props
open Nbd Nbd.Spec

theorem has_marked {f g m : Nat} (h : g = f ∨ g = f ||| F_AUTOREADONLY ||| F_READONLY) (h1 : F_AUTOREADONLY &&& m = 0)
    (h2 : F_READONLY &&& m = 0) : has g m = has f m := by
  rcases h with h | h
  · rw [h]
  · rw [h, has_or_of _ _ _ h2, has_or_of _ _ _ h1]

/-- The session that negotiation hands over serves a configured export. -/
theorem session_client {e : Endian} {env : NEnv} {cf : NConf} {n : Nat} {svs : List SrvExport} {nz : Bool} {inp : List Byte}
    {tlsIn : Option (List Byte)} {s : NState} (h : session e env cf n svs nz inp tlsIn = (.serving, s)) {d : Nat} {cl : Client}
    (hc : s.client d = some cl) : ∃ sv ∈ svs,
      (∃ flags expected name probes, setupExport flags expected name probes = some cl.ex ∧
        (flags = sv.flags ∨ flags = sv.flags ||| F_AUTOREADONLY ||| F_READONLY)) ∧
      (cl.ex.flags = sv.flags ∨ cl.ex.flags = sv.flags ||| F_AUTOREADONLY ||| F_READONLY) ∧
      cl.waiting = has cl.ex.flags F_WAIT ∧ cl.tls = s.tls := by
  obtain ⟨sv', ⟨y, hy, sv, k, hm, _, ht⟩⟩ := session_serving e env cf n svs nz inp tlsIn s h
  obtain ⟨ex, hex, _, hg⟩ := ht.granted
  unfold NState.client at hc
  rw [hex] at hc
  cases hc
  refine ⟨y, hy, ⟨_, _, _, _, hg.setup, hm.flags⟩, ?_, rfl, rfl⟩
  rcases setupExport_flags _ _ _ _ _ hg.setup with h1 | h1
  · exact h1 ▸ hm.flags
  · rcases hm.flags with h2 | h2
    · exact .inr (by rw [← h2]; exact h1)
    · refine .inr ?_
      show ex.flags = _
      rw [h1, h2, or_ro_idem]

/-- **C99** (partial: exports that are `Robust`, the others are subject to `C99_false_cow` and `C47_false_trim`, and not splicing inside TLS, `C04_false_tls_splice`; a client
that has asked for an export only once, `C99_false_twice`, and sends less than 4 GiB before it is served, `C31_false_memory`; names that LIST can hold; the
parent process answers). Whatever bytes a client sends from the moment it is connected, in
the clear and inside TLS, whatever the outside world answers during the negotiation and the backing store afterwards: the process
that serves it does not run into undefined behaviour; and once it serves files, it ends by the client's disconnect request, the end of the connection or a wrong magic
number and by nothing else. -/
theorem C99_first_byte_partial (e : Endian) (env : NEnv) (cf : NConf) (n : Nat) (svs : List SrvExport) (nz : Bool)
    (inp : List Byte) (tlsIn : Option (List Byte)) (hi : inp.length < 2 ^ 32 - 1)
    (ht : ∀ i, tlsIn = some i → i.length < 2 ^ 32 - 1) (hn : ∀ sv ∈ svs, sv.name.length ≤ 1020)
    (ha : ∀ sv, (env.attempt 0 sv).acl ≠ none)
    (hc : cf.dontfork = true ∨ (session e env cf n svs nz inp tlsIn).2.commits ≤ 1)
    (hr : ∀ sv ∈ svs, Robust sv)
    (hsp : tlsIn = none ∨ ∀ sv ∈ svs, has sv.flags F_SPLICE = false) (d : Nat) (w : World) :
    ¬ Crashes e env cf n svs nz inp tlsIn d w ∧
    ∀ s cl, session e env cf n svs nz inp tlsIn = (.serving, s) → s.client d = some cl →
      has cl.ex.flags F_TREEFILES = false →
      (mainloop e cl w s.inp).ending = .gone ∨ (mainloop e cl w s.inp).ending = .disconnected := by
  have key : ∀ s cl, session e env cf n svs nz inp tlsIn = (.serving, s) → s.client d = some cl →
      (mainloop e cl w s.inp).ending = .gone ∨ (mainloop e cl w s.inp).ending = .disconnected ∨
      (has cl.ex.flags F_TREEFILES = true ∧ (mainloop e cl w s.inp).ending = .exit) := by
    intro s cl hs hcl
    obtain ⟨sv, hsv, ⟨flags, expected, name, probes, hset, hfl⟩, hex, hw, htls⟩ := session_client hs hcl
    have hrob := hr sv hsv
    refine C53_every_layout_partial e cl w ⟨⟨flags, expected, name, probes, hset, ?_⟩, ?_, ?_⟩ ?_ s.inp
    · rw [has_marked hfl (by decide) (by decide)]; exact hrob.wait
    · rw [has_marked hex (by decide) (by decide)]; exact hrob.cow
    · rw [hw, has_marked hex (by decide) (by decide)]; exact hrob.wait
    · rcases hsp with hk | hsp
      · left
        subst hk
        have := (session_clear e env cf n svs nz inp).1
        rw [hs] at this
        rw [htls]; exact this
      · right
        rw [has_marked hex (by decide) (by decide)]; exact hsp sv hsv
  refine ⟨?_, ?_⟩
  · rintro (h | ⟨s, cl, h1, h2, h3⟩)
    · exact C31_no_ub_partial e env cf n svs nz inp tlsIn hi ht hn ha hc h
    · have := key s cl h1 h2
      rw [h3] at this
      simp at this
  · intro s cl h1 h2 h3
    have := key s cl h1 h2
    rw [h3] at this
    simpa using this

/-- A client that negotiates with the server of `NDemo`, writes, and reads beyond the end. -/
def fbTalk : List Byte :=
  NDemo.talk ++ (Demo.write 3 [10, 11]).encode ++ (Demo.request 0 4095 2).encode

/-- The hypotheses are met, and the client is served. -/
example : fbTalk.length < 2 ^ 32 - 1 ∧ (∀ sv ∈ [NDemo.a, NDemo.s], sv.name.length ≤ 1020 ∧ Robust sv) ∧
    (∀ sv, (NDemo.env.attempt 0 sv).acl ≠ none) ∧
    (session .little NDemo.env NDemo.cf 9 [NDemo.a, NDemo.s] false fbTalk none).2.commits = 1 ∧
    (session .little NDemo.env NDemo.cf 9 [NDemo.a, NDemo.s] false fbTalk none).1 = .serving ∧
    (session .little NDemo.env NDemo.cf 9 [NDemo.a, NDemo.s] false fbTalk none).2.inp.length = 58 := by
  refine ⟨by decide +kernel, ?_, fun _ h => (by cases h), by decide +kernel, by decide +kernel, by decide +kernel⟩
  intro sv hsv
  simp only [List.mem_cons, List.not_mem_nil, or_false] at hsv
  rcases hsv with rfl | rfl
  · exact ⟨by decide, by decide, by decide⟩
  · exact ⟨by decide, by decide, by decide⟩

/-- What an unwelcome client of `nbd-server 10809 /x -c` sends: it asks for the export, then for no bytes at offset 0. -/
def cowTalk : List Byte := toBE 4 3 ++ optRequest 7 (infoData [] []) ++ (Demo.request 0 0 0).encode

/-- The file `/x` has two blocks. -/
def cowEnv : NEnv :=
  ⟨fun _ _ => { NDemo.yes with probes := [⟨3, true, true, none, some (true, 8192), 8192⟩] }, fun _ => true⟩

/-- **C99 is false of copy-on-write exports**: a client of the server `nbd-server 10809 /x -c` that asks for the export and then reads
no bytes at offset 0 makes the process look up its page map far outside its bounds. The two blocks of the file are there, everybody is
let in and nothing fails. -/
theorem C99_false_cow : Configured cowSrv ∧ NeverFails cowWorld ∧
    Crashes .little cowEnv NDemo.cf 9 [offered 0 cowSrv] false cowTalk none 9 cowWorld := by
  refine ⟨cowSrv_configured, cowWorld_fine, ?_⟩
  unfold Crashes
  have h1 : (session .little cowEnv NDemo.cf 9 [offered 0 cowSrv] false cowTalk none).1 = .serving := by decide +kernel
  have h2 : (session .little cowEnv NDemo.cf 9 [offered 0 cowSrv] false cowTalk none).2.client 9 =
    some ⟨cowEx, false, [NOPAGE, NOPAGE], 0, 9, 0, false, false⟩ := by decide +kernel
  have h3 : (session .little cowEnv NDemo.cf 9 [offered 0 cowSrv] false cowTalk none).2.inp = (Demo.request 0 0 0).encode := by decide +kernel
  have h4 : (mainloop .little ⟨cowEx, false, [NOPAGE, NOPAGE], 0, 9, 0, false, false⟩ cowWorld (Demo.request 0 0 0).encode).ending = .ub := by
    decide +kernel
  generalize session .little cowEnv NDemo.cf 9 [offered 0 cowSrv] false cowTalk none = x at h1 h2 h3
  obtain ⟨r, s⟩ := x
  cases h1
  exact .inr ⟨s, _, rfl, h2, by rw [h3]; exact h4⟩

/-- **C99 is false of a client that asks twice**: the parent process says that the export is in use by too many clients already, and the
client asks for it again on the same connection. The second time the process asks a parent it no longer has a connection to, and
decides by a byte that nobody wrote. -/
theorem C99_false_twice : Robust NDemo.a ∧
    Crashes .little NDemo.refusing NDemo.cf 9 [NDemo.a] false
      (toBE 4 3 ++ optRequest 7 (infoData [97] []) ++ optRequest 7 (infoData [97] [])) none 9 cowWorld :=
  ⟨⟨by decide, by decide⟩, .inl (by decide +kernel)⟩

end Nbd.Props
