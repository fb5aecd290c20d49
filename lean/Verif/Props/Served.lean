import Verif.Props.Acl
import Verif.Props.Nego
import Verif.Props.CliMain
/-!
# Who is served

C34, C35 and C59 for whole negotiations: what was checked before a client is served. And C46: the two ways to name a device.
-/

set_option autoImplicit false

namespace Nbd.Props

open Nbd.Spec

/-- **C34**, nobody else is served: whatever a client says during negotiation, if it ends up being served then the check against the
access list of the export it is served let it through, and so did the command run before a session. `acl k id` is the state of
the access list of export `id` when the server looks at it for the `k`-th time. -/
theorem C34_served (e : Endian) (env : NEnv) (cf : NConf) (n : Nat) (svs : List SrvExport) (nz : Bool) (inp : List Byte)
    (tlsIn : Option (List Byte)) (s : NState) (gai : List Byte → Option (List Sock)) (peer : Sock)
    (acl : Nat → Nat → Option (Option (List Byte)))
    (hacl : ∀ k sv, (env.attempt k sv).authorized = true → authorizedClient gai (acl k sv.id) peer = .val true)
    (h : session e env cf n svs nz inp tlsIn = (.serving, s)) :
    ∃ y ∈ svs, ∃ x k, s.server = some x ∧ x.id = y.id ∧ x.name = y.name ∧ authorizedClient gai (acl k x.id) peer = .val true := by
  obtain ⟨sv', hs⟩ := session_serving e env cf n svs nz inp tlsIn s h
  obtain ⟨y, hy, sv, k, hm, -, ht⟩ := hs.took
  obtain ⟨ex, -, rfl, hg⟩ := ht.granted
  exact ⟨y, hy, _, k, ht.server, hm.id, hm.name, hacl k sv hg.authorized⟩

/-- **C59** for whole negotiations (partial as `C59_enforced_partial`): if every export has an access list that can be opened, and the
client is in none of the networks any of them lists, it is not served, whatever it says. -/
theorem C59_served_partial (e : Endian) (env : NEnv) (cf : NConf) (n : Nat) (svs : List SrvExport) (nz : Bool) (inp : List Byte)
    (tlsIn : Option (List Byte)) (gai : List Byte → Option (List Sock)) (peer : Sock) (hp : SockOk peer)
    (acl : Nat → Nat → Option (Option (List Byte)))
    (hacl : ∀ k sv, (env.attempt k sv).authorized = true → authorizedClient gai (acl k sv.id) peer = .val true)
    (hlist : ∀ k, ∀ y ∈ svs, ∃ ls last, acl k y.id = some (some ((ls.map (· ++ [10])).flatten ++ last)) ∧
      (∀ l ∈ last :: ls, l.length ≤ 254 ∧ (10 : Byte) ∉ l) ∧
      ∀ l ∈ last :: ls, ∀ t, HasEntry l t → ∃ host len n r rs, t = host ++ [47] ++ len ∧ (47 : Byte) ∉ host ∧
        Decimal len n ∧ gai host = some rs ∧ rs ≠ [] ∧ (∀ x ∈ rs, x = r) ∧ SockOk r ∧ Compatible peer r ∧ n ≤ width r ∧
        ¬ InNetwork peer r n) :
    (session e env cf n svs nz inp tlsIn).1 ≠ .serving := by
  intro h
  cases hs : session e env cf n svs nz inp tlsIn with
  | mk r s =>
    rw [hs] at h
    have h : r = .serving := h
    subst h
    obtain ⟨y, hy, x, k, -, hid, -, hx⟩ := C34_served e env cf n svs nz inp tlsIn s gai peer acl hacl hs
    obtain ⟨ls, last, ha, hl, hn⟩ := hlist k y hy
    rw [hid, ha, C59_enforced_partial gai peer ls last hl hn hp] at hx
    cases hx

/-- **C35**, in the process that serves the client: if the server forks, a client is served only after the parent has answered, and has not
answered no (78) or that the name is unknown (88). -/
theorem C35_asked (e : Endian) (env : NEnv) (cf : NConf) (hcf : cf.dontfork = false) (n : Nat) (svs : List SrvExport) (nz : Bool)
    (inp : List Byte) (tlsIn : Option (List Byte)) (s : NState) (h : session e env cf n svs nz inp tlsIn = (.serving, s)) :
    ∃ y ∈ svs, ∃ x sv b, s.server = some x ∧ x.id = y.id ∧ sv.id = y.id ∧ sv.name = y.name ∧
      (env.attempt 0 sv).acl = some b ∧ b ≠ 78 ∧ b ≠ 88 := by
  obtain ⟨sv', hs⟩ := session_serving e env cf n svs nz inp tlsIn s h
  obtain ⟨y, hy, sv, k, hm, -, ht⟩ := hs.took
  obtain ⟨ex, -, rfl, hg⟩ := ht.granted
  have := ht.first hcf
  subst this
  obtain ⟨b, h1, h2, h3⟩ := hg.acl hcf
  exact ⟨y, hy, _, sv, b, ht.server, hm.id, hm.id, hm.name, h1, h2, h3⟩

-- The concrete server of `NDemo` serves its client; without an access list the check succeeds.
example (s : NState) (h : session .little NDemo.env NDemo.cf 9 [NDemo.a, NDemo.s] false NDemo.talk none = (.serving, s)) :
    ∃ y ∈ [NDemo.a, NDemo.s], ∃ x, s.server = some x ∧ x.id = y.id := by
  obtain ⟨y, hy, x, k, h1, h2, -⟩ := C34_served .little NDemo.env NDemo.cf 9 [NDemo.a, NDemo.s] false NDemo.talk none s
    (fun _ => none) .other (fun _ _ => none) (fun _ _ _ => rfl) h
  exact ⟨y, hy, x, h1, h2⟩

example : (session .little NDemo.env NDemo.cf 9 [NDemo.a, NDemo.s] false NDemo.talk none).1 = .serving := by decide +kernel

-- With an empty list nobody is served, whoever says whatever.
example (e : Endian) (env : NEnv) (cf : NConf) (n : Nat) (inp : List Byte)
    (hacl : ∀ k sv, (env.attempt k sv).authorized = true → authorizedClient (fun _ => none) (some (some [])) (.inet [10, 1, 2, 3]) = .val true) :
    (session e env cf n [NDemo.a, NDemo.s] false inp none).1 ≠ .serving :=
  C59_served_partial e env cf n _ false inp none (fun _ => none) (.inet [10, 1, 2, 3]) rfl (fun _ _ => some (some [])) hacl
    (fun _ _ _ => ⟨[], [], rfl, by simp, by
      intro l hl t ht
      rw [List.mem_singleton] at hl
      subst hl
      exact absurd ((aclToken_iff _ t).mpr ht) (by rw [show aclToken [] = none by decide]; intro h; cases h)⟩)

/-- **C46**, naming a device: `/dev/nbd0` and `nbd0` are the same device, both when asked for and in the table; two different names without
`/dev/` in front are different devices. `text` is any table, and the entry with host `h`, export `x` and options `os` is
alone in its table. -/
theorem C46_device (start : TabClient) (d o h x : List Byte) (os : List TabOpt) (text : Option (List Byte))
    (hd : ¬ ascii "/dev/" <+: d) (ho : ¬ ascii "/dev/" <+: o) (hdo : d ≠ o)
    (hw : ∀ v ∈ [d, ascii "/dev/" ++ d, o, ascii "/dev/" ++ o], EntryWords ⟨v, h, x, os⟩) :
    getFromConfig { start with dev := ascii "/dev/" ++ d } text = getFromConfig { start with dev := d } text ∧
    getFromConfig { start with dev := d } (some (writeEntry ⟨ascii "/dev/" ++ d, h, x, os⟩)) =
      getFromConfig { start with dev := d } (some (writeEntry ⟨d, h, x, os⟩)) ∧
    (getFromConfig { start with dev := d } (some (writeEntry ⟨d, h, x, os⟩))).isSome = true ∧
    getFromConfig { start with dev := d } (some (writeEntry ⟨o, h, x, os⟩)) = none ∧
    getFromConfig { start with dev := d } (some (writeEntry ⟨ascii "/dev/" ++ o, h, x, os⟩)) = none := by
  have s1 : stripDev d = d := if_neg hd
  have s2 : stripDev (ascii "/dev/" ++ d) = d := by
    unfold stripDev
    rw [if_pos (List.prefix_append _ _)]
    exact List.drop_left' rfl
  have s3 : stripDev o = o := if_neg ho
  have s4 : stripDev (ascii "/dev/" ++ o) = o := by
    unfold stripDev
    rw [if_pos (List.prefix_append _ _)]
    exact List.drop_left' rfl
  have one : ∀ e : TabEntry, (([e].map writeEntry).flatten) = writeEntry e := fun e => by simp
  have txt : ∀ v ∈ [d, ascii "/dev/" ++ d, o, ascii "/dev/" ++ o],
      parseTab ((lexTab (writeEntry ⟨v, h, x, os⟩)).length + 1) (lexTab (writeEntry ⟨v, h, x, os⟩)) = some [⟨v, h, x, os⟩] := by
    intro v hv
    have := C46_text [⟨v, h, x, os⟩] (fun e he => by rw [List.mem_singleton] at he; subst he; exact hw v hv)
    rwa [one] at this
  refine ⟨?_, ?_, ?_, ?_, ?_⟩
  · unfold getFromConfig
    simp only [s1, s2]
  · unfold getFromConfig
    simp only []
    rw [txt _ (by simp), txt d (by simp)]
    simp only [List.foldl_cons, List.foldl_nil, tabLine, tabCommit, s1, s2]
  · obtain ⟨c, hc, -⟩ := C46_entry_partial { start with dev := d } [] [] ⟨d, h, x, os⟩
      (fun e he => by rw [List.nil_append, List.mem_singleton] at he; subst he; exact hw d (by simp)) rfl (by simp) (by simp)
    rw [List.nil_append, one] at hc
    rw [hc]
    rfl
  · have := (C46_absent { start with dev := d } [⟨o, h, x, os⟩]
      (fun e he => by rw [List.mem_singleton] at he; subst he; exact hw o (by simp))
      (fun e he => by rw [List.mem_singleton] at he; subst he; rw [s1, s3]; exact Ne.symm hdo)).1
    rwa [one] at this
  · have := (C46_absent { start with dev := d } [⟨ascii "/dev/" ++ o, h, x, os⟩]
      (fun e he => by rw [List.mem_singleton] at he; subst he; exact hw _ (by simp))
      (fun e he => by rw [List.mem_singleton] at he; subst he; rw [s1, s4]; exact Ne.symm hdo)).1
    rwa [one] at this

example : ¬ ascii "/dev/" <+: ascii "nbd0" ∧ ¬ ascii "/dev/" <+: ascii "nbd1" ∧ ascii "nbd0" ≠ ascii "nbd1" ∧
    (getFromConfig (tabStart (ascii "nbd0")) (some (writeEntry ⟨ascii "/dev/nbd0", ascii "server", ascii "disk", []⟩))).isSome = true := by
  decide +kernel

end Nbd.Props
