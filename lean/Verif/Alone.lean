import Verif.NegoServe
/-!
# A server that does not fork (`-d`)

nbd-server.c 3218-3296 `handle_modern_connection` with `dontfork`, called by `serveloop` for one connection after
the other: the parent process itself negotiates with the client and serves it. What negotiation leaves in the
process (the list of exports, `glob_flags & F_NO_ZEROES`) is what the next client meets.
-/

set_option autoImplicit false

namespace Nbd

/-- nbd-server.c 3203-3216, 3243-3257: one connection as the server meets it. `usable`: `accept` and the two `fcntl` calls
succeed. `inp` and `tlsIn` are what the client says (as in `session`), `env` what the outside world answers during its
negotiation, `n` a bound on the number of options looked at. -/
structure Caller where
  usable : Bool
  inp : List Byte
  tlsIn : Option (List Byte)
  env : NEnv
  n : Nat

/-- nbd-server.c 3218-3296 with `dontfork`, for the connections `cs` in the order they are accepted: what becomes of
each of them; connections that are not in the result are never looked at. A connection that is not usable is closed
(`none`), and so is one whose negotiation fails, and then the next is accepted (3288-3295). A client that is served is the last
(3283-3284: `mainloop_threaded` and `exit`), and so is one that ends the process. Simplification: signals, configuration
reloads and the failure of `select` between two connections are left to `Verif.Parent`. -/
def alone (e : Endian) (cf : NConf) : List Caller → List SrvExport → Bool → List (Option (NEnd × NState))
  | [], _, _ => []
  | c :: cs, svs, nz =>
    if c.usable then
      let r := session e c.env { cf with dontfork := true } c.n svs nz c.inp c.tlsIn
      some r :: if r.1 = .closed then alone e cf cs r.2.servers r.2.noZeroes else []
    else none :: alone e cf cs svs nz

/-! ### What negotiation leaves behind -/

theorem FromConfig.trans {a b c : List SrvExport} (h1 : FromConfig a b) (h2 : FromConfig b c) : FromConfig a c := by
  intro sv hsv
  obtain ⟨y, hy, hm⟩ := h2 sv hsv
  obtain ⟨x, hx, hn⟩ := h1 y hy
  refine ⟨x, hx, hm.id.trans hn.id, hm.name.trans hn.name, hm.expected.trans hn.expected, ?_⟩
  rcases hm.flags with hf | hf <;> rcases hn.flags with hg | hg
  · left; rw [hf, hg]
  · right; rw [hf, hg]
  · right; rw [hf, hg]
  · right; rw [hf, hg, or_ro_idem]

/-- Negotiation changes nothing about the exports but that they may be marked read-only. -/
theorem session_config (e : Endian) (env : NEnv) (cf : NConf) (n : Nat) (svs : List SrvExport)
    (nz : Bool) (inp : List Byte) (tlsIn : Option (List Byte)) :
    FromConfig svs (session e env cf n svs nz inp tlsIn).2.servers := by
  have st : Stable (fun s => FromConfig svs s.servers) :=
    ⟨fun s n h => h, fun s bs h => by simpa using h⟩
  have hE : ∀ (r : NEnd) (s : NState), r ≠ .serving → r ≠ .ub → FromConfig svs s.servers →
      (FromConfig svs s.servers ∧ (r = .serving → ∃ sv', Serving env cf svs sv' s)) :=
    fun r s hr _ h => ⟨h, fun h => absurd h hr⟩
  have hh : Hoare (fun s => FromConfig svs s.servers) (negotiate e env cf n) (fun _ s => FromConfig svs s.servers)
      (fun r s => FromConfig svs s.servers ∧ (r = .serving → ∃ sv', Serving env cf svs sv' s)) :=
    (Hoare.greet st hE (fun _ h => h) e).bind fun _ =>
      Hoare.optionLoop st hE (serving_commits env cf svs)
        (.inl fun s h => ⟨h, fun h => by cases h⟩) (fun _ h => h) (fun _ _ h _ => h) e n
  have := hh.h (.fresh svs nz inp tlsIn) (FromConfig.refl svs)
  unfold session
  cases hq : negotiate e env cf n (.fresh svs nz inp tlsIn) with
  | ok a s' => rw [hq] at this; exact this
  | stop r s' => rw [hq] at this; exact this.1

end Nbd
