import Verif.Props.FirstByte
import Verif.Props.SchedSafe
/-! # C99 with several worker threads -/

set_option autoImplicit false

namespace Nbd.Spec

/-- One connection: what the client sends in the clear and inside TLS, and what the server it reaches looks like: the environment
during the negotiation, the settings, a bound on the number of options, the exports on offer, whether no-zeroes is already set, and the descriptor of the diff file. -/
structure Stranger where
  env : NEnv
  cf : NConf
  n : Nat
  svs : List SrvExport
  nz : Bool
  inp : List Byte
  tlsIn : Option (List Byte)
  d : Nat

/-- The negotiation with this client. -/
def Stranger.talk (c : Stranger) (e : Endian) : NEnd × NState := session e c.env c.cf c.n c.svs c.nz c.inp c.tlsIn

/-- The conditions of C99 on a connection: see `C99_first_byte_partial`. -/
structure Stranger.Fair (c : Stranger) (e : Endian) : Prop where
  short : c.inp.length < 2 ^ 32 - 1
  shortTls : ∀ i, c.tlsIn = some i → i.length < 2 ^ 32 - 1
  names : ∀ sv ∈ c.svs, sv.name.length ≤ 1020
  parent : ∀ sv, (c.env.attempt 0 sv).acl ≠ none
  once : c.cf.dontfork = true ∨ (c.talk e).2.commits ≤ 1
  robust : ∀ sv ∈ c.svs, Robust sv ∧ has sv.flags F_TREEFILES = false
  splice : c.tlsIn = none ∨ ∀ sv ∈ c.svs, has sv.flags F_SPLICE = false

/-- The client is served: `s` is what the negotiation leaves and `cl` the session on the export chosen, whose files are none of them empty. -/
structure Stranger.Served (c : Stranger) (e : Endian) (s : NState) (cl : Client) : Prop where
  talk : c.talk e = (.serving, s)
  client : s.client c.d = some cl
  good : GoodExport cl.ex

end Nbd.Spec

namespace Nbd.Props
open Nbd Nbd.Spec

theorem served_spliced {c : Stranger} {e : Endian} {s : NState} {cl : Client} (hf : c.Fair e) (h : c.Served e s cl) :
    Spliced cl ∧ (cl.tls = false ∨ has cl.ex.flags F_SPLICE = false) := by
  have ht : session e c.env c.cf c.n c.svs c.nz c.inp c.tlsIn = (.serving, s) := h.talk
  obtain ⟨sv, hsv, -, hex, hw, htls⟩ := session_client ht h.client
  obtain ⟨hrob, htree⟩ := hf.robust sv hsv
  have h1 : has cl.ex.flags F_WAIT = false := by rw [has_marked hex (by decide) (by decide)]; exact hrob.wait
  have h2 : has cl.ex.flags F_COPYONWRITE = false := by rw [has_marked hex (by decide) (by decide)]; exact hrob.cow
  refine ⟨⟨⟨h.good, ?_⟩, by rw [has_marked hex (by decide) (by decide)]; exact htree, h1⟩, ?_⟩
  · unfold Client.paged
    rw [h2, hw, h1]
    rfl
  · rcases hf.splice with hk | hk
    · left
      have := (session_clear e c.env c.cf c.n c.svs c.nz c.inp).1
      rw [hk] at ht
      rw [ht] at this
      rw [htls]; exact this
    · right
      rw [has_marked hex (by decide) (by decide)]; exact hk sv hsv

/-- **C99** with several worker threads per session (partial as `C99_first_byte_partial`; besides, no trees, see `C53_threads_tree_partial`, and no empty files). Any number of
clients send any bytes from the moment they are connected, to servers with any exports, in the clear and inside TLS, whatever the outside world answers. No
negotiation runs into undefined behaviour. Those that are served have their requests worked on by any number of threads, one system call per
step, in any order, all on the same storage, and the kernel answers anything: no session runs into undefined behaviour, and one
whose process has exited got, after the negotiation, 28 bytes that do not begin with the magic number of a request. -/
theorem C99_threads_partial (e : Endian) (cs : Nat → Stranger) (hf : ∀ i, (cs i).Fair e) :
    (∀ i, ((cs i).talk e).1 ≠ .ub) ∧
    ∀ (pick : Nat → Nat) (st : Nat → NState) (cls : Nat → Client), (∀ k, (cs (pick k)).Served e (st k) (cls k)) →
      ∀ (lgs : Nat → Bool) (N : Nat) (w : World) (sem : Option Nat) (log : List Byte) (errnos : Nat → List Nat) (pos : Nat → Nat)
        (tr : List (Nat × Ext)) (T : System World),
        Exec (fun k => spliceServer e (cls k) (lgs k))
          ⟨⟨w, sem, log⟩, (List.range N).map fun k => Session.fresh (st k).inp (errnos k) (pos k)⟩ tr T →
        ∀ k s, T.sessions[k]? = some s →
          s.main ≠ .broken ∧
          (s.main = .dead → ∃ before hdr after, (st k).inp = before ++ hdr ++ after ∧ hdr.length = 28 ∧
            (Request.decode hdr).magic ≠ 0x25609513) := by
  refine ⟨fun i => C31_no_ub_partial e _ _ _ _ _ _ _ (hf i).short (hf i).shortTls (hf i).names (hf i).parent (hf i).once, ?_⟩
  intro pick st cls hs lgs N w sem log errnos pos tr T hx k s hk
  have hlist : (List.range N).map (fun k => Session.fresh (σ := World) (st k).inp (errnos k) (pos k)) =
      ((List.range N).map fun k => (st k).inp).mapIdx fun i stream => Session.fresh stream (errnos i) (pos i) := by
    apply List.ext_getElem?
    intro i
    simp only [List.getElem?_map, List.getElem?_mapIdx]
    by_cases hi : i < N
    · simp [List.getElem?_range hi]
    · simp [List.getElem?_eq_none (show (List.range N).length ≤ i by simp; omega)]
  rw [hlist] at hx
  obtain ⟨h1, h2⟩ := C53_threads_partial e cls (fun k => (served_spliced (hf _) (hs k)).1) (fun k => (served_spliced (hf _) (hs k)).2) lgs
    w sem log _ errnos pos T tr hx k s hk
  refine ⟨h1, fun hd => ?_⟩
  obtain ⟨before, hdr, after, h3, h4, h5⟩ := h2 hd
  simp only [List.getElem?_map, Option.map_eq_some_iff] at h3
  obtain ⟨i, hi, h3⟩ := h3
  have : i = k := by
    have hlt : k < (List.range N).length := by
      by_cases h : k < (List.range N).length
      · exact h
      · rw [List.getElem?_eq_none (by omega)] at hi; cases hi
    rw [List.getElem?_range (by simpa using hlt)] at hi
    exact (Option.some.inj hi).symm
  subst this
  exact ⟨before, hdr, after, h3, h4, h5⟩

/-- The client of `fbTalk`: it negotiates, writes and reads. -/
def fbStranger : Stranger := ⟨NDemo.env, NDemo.cf, 9, [NDemo.a, NDemo.s], false, fbTalk, none, 9⟩

/-- What the negotiation leaves, and the session it starts. -/
def fbState : NState := (fbStranger.talk .little).2

def fbClient : Client := (fbState.client 9).get (by decide +kernel)

/-- An execution as in `C99_threads_partial`: two threads work on the client's requests, and the session goes on until it hangs up. -/
example : (∀ _i : Nat, fbStranger.Fair .little) ∧ (∀ _k : Nat, fbStranger.Served .little fbState fbClient) ∧
    ∃ tr T, Exec (fun _ => spliceServer .little fbClient false)
      ⟨⟨Demo.world, none, []⟩, (List.range 1).map fun _ => Session.fresh fbState.inp [0, 0] 0⟩ tr T ∧
      T.sessions.map (fun s => s.main) = [.over] := by
  refine ⟨fun _ => ⟨by decide +kernel, fun _ h => (by cases h), ?_, fun _ h => (by cases h), .inr (by decide +kernel), ?_, .inl rfl⟩,
    fun _ => ⟨?_, ?_, ?_⟩, ?_⟩
  · intro sv hsv
    simp only [fbStranger, List.mem_cons, List.not_mem_nil, or_false] at hsv
    rcases hsv with rfl | rfl <;> decide
  · intro sv hsv
    simp only [fbStranger, List.mem_cons, List.not_mem_nil, or_false] at hsv
    rcases hsv with rfl | rfl
    · exact ⟨⟨by decide, by decide⟩, by decide⟩
    · exact ⟨⟨by decide, by decide⟩, by decide⟩
  · have h : (fbStranger.talk .little).1 = .serving := by decide +kernel
    unfold fbState
    rw [← h]
  · simp [fbClient, fbStranger]
  · have hfiles : fbClient.ex.files = [⟨3, 0⟩] := by decide +kernel
    refine ⟨by decide +kernel, fun _ => ?_⟩
    rw [hfiles]
    exact ⟨rfl, List.pairwise_singleton _ _, List.pairwise_singleton _ _⟩
  · obtain ⟨tr, T, h1, h2⟩ := System.play_check (fun _ => spliceServer .little fbClient false)
      ⟨⟨Demo.world, none, []⟩, (List.range 1).map fun _ => Session.fresh fbState.inp [0, 0] 0⟩
      ((List.replicate 12 [(0, .main), (0, .work 1 99), (0, .work 0 99)]).flatten)
      (fun _ T => T.sessions.map (fun s => s.main) == [.over]) (by decide +kernel)
    exact ⟨tr, T, h1, by simpa using h2⟩

end Nbd.Props
