import Verif.SchedHeld
import Verif.SessionLemmas
import Verif.Demo
/-!
# What is held for one client (C89)

Requests wait in the queue of the thread pool, with the data of write requests, until a thread
takes them.
-/

set_option autoImplicit false

namespace Nbd

namespace Spec

/-- The requests a session holds: those in the queue, and those its threads work on. -/
def held {σ : Type} (s : Session σ) : List Job := s.queue ++ s.workers.filterMap Worker.job

/-- Bytes of data in some requests. -/
def dataSize (l : List Job) : Nat := (l.map fun j => j.payload.bytes.length).sum

/-- The requests of session `sid` for which the client has not got any message yet. -/
def waiting (sid : Nat) (tr : List (Nat × Ext)) : List Job :=
  (received sid tr).filter fun j => (sent sid tr).all fun x => x.1 != j.id

end Spec

open Spec

namespace Props

/-- C89, as far as it is true. For every server, number of sessions, and interleaving of their
threads: what a session holds are requests its client sent; there are at most as many as the
client has sent without having got any message for, and one for each thread of the session. If
none of the client's requests carries more than `m` bytes of data, the data held is at most that
many times `m`. -/
theorem C89_bound_partial {σ : Type} (v : Nat → Server σ) (S T : System σ) (tr : List (Nat × Ext))
    (hf : ∀ s ∈ S.sessions, s.Fresh) (hx : Exec v S tr T) (sid : Nat) (s0 s : Session σ)
    (hs0 : S.sessions[sid]? = some s0) (hs : T.sessions[sid]? = some s) :
    (∀ j ∈ held s, j ∈ received sid tr) ∧
    (held s).length ≤ (waiting sid tr).length + s0.workers.length ∧
    ∀ m, (∀ j ∈ received sid tr, j.payload.bytes.length ≤ m) →
      dataSize (held s) ≤ ((waiting sid tr).length + s0.workers.length) * m := by
  obtain ⟨hids, dn, hg, hsn, hw⟩ := hx.qinv hf sid s hs
  obtain ⟨s0', h0, hl⟩ := hx.same_threads sid s hs
  rw [hs0] at h0
  cases h0
  have hin : ∀ j ∈ held s, j ∈ received sid tr := by
    intro j hj
    rw [hg]
    rcases List.mem_append.mp hj with hj | hj
    · exact List.mem_append_right _ hj
    · obtain ⟨x, hx, hj⟩ := List.mem_filterMap.mp hj
      exact List.mem_append_left _ (hw x hx j hj)
  have hlen : (held s).length ≤ (waiting sid tr).length + s0.workers.length := by
    have h1 : s.queue.filter (fun j => (sent sid tr).all fun x => x.1 != j.id) = s.queue := by
      rw [List.filter_eq_self]
      intro j hj
      rw [List.all_eq_true]
      intro x hx
      have := hsn x hx
      have := QInv.id_ge hids hg j hj
      simp only [bne_iff_ne, ne_eq]
      omega
    have h2 : s.queue.length ≤ (waiting sid tr).length := by
      unfold waiting
      rw [hg, List.filter_append, h1, List.length_append]
      omega
    have h3 := List.length_filterMap_le Worker.job s.workers
    unfold held
    rw [List.length_append]
    omega
  refine ⟨hin, hlen, ?_⟩
  intro m hm
  have := sum_le_mul ((held s).map fun j => j.payload.bytes.length) m (by
    intro x hx
    obtain ⟨j, hj, rfl⟩ := List.mem_map.mp hx
    exact hm j (hin j hj))
  rw [List.length_map] at this
  exact Nat.le_trans this (Nat.mul_le_mul_right m hlen)

/-- The reading thread takes all the client has sent before any worker begins. -/
theorem reads_ahead (e : Endian) (cl : Client) (hsp : has cl.ex.flags F_SPLICE = false) (S : System World) (ss : List Sent)
    (hok : ∀ x ∈ ss, x.Ok) :
    ∀ (tr : List (Nat × Ext)) (T : System World) (s : Session World), Exec (fun _ => plainServer e cl false) S tr T →
    T.sessions = [s] → s.main = .reading → s.stream = ss.flatMap Sent.encode →
    ∃ tr' T' s', Exec (fun _ => plainServer e cl false) S tr' T' ∧ T'.sessions = [s'] ∧ s'.workers = s.workers ∧
      s'.sock = s.sock ∧ s'.main = .reading ∧ T'.sh.st.files = T.sh.st.files ∧
      ∃ js, s'.queue = s.queue ++ js ∧ js.map (fun j => j.payload.bytes) = ss.map Sent.data := by
  induction ss with
  | nil =>
    intro tr T s hx hT hm _
    exact ⟨tr, T, s, hx, hT, rfl, rfl, hm, rfl, [], by simp, rfl⟩
  | cons x ss ih =>
    intro tr T s hx hT hm hst
    rw [List.flatMap_cons] at hst
    obtain ⟨w', p, hfe, hfiles, hb⟩ : ∃ w' p, fetch e cl T.sh.st (x.encode ++ ss.flatMap Sent.encode) =
        .val (w', .push (reqOf e x) p (ss.flatMap Sent.encode)) ∧ w'.files = T.sh.st.files ∧ p.bytes = x.data := by
      rcases fetch_sent e cl T.sh.st x (hok x (List.mem_cons_self ..)) (ss.flatMap Sent.encode) with
        ⟨-, -, h⟩ | ⟨w1, p, h1, -, h2, -, h3, -⟩
      · rw [hsp] at h; cases h
      · exact ⟨w1, p, h1, h2, h3⟩
    have hstep := Step.accept (v := plainServer e cl false) (sid := 0) T.sh s w' (reqOf e x) p (ss.flatMap Sent.encode) hm rfl
      (by intro h; cases h) (by rw [hst]; exact hfe)
    have hx' := Exec.step tr T 0 s _ _ _ hx (by rw [hT]; rfl) hstep
    rw [hT, List.set_cons_zero] at hx'
    have hn := ih (fun y hy => hok y (List.mem_cons_of_mem _ hy)) _ _ _ hx' rfl
    obtain ⟨tr', T', s', g1, g2, g3, g4, g5, g6, js, g7, g8⟩ := hn hm rfl
    refine ⟨tr', T', s', g1, g2, g3, g4, g5, by rw [g6, ← hfiles]; rfl, ⟨s.count, reqOf e x, p⟩ :: js, ?_, ?_⟩
    · rw [g7]; simp
    · simp [g8, hb]

/-- C89 is false: nothing bounds the queue. Whatever well-formed requests a client sends, and
however many, the reading thread may take them all while every thread of the pool is idle and not
a byte has been sent back; all their data is then in memory. -/
theorem C89_false (e : Endian) (cl : Client) (hsp : has cl.ex.flags F_SPLICE = false) (ss : List Sent) (hok : ∀ x ∈ ss, x.Ok)
    (sh : Shared World) (errnos : List Nat) (pos : Nat) :
    ∃ tr T s, Exec (fun _ => plainServer e cl false) ⟨sh, [Session.fresh (ss.flatMap Sent.encode) errnos pos]⟩ tr T ∧
      T.sessions = [s] ∧ s.sock = [] ∧ (held s).length = ss.length ∧ dataSize (held s) = (ss.map fun x => x.data.length).sum := by
  obtain ⟨tr, T, s, h1, h2, h3, h4, -, -, js, h5, h6⟩ := reads_ahead e cl hsp _ ss hok [] _ (Session.fresh (ss.flatMap Sent.encode) errnos pos)
    (Exec.nil (S := ⟨sh, [Session.fresh (ss.flatMap Sent.encode) errnos pos]⟩)) rfl rfl rfl
  have hh : held s = js := by
    unfold held
    rw [h5, h3]
    have : (Session.fresh (σ := World) (ss.flatMap Sent.encode) errnos pos).workers.filterMap Worker.job = [] := by
      show (errnos.map Worker.idle).filterMap Worker.job = []
      rw [List.filterMap_eq_nil_iff]
      intro x hx
      obtain ⟨en, -, rfl⟩ := List.mem_map.mp hx
      rfl
    rw [this, List.append_nil]
    rfl
  refine ⟨tr, T, s, h1, h2, h4, ?_, ?_⟩
  · rw [hh]
    have := congrArg List.length h6
    simpa using this
  · rw [hh]
    unfold dataSize
    have h7 := congrArg (fun l => (l.map List.length).sum) h6
    simpa [List.map_map, Function.comp_def] using h7

/-- A client that sends a write of `n` bytes `k` times makes the server hold `k * n` bytes. -/
theorem C89_false_writes (e : Endian) (cl : Client) (hsp : has cl.ex.flags F_SPLICE = false) (n k : Nat) (hn : n < 2 ^ 32)
    (sh : Shared World) (errnos : List Nat) (pos : Nat) :
    ∃ stream tr T s, Exec (fun _ => plainServer e cl false) ⟨sh, [Session.fresh stream errnos pos]⟩ tr T ∧
      T.sessions = [s] ∧ s.sock = [] ∧ dataSize (held s) = k * n := by
  have hok : ∀ x ∈ List.replicate k (⟨⟨0x25609513, 1, Demo.cookie, 0, n⟩, List.replicate n 0⟩ : Sent), x.Ok := by
    intro x hx
    obtain ⟨-, rfl⟩ := List.mem_replicate.mp hx
    exact ⟨⟨by show 0x25609513 < 2 ^ 32; decide, by show 1 < 2 ^ 32; decide, rfl, by show 0 < 2 ^ 64; decide, hn⟩, rfl,
      by show ¬ 1 = 2; decide, by simp⟩
  obtain ⟨tr, T, s, h1, h2, h3, -, h4⟩ := C89_false e cl hsp _ hok sh errnos pos
  refine ⟨_, tr, T, s, h1, h2, h3, ?_⟩
  rw [h4]
  simp

/-- The hypotheses of `C89_bound_partial` are met, with a session that holds three requests and has four threads. -/
example : ∃ (S T : System World) (tr : List (Nat × Ext)) (s0 s : Session World),
    (∀ s ∈ S.sessions, s.Fresh) ∧ Exec (fun _ => plainServer .little (Demo.client true) false) S tr T ∧
    S.sessions[0]? = some s0 ∧ T.sessions[0]? = some s ∧ s0.workers.length = 4 ∧ (held s).length = 3 := by
  obtain ⟨tr, T, s, h1, h2, -, h3, -⟩ := C89_false .little (Demo.client true) (by decide)
    [Demo.write 3 [10, 11, 12, 13], Demo.request 0 2 8, Demo.request 3 0 0]
    (by intro x hx; simp only [List.mem_cons, List.not_mem_nil, or_false] at hx
        rcases hx with rfl | rfl | rfl <;> exact ⟨⟨by decide, by decide, by decide, by decide, by decide⟩, by decide, by decide, by decide⟩)
    ⟨Demo.world, none, []⟩ [0, 0, 0, 0] 0
  exact ⟨_, T, tr, _, s, by intro s hs; rw [List.mem_singleton] at hs; exact ⟨_, _, _, hs⟩, h1, rfl, by rw [h2]; rfl, rfl, h3⟩

end Props

end Nbd
