import Verif.SchedRO
import Verif.Props.Sched
import Verif.Props.SchedSafe
/-! # C06 with several worker threads -/

set_option autoImplicit false

namespace Nbd
namespace Props
open Spec

theorem refused_of_still {σ : Type} {R : σ → σ → Prop} {tr : List (Nat × Ext)} {sid : Nat} {s : Session σ}
    (h : SessionStill R (fun j => Eperm j.req) (received sid tr) (sent sid tr) s) (j : Job) (hj : j ∈ received sid tr) (bytes : List Byte)
    (hm : (j.id, bytes) ∈ messages sid tr) (ht : j.req.type < 262144)
    (hc : j.req.type % 65536 = 1 ∨ j.req.type % 65536 = 4 ∨ j.req.type % 65536 = 6) :
    bytes = (Reply.simple 1 j.req.cookie []).encode := by
  obtain ⟨x, hx, heq⟩ := List.mem_map.mp hm
  obtain ⟨hid, rfl⟩ := Prod.mk.inj heq
  obtain ⟨j', h1, h2, h3⟩ := h.sent x hx
  have : j' = j := eq_of_ids (by rw [h.ids]; exact List.nodup_range) h1 hj (h2.trans hid)
  subst this
  exact h3 ht (by simpa using hc)

/-- **C06** with several worker threads. Any number of clients are connected, at the same time, to read-only exports of files, with or without
splicing, or of trees of block files; they send any bytes at all; the threads take their steps, one system call each, in any order; the kernel answers
anything. At every moment every file is there with the size and contents it had before, and no write, trim or write-zeroes request is answered with anything but
EPERM (a request with undefined flag bits may be refused as EINVAL instead). -/
theorem C06_threads (e : Endian) (cls : Nat → Client) (hro : ∀ sid, has (cls sid).ex.flags F_READONLY = true) (tree : Nat → Bool)
    (lgs : Nat → Bool) (w : World) (sem : Option Nat) (log : List Byte) (streams : List (List Byte)) (errnos : Nat → List Nat) (pos : Nat → Nat)
    (T : System World) (tr : List (Nat × Ext))
    (hx : Exec (fun sid => if tree sid then treeServer e (cls sid) (lgs sid) else spliceServer e (cls sid) (lgs sid))
      ⟨⟨w, sem, log⟩, streams.mapIdx fun i stream => Session.fresh stream (errnos i) (pos i)⟩ tr T) :
    (∀ id, (T.sh.st.files id).map (fun f => (f.data, f.size)) = (w.files id).map (fun f => (f.data, f.size))) ∧
    ∀ (sid : Nat) (s : Session World), T.sessions[sid]? = some s → ∀ j ∈ received sid tr, ∀ bytes, (j.id, bytes) ∈ messages sid tr →
      j.req.type < 262144 → (j.req.type % 65536 = 1 ∨ j.req.type % 65536 = 4 ∨ j.req.type % 65536 = 6) →
      bytes = (Reply.simple 1 j.req.cookie []).encode := by
  obtain ⟨h1, h2⟩ := hx.still (R := SameStore) (P := fun _ j => Eperm j.req) SameStore.refl (fun _ _ _ => SameStore.trans)
    (by
      intro sid j en
      cases tree sid
      · exact requestS_still e _ (hro sid) _ _ _ _
      · exact requestT_still e _ (hro sid) _ _ _ _)
    (by
      intro sid st st' stream x h
      cases ht : tree sid <;> rw [ht] at h <;> exact .of_files (fetch_files _ _ _ _ _ _ h))
    (by
      intro s hs
      obtain ⟨i, h, rfl⟩ := List.mem_mapIdx.mp hs
      exact ⟨_, _, _, rfl⟩)
  exact ⟨h1, fun sid s hs j hj bytes hm ht hc => refused_of_still (h2 sid s hs) j hj bytes hm ht hc⟩

/-- **C06** with several worker threads, on read-only exports that are also copy-on-write: as `C06_threads`, with every access to the page map a step of its own. -/
theorem C06_threads_cow (e : Endian) (cls : Nat → Client) (hro : ∀ sid, has (cls sid).ex.flags F_READONLY = true)
    (lgs : Nat → Bool) (maps : Nat → Client) (w : World) (sem : Option Nat) (log : List Byte) (streams : List (List Byte)) (errnos : Nat → List Nat)
    (pos : Nat → Nat) (T : System Mem) (tr : List (Nat × Ext))
    (hx : Exec (fun sid => cowServer e (cls sid) sid (lgs sid))
      ⟨⟨(maps, w), sem, log⟩, streams.mapIdx fun i stream => Session.fresh stream (errnos i) (pos i)⟩ tr T) :
    (∀ id, (T.sh.st.2.files id).map (fun f => (f.data, f.size)) = (w.files id).map (fun f => (f.data, f.size))) ∧
    ∀ (sid : Nat) (s : Session Mem), T.sessions[sid]? = some s → ∀ j ∈ received sid tr, ∀ bytes, (j.id, bytes) ∈ messages sid tr →
      j.req.type < 262144 → (j.req.type % 65536 = 1 ∨ j.req.type % 65536 = 4 ∨ j.req.type % 65536 = 6) →
      bytes = (Reply.simple 1 j.req.cookie []).encode := by
  obtain ⟨h1, h2⟩ := hx.still (R := SameStoreM) (P := fun _ j => Eperm j.req) (fun s => SameStore.refl s.2) (fun _ _ _ h h' => SameStore.trans h h')
    (by
      intro sid j en
      exact cowP_still e _ (hro sid) _ _ _ _ _)
    (by
      intro sid st st' stream x h
      dsimp only [cowServer] at h
      split at h
      · cases h
      · cases h
      · rename_i hf
        cases h
        exact .of_files (fetch_files _ _ _ _ _ _ hf))
    (by
      intro s hs
      obtain ⟨i, h, rfl⟩ := List.mem_mapIdx.mp hs
      exact ⟨_, _, _, rfl⟩)
  exact ⟨h1, fun sid s hs j hj bytes hm ht hc => refused_of_still (h2 sid s hs) j hj bytes hm ht hc⟩

/-- Two clients of a read-only export, each with two threads, write to it and read from it. -/
example : has Demo.roClient.ex.flags F_READONLY = true ∧
    ∃ tr T, Exec (fun _ => if false then treeServer .little Demo.roClient false else spliceServer .little Demo.roClient false)
      ⟨⟨Demo.world, none, []⟩, [(Demo.write 3 [10, 11, 12, 13]).encode, (Demo.write 3 [10, 11, 12, 13]).encode].mapIdx
        fun _ stream => Session.fresh stream [0, 0] 0⟩ tr T ∧
      (received 0 tr).map (fun j => (j.id, j.req.type)) = [(0, 1)] ∧ messages 0 tr = [(0, (Reply.simple 1 Demo.cookie []).encode)] ∧
      messages 1 tr = [(0, (Reply.simple 1 Demo.cookie []).encode)] := by
  obtain ⟨tr, T, h1, h2⟩ := System.play_check (fun _ => if false then treeServer .little Demo.roClient false else spliceServer .little Demo.roClient false)
    ⟨⟨Demo.world, none, []⟩, [(Demo.write 3 [10, 11, 12, 13]).encode, (Demo.write 3 [10, 11, 12, 13]).encode].mapIdx
        fun _ stream => Session.fresh stream [0, 0] 0⟩
    ([(1, .main), (0, .main)] ++ List.replicate 12 (0, .work 0 99) ++ List.replicate 12 (1, .work 1 99))
    (fun tr _ => (received 0 tr).map (fun j => (j.id, j.req.type)) == [(0, 1)] && messages 0 tr == [(0, (Reply.simple 1 Demo.cookie []).encode)] &&
      messages 1 tr == [(0, (Reply.simple 1 Demo.cookie []).encode)]) (by decide +kernel)
  simp only [Bool.and_eq_true, beq_iff_eq] at h2
  exact ⟨by decide, tr, T, h1, h2.1.1, h2.1.2, h2.2⟩

/-- A read-only copy-on-write export. -/
def roCow : Client := { Demo.roClient with ex := { Demo.roClient.ex with flags := F_READONLY ||| F_COPYONWRITE } }

/-- The same two clients on a read-only copy-on-write export. -/
example : has roCow.ex.flags F_READONLY = true ∧ has roCow.ex.flags F_COPYONWRITE = true ∧
    ∃ tr T, Exec (fun sid => cowServer .little roCow sid false)
      ⟨⟨((fun _ => roCow), Demo.world), none, []⟩, [(Demo.write 3 [10, 11, 12, 13]).encode, (Demo.write 3 [10, 11, 12, 13]).encode].mapIdx
        fun _ stream => Session.fresh stream [0, 0] 0⟩ tr T ∧
      (received 0 tr).map (fun j => (j.id, j.req.type)) = [(0, 1)] ∧ messages 0 tr = [(0, (Reply.simple 1 Demo.cookie []).encode)] := by
  obtain ⟨tr, T, h1, h2⟩ := System.play_check (fun sid => cowServer .little roCow sid false)
    ⟨⟨((fun _ => roCow), Demo.world), none, []⟩, [(Demo.write 3 [10, 11, 12, 13]).encode, (Demo.write 3 [10, 11, 12, 13]).encode].mapIdx
        fun _ stream => Session.fresh stream [0, 0] 0⟩
    ([(1, .main), (0, .main)] ++ List.replicate 12 (0, .work 0 99))
    (fun tr _ => (received 0 tr).map (fun j => (j.id, j.req.type)) == [(0, 1)] && messages 0 tr == [(0, (Reply.simple 1 Demo.cookie []).encode)])
    (by decide +kernel)
  simp only [Bool.and_eq_true, beq_iff_eq] at h2
  exact ⟨by decide, by decide, tr, T, h1, h2.1, h2.2⟩

end Props
end Nbd
