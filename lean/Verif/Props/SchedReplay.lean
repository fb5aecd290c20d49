import Verif.SchedNeat
import Verif.Props.Live
import Verif.Props.SchedLog
/-!
# Replaying the log of a session with several worker threads (C41)

The log has the requests in the order in which they were received. Worker threads carry them out in any order, so the log of a
session can be replayed only if no write overlaps with an earlier one that has not been answered yet.
-/

set_option autoImplicit false

namespace Nbd

namespace Spec

/-- Is this a request that writes, and does it write byte `i`? -/
def Sent.Covers (x : Sent) (i : Nat) : Prop :=
  (x.req.type % 65536 = 1 ∨ x.req.type % 65536 = 6) ∧ x.req.start ≤ i ∧ i < x.req.start + x.req.len

/-- Whenever a request of session 0 that writes byte `i` is received, each earlier request that writes it too has been answered. -/
def InTurnAt (i : Nat) (ss : List Sent) (tr : List (Nat × Ext)) : Prop :=
  ∀ (a b : List (Nat × Ext)) (j : Job), tr = a ++ (0, .recv j) :: b →
    ∀ (k : Nat) (x y : Sent), k < j.id → ss[k]? = some x → ss[j.id]? = some y → x.Covers i → y.Covers i →
      ∃ m, (0, .sent k m) ∈ a

/-- Whenever a request of session 0 is received, each earlier request that writes a byte this one writes too has been answered. -/
def InTurn (ss : List Sent) (tr : List (Nat × Ext)) : Prop := ∀ i, InTurnAt i ss tr

end Spec

namespace Props
open Spec

/-! ### The image -/

theorem pieces_write (bsz : Nat) {x : Sent} (hok : x.Ok) (hal : x.req.len % bsz = 0) (f : Flat) :
    applyBlocks f (x.req.pieces bsz x.data) =
      if x.req.type % 65536 = 1 then f.write x.req.start x.data
      else if x.req.type % 65536 = 6 then f.write x.req.start (Flat.zeros x.req.len)
      else f := by
  have hlen : x.req.len / bsz * bsz = x.req.len := by
    have := Nat.div_add_mod x.req.len bsz
    rw [hal, Nat.mul_comm] at this
    omega
  have hdat := hok.data
  unfold Request.pieces
  by_cases h1 : x.req.type % 65536 = 1
  · rw [if_pos h1, if_pos h1]
    rw [if_pos h1] at hdat
    rw [applyBlocks_blocks _ _ _ _ _ (by omega), hlen, ← hdat, List.take_length]
  · rw [if_neg h1, if_neg h1]
    by_cases h6 : x.req.type % 65536 = 6
    · rw [if_pos h6, if_pos h6]
      have hzl : (Flat.zeros x.req.len).length = x.req.len := by simp [Flat.zeros]
      rw [applyBlocks_blocks _ _ _ _ _ (by omega), hlen, List.take_of_length_le (by omega)]
    · rw [if_neg h6, if_neg h6]
      rfl

/-- What a request that writes byte `i` makes of it. -/
def Makes (x : Sent) (i : Nat) (b : Byte) : Prop :=
  (x.req.type % 65536 = 1 ∧ x.data[i - x.req.start]? = some b) ∨ (x.req.type % 65536 = 6 ∧ b = 0)

theorem pieces_byte (bsz : Nat) {x : Sent} (hok : x.Ok) (hal : x.req.len % bsz = 0) (f : Flat) (i : Nat) :
    (¬ x.Covers i ∧ applyBlocks f (x.req.pieces bsz x.data) i = f i) ∨
    (x.Covers i ∧ Makes x i (applyBlocks f (x.req.pieces bsz x.data) i)) := by
  have hdat := hok.data
  rw [pieces_write bsz hok hal]
  by_cases h1 : x.req.type % 65536 = 1
  · rw [if_pos h1]
    rw [if_pos h1] at hdat
    by_cases hi : x.req.start ≤ i ∧ i < x.req.start + x.req.len
    · right
      refine ⟨⟨.inl h1, hi⟩, .inl ⟨h1, ?_⟩⟩
      have hlt : i - x.req.start < x.data.length := by omega
      have := Flat.write_inside f x.req.start x.data (i - x.req.start) hlt
      rw [show x.req.start + (i - x.req.start) = i by omega] at this
      rw [this, List.getElem?_eq_getElem hlt]
    · left
      exact ⟨fun h => hi h.2, Flat.write_outside _ _ _ _ (by omega)⟩
  · rw [if_neg h1]
    by_cases h6 : x.req.type % 65536 = 6
    · rw [if_pos h6]
      have hzl : (Flat.zeros x.req.len).length = x.req.len := by simp [Flat.zeros]
      by_cases hi : x.req.start ≤ i ∧ i < x.req.start + x.req.len
      · right
        refine ⟨⟨.inr h6, hi⟩, .inr ⟨h6, ?_⟩⟩
        have hlt : i - x.req.start < (Flat.zeros x.req.len).length := by omega
        have := Flat.write_inside f x.req.start (Flat.zeros x.req.len) (i - x.req.start) hlt
        rw [show x.req.start + (i - x.req.start) = i by omega] at this
        rw [this]
        simp [Flat.zeros]
      · left
        exact ⟨fun h => hi h.2, Flat.write_outside _ _ _ _ (by omega)⟩
    · rw [if_neg h6]
      left
      exact ⟨fun h => by rcases h.1 with h | h <;> contradiction, rfl⟩

/-- A byte after the writes of all requests: as the last that writes it makes it. -/
theorem applied_byte (bsz : Nat) (i : Nat) (ss : List Sent) (hok : ∀ x ∈ ss, x.Ok) (hal : ∀ x ∈ ss, x.req.len % bsz = 0)
    (f : Flat) :
    ((∀ x ∈ ss, ¬ x.Covers i) ∧ applyBlocks f (ss.flatMap fun s => s.req.pieces bsz s.data) i = f i) ∨
    ∃ (n : Nat) (x : Sent), ss[n]? = some x ∧ x.Covers i ∧ (∀ (m : Nat) (y : Sent), ss[m]? = some y → y.Covers i → m ≤ n) ∧
      Makes x i (applyBlocks f (ss.flatMap fun s => s.req.pieces bsz s.data) i) := by
  induction ss generalizing f with
  | nil => exact .inl ⟨by simp, rfl⟩
  | cons s ss ih =>
    rw [List.flatMap_cons, applyBlocks_append]
    rcases ih (fun x hx => hok x (by simp [hx])) (fun x hx => hal x (by simp [hx]))
      (applyBlocks f (s.req.pieces bsz s.data)) with ⟨h1, h2⟩ | ⟨n, x, h1, h2, h3, h4⟩
    · rw [h2]
      rcases pieces_byte bsz (hok s (by simp)) (hal s (by simp)) f i with ⟨h3, h4⟩ | ⟨h3, h4⟩
      · refine .inl ⟨?_, h4⟩
        intro x hx
        rcases List.mem_cons.mp hx with rfl | hx
        · exact h3
        · exact h1 x hx
      · refine .inr ⟨0, s, rfl, h3, ?_, h4⟩
        intro m y hy hc
        cases m with
        | zero => omega
        | succ m =>
          rw [List.getElem?_cons_succ] at hy
          exact absurd hc (h1 y (List.mem_of_getElem? hy))
    · refine .inr ⟨n + 1, x, by rw [List.getElem?_cons_succ]; exact h1, h2, ?_, h4⟩
      intro m y hy hc
      cases m with
      | zero => omega
      | succ m =>
        rw [List.getElem?_cons_succ] at hy
        have := h3 m y hy hc
        omega

/-! ### What is done for a request -/

theorem encode_zero {err : Nat} {c d : List Byte} (he : err ∈ errnos)
    (h : [(Reply.simple err c []).encode] = [(Reply.simple 0 d []).encode]) : False := by
  have herr : ∀ err ∈ errnos, err < 2 ^ 32 ∧ err ≠ 0 := by decide
  have h1 : wire [.simple err c []] = (Reply.simple 0 d []).encode := by
    simpa [wire] using h
  exact (herr err he).2 (simple_encode_inj (herr err he).1 (by decide) h1)

/-- A request that was acknowledged is one the server knows, and inside the export. -/
theorem does_acked {size : Nat} {ro : Bool} {fr : List Bool} {x : Sent} {l : List Act} {rs : List Reply}
    (h : Does size ro fr x.cmd l rs) (ht : x.req.type % 65536 = 1 ∨ x.req.type % 65536 = 6)
    (ha : rs.map Reply.encode = [(Reply.simple 0 x.req.cookie []).encode]) :
    x.cmd.code = x.req.type % 65536 ∧ x.req.start + x.req.len ≤ size := by
  have hcmd : x.cmd.code = 65535 ∨ x.cmd.code = x.req.type % 65536 := by
    simp only [Sent.cmd]
    split
    · exact .inr rfl
    · exact .inl rfl
  cases h with
  | read data rs hc hr hl m hm h => omega
  | readFails data rs hc hr hl m hm h => omega
  | write hc hw hr => exact ⟨by omega, hr⟩
  | writeFails hc hw hr err n he => exact (encode_zero he ha).elim
  | zeroes hc hw hr hl => exact ⟨by omega, hr⟩
  | zeroesFails hc hw hr err l hz he => exact (encode_zero he ha).elim
  | zeroesBig hc hw hr hl l hz hf => exact ⟨by omega, hr⟩
  | flush hc err he => omega
  | trim hc hw hr l hz => omega
  | refused err he why => exact (encode_zero he ha).elim

/-- Simple replies only, unless it is a read and structured replies are in use. -/
theorem does_simple {size : Nat} {ro st : Bool} {c : Cmd} {l : List Act} {rs : List Reply}
    (h : Does size ro [st] c l rs) (hs : st = false ∨ c.code ≠ 0) :
    ∀ r ∈ rs, ∃ err data, r = .simple err c.cookie data ∧ err < 2 ^ 32 := by
  have herr : ∀ err ∈ errnos, err < 2 ^ 32 := by decide
  have one : ∀ err data, err < 2 ^ 32 → ∀ r ∈ [Reply.simple err c.cookie data],
      ∃ err data, r = .simple err c.cookie data ∧ err < 2 ^ 32 := by
    intro err data he r hr
    rw [List.mem_singleton] at hr
    exact ⟨err, data, hr, he⟩
  cases h with
  | read data rs hc hr hl m hm h =>
    have hm' : m = st := by simpa using hm
    cases h with
    | simple => exact one 0 _ (by decide)
    | structured cs h => rw [← hm'] at hs; rcases hs with hs | hs <;> contradiction
  | readFails data rs hc hr hl m hm h =>
    have hm' : m = st := by simpa using hm
    cases h with
    | simple err he => exact one err _ (herr err he)
    | structured n err cs h he msg hmsg => rw [← hm'] at hs; rcases hs with hs | hs <;> contradiction
  | write hc hw hr => exact one 0 _ (by decide)
  | writeFails hc hw hr err n he => exact one err _ (herr err he)
  | zeroes hc hw hr hl => exact one 0 _ (by decide)
  | zeroesFails hc hw hr err l hz he => exact one err _ (herr err he)
  | zeroesBig hc hw hr hl l hz hf => exact one 0 _ (by decide)
  | flush hc err he =>
    rcases he with rfl | he
    · exact one 0 _ (by decide)
    · exact one err _ (herr err he)
  | trim hc hw hr l hz => exact one 0 _ (by decide)
  | refused err he why => exact one err _ (herr err he)

/-- With one session, all events are its own. -/
theorem exec_single {σ : Type} {v : Nat → Server σ} {S T : System σ} {tr : List (Nat × Ext)} (hS : S.sessions.length = 1)
    (hx : Exec v S tr T) : T.sessions.length = 1 ∧ ∀ x ∈ tr, x.1 = 0 := by
  induction hx with
  | nil => exact ⟨hS, by simp⟩
  | step tr T sid s s' evs sh' h hs h1 ih =>
    have hsid : sid = 0 := by
      have := (List.getElem?_eq_some_iff.mp hs).1
      omega
    refine ⟨by simpa using ih.1, ?_⟩
    intro x hx
    rcases List.mem_append.mp hx with hx | hx
    · exact ih.2 x hx
    · obtain ⟨y, _, rfl⟩ := List.mem_map.mp hx
      exact hsid

theorem flatMap_filter {α β : Type} (L : List α) (q : α → Bool) (g : α → List β) (h : ∀ x ∈ L, q x = false → g x = []) :
    L.flatMap g = (L.filter q).flatMap g := by
  induction L with
  | nil => rfl
  | cons x L ih =>
    have ih := ih (fun y hy => h y (by simp [hy]))
    cases hq : q x with
    | true => rw [List.filter_cons, hq, if_pos rfl, List.flatMap_cons, List.flatMap_cons, ih]
    | false =>
      rw [List.filter_cons, hq, List.flatMap_cons, h x (by simp) hq, ih]
      rfl

/-- The records that make up a log whose pieces are requests and simple replies. -/
theorem pieces_played (bsz : Nat) (L : List Piece) (ss : List Sent) (fin : Option Request) (hok : ∀ x ∈ ss, x.Ok)
    (hfin : ∀ r ∈ fin, r.IsDisc)
    (hreq : L.filter (fun x => !x.rep) = Nbd.asked true ss ss.length ++ byePiece ss.length fin)
    (hrep : ∀ p ∈ L, p.rep = true → ∃ err c, (Record.reply err c).Ok true ∧ p.bs = (Record.reply err c).encode)
    (hal : ∀ s ∈ ss, s.req.Aligned bsz) (half : ∀ r ∈ fin, r.Aligned bsz) :
    ∃ recs : List Record, recs.flatMap Record.encode = L.flatMap Piece.bs ∧ (∀ x ∈ recs, x.Ok true) ∧
      (∀ x ∈ recs, x.Playable bsz) ∧ recs.flatMap (Record.pieces bsz) = ss.flatMap fun s => s.req.pieces bsz s.data := by
  have hbye : ∀ r ∈ fin, (Record.request r []).Ok true := by
    intro r hr
    have h := hfin r hr
    exact ⟨h.fits, h.magic, by rw [h.disc]; simp⟩
  have hpiece : ∀ p ∈ L, ∃ x : Record, x.Ok true ∧ p.bs = x.encode ∧ x.Playable bsz ∧ (p.rep = true → x.pieces bsz = []) := by
    intro p hp
    cases hpr : p.rep with
    | false =>
      have hm : p ∈ L.filter (fun x => !x.rep) := List.mem_filter.mpr ⟨hp, by rw [hpr]; rfl⟩
      rw [hreq, asked_all, List.mem_append] at hm
      rcases hm with hm | hm
      · obtain ⟨i, hi, rfl⟩ := List.mem_mapIdx.mp hm
        exact ⟨_, request_ok (keep := true) (hok _ (List.getElem_mem hi)), rfl, hal _ (List.getElem_mem hi), by simp⟩
      · cases fin with
        | none => cases hm
        | some r =>
          rw [byePiece, List.mem_singleton] at hm
          subst hm
          exact ⟨_, hbye r rfl, by simp [Record.encode], half r rfl, by simp⟩
    | true =>
      obtain ⟨err, c, h1, h2⟩ := hrep p hp hpr
      exact ⟨_, h1, h2, trivial, fun _ => rfl⟩
  have hrec : ∀ p ∈ L, (recOf true p.bs).Ok true ∧ (recOf true p.bs).encode = p.bs ∧ (recOf true p.bs).Playable bsz ∧
      (p.rep = true → (recOf true p.bs).pieces bsz = []) := by
    intro p hp
    obtain ⟨x, x1, x2, x3, x4⟩ := hpiece p hp
    rw [x2, recOf_encode x1]
    exact ⟨x1, rfl, x3, x4⟩
  refine ⟨L.map fun p => recOf true p.bs, pieces_bytes true L (fun p hp => (hrec p hp).2.1), ?_, ?_, ?_⟩
  · intro x hx
    obtain ⟨p, hp, rfl⟩ := List.mem_map.mp hx
    exact (hrec p hp).1
  · intro x hx
    obtain ⟨p, hp, rfl⟩ := List.mem_map.mp hx
    exact (hrec p hp).2.2.1
  · rw [List.flatMap_map, flatMap_filter L (fun x => !x.rep) _ (fun p hp hr => (hrec p hp).2.2.2 (by simpa using hr)), hreq,
      asked_all, List.flatMap_append]
    have h2 : (byePiece ss.length fin).flatMap (fun p => (recOf true p.bs).pieces bsz) = [] := by
      cases fin with
      | none => rfl
      | some r =>
        have hd := (hfin r rfl).disc
        have := recOf_encode (hbye r rfl)
        simp only [Record.encode, List.append_nil] at this
        simp [byePiece, this, Record.pieces, Request.pieces, hd]
    rw [h2, List.append_nil, List.flatMap_def, List.flatMap_def]
    congr 1
    apply List.ext_getElem
    · simp
    · intro i h1 h2
      simp only [List.getElem_map, List.getElem_mapIdx]
      have hi : i < ss.length := by simpa using h2
      have := recOf_encode (request_ok (keep := true) (hok _ (List.getElem_mem hi)))
      exact congrArg (Record.pieces bsz) this

/-- **C41** with any number of worker threads. A session on a plain export that logs data into a new file, in which every request is
a read, a flush, or an accepted write or write-zeroes request, all aligned to the block size `bsz`, with simple replies. The client
may have any number of requests in flight, but no write that overlaps with an earlier one not answered yet (`InTurn`). However the
threads take turns: once the session has ended in order, replaying the log onto an image with the contents the export had before
either fails because the kernel reported an error, or ends successfully with the image after the first `max` blocks in the order of
sending; if the session wrote no more than `max` blocks, that is exactly the contents of the export.

Without `InTurn` this is false: `C41_false_threads`. Missing from the full property: as in `C41_partial`. -/
theorem C41_threads_partial (e : Endian) (cl : Client) (w : World) (hcl : Flatfile cl) (hlog : has cl.ex.flags F_DATALOG = true)
    (ss : List Sent) (hok : ∀ s ∈ ss, s.Ok)
    (fin : Option Request) (hfin : ∀ r ∈ fin, r.IsDisc) (bsz max : Nat) (hb : 0 < bsz) (hmax : 0 < max)
    (hal : ∀ s ∈ ss, s.req.start % bsz = 0 ∧ s.req.len % bsz = 0)
    (half : ∀ r ∈ fin, r.start % bsz = 0 ∧ r.len % bsz = 0)
    (hcode : ∀ s ∈ ss, s.req.type % 65536 ∈ [0, 1, 3, 6])
    (hz : ∀ s ∈ ss, s.req.type % 65536 = 6 → s.req.len ≤ 64 * 1024 * 1024)
    (hsimple : cl.structured = false ∨ ∀ s ∈ ss, s.req.type % 65536 ≠ 0)
    (errnos : List Nat) (T : System World) (tr : List (Nat × Ext))
    (hx : Exec (fun _ => plainServer e cl true)
      ⟨⟨w, none, (setupLog e cl.ex.flags []).file⟩,
        [Session.fresh (ss.flatMap Sent.encode ++ closing fin) errnos (setupLog e cl.ex.flags []).pos]⟩ tr T)
    (s : Session World) (hs : T.sessions[0]? = some s) (hov : s.main = .over)
    (hacc : ∀ (i : Nat) (x : Sent), ss[i]? = some x → x.req.type % 65536 = 1 ∨ x.req.type % 65536 = 6 →
      messagesFor 0 i tr = [(Reply.simple 0 x.req.cookie []).encode])
    (hturn : InTurn ss tr)
    (w0 : World) (id : FileId) (img : File) (himg : w0.files id = some img) (hcopy : img.data = view cl.ex w)
    (hmoves : ∀ t, w0.orc t ≠ .done 0)
    (p : Played) (hplay : p = trplay e bsz max id T.sh.file false w0 0) :
    (p.code = 0 ∨ (p.code = 1 ∧ ∃ t n, w0.orc t = .err n)) ∧
    (p.code = 0 →
      ∃ img', p.w.files id = some img' ∧
        img'.data = applyBlocks (view cl.ex w) ((ss.flatMap fun s => s.req.pieces bsz s.data).take max) ∧
        p.blocks = min max (ss.flatMap fun s => s.req.pieces bsz s.data).length ∧
        ((ss.flatMap fun s => s.req.pieces bsz s.data).length ≤ max → img'.data = view cl.ex T.sh.st)) := by
  have hset : (setupLog e cl.ex.flags []).pos = (setupLog e cl.ex.flags []).file.length ∧
      (setupLog e cl.ex.flags []).file = Record.dataOn.encode := by
    unfold setupLog
    rw [hlog]
    simp only [if_true]
    rw [fresh_write, optionRecord_eq]
    exact ⟨rfl, rfl⟩
  rw [hset.1] at hx
  have hfresh : ∀ t ∈ [Session.fresh (σ := World) (ss.flatMap Sent.encode ++ closing fin) errnos
      (setupLog e cl.ex.flags []).file.length], t.Fresh := by
    intro t ht; rw [List.mem_singleton] at ht; exact ⟨_, errnos, _, ht⟩
  obtain ⟨_, hzero⟩ := exec_single rfl hx
  obtain ⟨t, L, ht, hL⟩ := hx.logged (plainServer_hdrs e cl) rfl
    (fun en j hj => (requestP_neat e cl en j.req hj j.payload).logs) (plainServer_reads e cl true fin hfin) hok hfin
  rw [ht] at hs
  cases hs
  have hL : LogInv true (setupLog e cl.ex.flags []).file ss fin tr T.sh s L := by
    have : (has (plainServer e cl true).cl.ex.flags F_DATALOG && !has (plainServer e cl true).cl.ex.flags F_SPLICE) = true := by
      show (has cl.ex.flags F_DATALOG && !has cl.ex.flags F_SPLICE) = true
      rw [hlog, hcl.splice]; rfl
    rw [this] at hL
    exact hL
  have hs0 : T.sessions[0]? = some s := by rw [ht]; rfl
  obtain ⟨t1, t2⟩ := hx.tidy hfresh 0 s hs0 hov
  obtain ⟨t, ht', hfo⟩ := hx.follows (sid := 0) (ss := ss) (tail := closing fin)
    (plainServer_reads e cl true fin hfin) hok ⟨errnos, _, rfl⟩
  rw [hs0] at ht'
  cases ht'
  have hlen := hfo.all (.inr hov)
  have hread := hfo.read
  rw [hlen, List.take_length] at hread
  -- the requests as the server has numbered them
  obtain ⟨g, g1, _, _, _, g5⟩ := hx.inv (fun _ => plainServer_hdrs e cl) hfresh
  have si := g5 0 s hs0
  have hcount : s.count = ss.length := by
    have := congrArg List.length si.ids
    rw [← recvs_visible, g1] at this
    simpa [hlen] using this.symm
  have hids : (received 0 tr).map Job.id = List.range ss.length := by
    rw [← hcount, ← si.ids, ← recvs_visible, g1]
  have hjob : ∀ j ∈ received 0 tr, ∃ x, ss[j.id]? = some x ∧ asked j = x.cmd ∧ j.req.cookie = x.req.cookie := by
    intro j hj
    obtain ⟨n, hn, rfl⟩ := List.getElem_of_mem hj
    have hid : (received 0 tr)[n].id = n := by
      have : ((received 0 tr).map Job.id)[n]? = some (received 0 tr)[n].id := by
        rw [List.getElem?_map, List.getElem?_eq_getElem hn]; rfl
      rw [hids, List.getElem?_range (by omega)] at this
      exact (Option.some.inj this).symm
    have hlt : n < ss.length := by omega
    refine ⟨ss[n], by rw [hid, List.getElem?_eq_getElem hlt], ?_⟩
    have : ((received 0 tr).map Job.what)[n]? = some (received 0 tr)[n].what := by
      rw [List.getElem?_map, List.getElem?_eq_getElem hn]; rfl
    rw [hread, List.getElem?_map, List.getElem?_eq_getElem hlt] at this
    simp only [Option.map_some, Option.some.injEq, Job.what, Prod.mk.injEq] at this
    unfold asked cmdOf
    rw [← this.1, ← this.2]
    exact ⟨rfl, rfl⟩
  have hnum : ∀ n x, ss[n]? = some x → ∃ j ∈ received 0 tr, j.id = n := by
    intro n x hn
    have hlt := (List.getElem?_eq_some_iff.mp hn).1
    have : n ∈ (received 0 tr).map Job.id := by rw [hids]; exact List.mem_range.mpr hlt
    obtain ⟨j, hj, h⟩ := List.mem_map.mp this
    exact ⟨j, hj, h⟩
  -- what was done
  have hone : OneExport cl.ex (fun _ => cl) := ⟨fun _ => rfl, fun _ => hcl⟩
  obtain ⟨h, h1, h2, h3⟩ := linear_history e cl.ex (fun _ => cl) (fun _ => true) hone _ T tr hfresh hx
  have hdoes : ∀ j ∈ received 0 tr, ∃ rs, (sentFor 0 j.id tr).map Msg.bytes = rs.map Reply.encode ∧
      ∃ l, Does cl.ex.exportsize (badWrite cl) [cl.structured] (asked j) l rs := by
    intro j hj
    rw [← h1, recvs_visible] at hj
    obtain ⟨rs, r1, r2, _⟩ := h3 0 s hs0 hov j hj
    rw [msgs_mine, h1] at r1
    exact ⟨rs, r1, _, r2⟩
  have hacked : ∀ (n : Nat) (x : Sent), ss[n]? = some x → x.req.type % 65536 = 1 ∨ x.req.type % 65536 = 6 →
      x.cmd.code = x.req.type % 65536 ∧ x.req.start + x.req.len ≤ cl.ex.exportsize := by
    intro n x hn hc
    obtain ⟨j, hj, rfl⟩ := hnum n x hn
    obtain ⟨rs, r1, l, r2⟩ := hdoes j hj
    obtain ⟨y, y1, y2, _⟩ := hjob j hj
    rw [hn] at y1
    cases y1
    rw [y2] at r2
    have := hacc _ _ hn hc
    rw [messagesFor_eq, r1] at this
    exact does_acked r2 hc this
  -- the log
  have hsz := hcl.plain.good.size
  obtain ⟨tl, q1, _, _, q4⟩ := hL.reqs
  rw [q4 (.inr hov), hlen] at q1
  obtain ⟨recs, c1, c2, c3, c4⟩ := pieces_played bsz L ss fin hok hfin q1 (by
    intro q hq hqr
    have hm : q.bs ∈ repliesIn q.num L := List.mem_map_of_mem (List.mem_filter.mpr ⟨hq, by simp [hqr]⟩)
    have hlt : q.num < ss.length := by
      by_cases hlt : q.num < ss.length
      · exact hlt
      · rw [hL.fresh q.num (by omega)] at hm
        cases hm
    have hrest : repliesIn q.num L = hdrsFor q.num tr := hL.rest q.num (by
      intro k x j hx' hj
      obtain ⟨en, rfl⟩ := t2 x (List.mem_of_getElem? hx')
      cases hj)
    rw [hrest] at hm
    obtain ⟨m, hm, hbs⟩ := List.mem_map.mp hm
    obtain ⟨j, hj, hjid⟩ := hnum q.num _ (List.getElem?_eq_getElem hlt)
    obtain ⟨x, x1, x2, x3⟩ := hjob j hj
    have hxm := List.mem_of_getElem? x1
    have hck : j.req.cookie.length = 8 := by rw [x3]; exact (hok x hxm).fits.cookie
    have hhdr : HdrOk e j.req.cookie m := by
      have hj' := hj
      rw [← g1, recvs_visible] at hj'
      rcases si.finished j hj' with hq' | ⟨k, y, hy, hyj⟩ | hp
      · rw [t1] at hq'; cases hq'
      · obtain ⟨en, rfl⟩ := t2 y (List.mem_of_getElem? hy)
        cases hyj
      · refine hp m ?_
        rw [msgs_mine, g1, hjid]
        exact hm
    obtain ⟨rs, r1, l, r2⟩ := hdoes j hj
    rw [hjid] at r1
    have hbm : m.bytes ∈ rs.map Reply.encode := by rw [← r1]; exact List.mem_map_of_mem hm
    obtain ⟨r, hr, hrb⟩ := List.mem_map.mp hbm
    obtain ⟨err, data, rfl, he⟩ := does_simple r2 (by
      rcases hsimple with h | h
      · exact .inl h
      · right
        rw [x2]
        have := h x hxm
        simp only [Sent.cmd]
        split
        · exact this
        · omega) r hr
    have hc' : (asked j).cookie = j.req.cookie := rfl
    rw [hc'] at hrb
    refine ⟨err, j.req.cookie, ⟨he, hck⟩, ?_⟩
    rw [← hbs]
    exact hdr_record e _ m (.simple err j.req.cookie data) hhdr hrb.symm hck hck)
    (by
      intro x hxm
      refine ⟨(hal x hxm).1, (hal x hxm).2, ?_, ?_⟩
      · have := hcode x hxm
        simp only [List.mem_cons, List.not_mem_nil, or_false] at this ⊢
        omega
      · intro hc
        obtain ⟨n, hn⟩ := List.getElem?_of_mem hxm
        have := (hacked n x hn hc).2
        omega)
    (by
      intro r hr
      have hd := (hfin r hr).disc
      exact ⟨(half r hr).1, (half r hr).2, by rw [hd]; decide, by rw [hd]; simp⟩)
  have hfile := hL.file
  rw [hset.2, ← c1] at hfile
  have hrep := trplay_records e bsz max hb id recs c2 c3 w0 0 (view cl.ex w) hmax ⟨img, himg, hcopy⟩ hmoves
  rw [c4] at hrep
  have hp' : p = trplay e bsz max id (recs.flatMap Record.encode) true w0 0 := by
    rw [hplay, hfile, trplay_dataOn]
  rw [← hp'] at hrep
  refine ⟨hrep.code, fun h0 => ?_⟩
  obtain ⟨img', hi, hd⟩ := hrep.image h0
  refine ⟨img', hi, hd, by simpa using hrep.count h0, fun hle => ?_⟩
  rw [hd, List.take_of_length_le (by omega)]
  -- the contents of the export
  funext i
  have law := fun (_ : Nat) => Complete.law (size := cl.ex.exportsize) hsz (badWrite cl) [cl.structured]
  have hcover : ∀ sid j, .recv sid j ∈ h → Touches (asked j) i →
      sid = 0 ∧ j ∈ received 0 tr ∧ ∃ x, ss[j.id]? = some x ∧ x.Covers i := by
    intro sid j hj htc
    have hj' := mem_visible_recv.mpr hj
    rw [h1] at hj'
    have h0 : sid = 0 := hzero _ hj'
    subst h0
    have hjr : j ∈ received 0 tr := by rw [← h1, recvs_visible]; exact mem_recvs.mpr hj
    obtain ⟨x, x1, x2, _⟩ := hjob j hjr
    refine ⟨rfl, hjr, x, x1, ?_⟩
    rw [x2] at htc
    obtain ⟨u1, u2, u3⟩ := htc
    have hcm := hcode x (List.mem_of_getElem? x1)
    simp only [List.mem_cons, List.not_mem_nil, or_false, Sent.cmd] at u1 hcm
    refine ⟨?_, u2, u3⟩
    split at u1 <;> omega
  rcases applied_byte bsz i ss hok (fun x hx => (hal x hx).2) (view cl.ex w) with ⟨n1, n2⟩ | ⟨n, x, n1, n2, n3, n4⟩
  · rw [n2]
    refine (legal_value h2.legal ?_ (.inl rfl)).symm
    intro y hy
    exfalso
    obtain ⟨sid, jid, hy⟩ := mem_acts.mp hy
    obtain ⟨a, b, hab⟩ := List.append_of_mem hy
    obtain ⟨j, hj, rfl⟩ := h2.causal a sid jid _ b hab
    have hjh : .recv sid j ∈ h := by rw [hab]; exact List.mem_append_left _ (mem_recvs.mp hj)
    obtain ⟨more, hc⟩ := h2.does sid j (mem_recvs.mpr hjh)
    have htc := ((law sid).mayStore trivial hc (h2.data sid j (mem_recvs.mpr hjh))
      (List.mem_append_left _ (mem_mine.mpr hy))).1
    obtain ⟨_, _, x, x1, x2⟩ := hcover sid j hjh htc
    exact n1 x (List.mem_of_getElem? x1) x2
  · obtain ⟨W, hW, hWid⟩ := hnum n x n1
    obtain ⟨x', x1, x2, x3⟩ := hjob W hW
    rw [hWid, n1] at x1
    cases x1
    have hWh : .recv 0 W ∈ h := by
      rw [← h1, recvs_visible] at hW
      exact mem_recvs.mp hW
    obtain ⟨ha, h4, hab⟩ := List.append_of_mem hWh
    -- the acknowledgement
    have hack := hacc n x n1 n2.1
    rw [messagesFor_eq, ← h1, ← msgs_mine, ← hWid, hab, mine_append, h2.before hab] at hack
    have hsent : ∃ ok, .act 0 W.id (.msg ok) ∈ h4 ∧ ok.bytes = (Reply.simple 0 x.req.cookie []).encode := by
      simp only [List.nil_append] at hack
      have hmem : (Reply.simple 0 x.req.cookie []).encode ∈
          (Act.msgs (mine 0 W.id (.recv 0 W :: h4))).map Msg.bytes := by rw [hack]; simp
      obtain ⟨ok, ho, hob⟩ := List.mem_map.mp hmem
      have hin : Act.msg ok ∈ mine 0 W.id (.recv 0 W :: h4) := by
        generalize mine 0 W.id (.recv 0 W :: h4) = l at ho
        induction l with
        | nil => cases ho
        | cons y l ih =>
          cases y with
          | msg m =>
            simp only [Act.msgs, List.mem_cons] at ho
            rcases ho with rfl | ho
            · simp
            · exact List.mem_cons_of_mem _ (ih ho)
          | get => exact List.mem_cons_of_mem _ (ih ho)
          | put => exact List.mem_cons_of_mem _ (ih ho)
      have := mem_mine.mp hin
      simp only [List.mem_cons, reduceCtorEq, false_or] at this
      exact ⟨ok, this, hob⟩
    obtain ⟨ok, hok1, hok2⟩ := hsent
    obtain ⟨hb1, hc1, hbc⟩ := List.append_of_mem hok1
    subst hbc
    refine (h2.holds law (hd := []) trivial (by rw [List.append_nil]; exact hab) (x := applyBlocks (view cl.ex w) _ i) ?_ ?_ ?_
      (by rw [← hab]; exact h2.legal)).symm
    · rw [x2]
      have hcd := (hacked n x n1 n2.1).1
      rcases n4 with ⟨m1, m2⟩ | ⟨m1, m2⟩
      · left
        exact ⟨by rw [hcd, m1], n2.2.1, m2⟩
      · right
        have := hz x (List.mem_of_getElem? n1) m1
        have u := n2.2
        exact ⟨by rw [hcd, m1], show i < x.req.start + 2 ^ 26 by omega, u.1, u.2, m2⟩
    · rw [x2]; exact hok2
    · intro sid j hj htc
      have hjh : .recv sid j ∈ h := by
        rw [hab]
        simp only [List.mem_append, List.mem_cons] at hj ⊢
        rcases hj with (hj | hj) | hj
        · exact .inl hj
        · exact .inr (.inr (.inl hj))
        · exact .inr (.inr (.inr (.inr hj)))
      obtain ⟨rfl, hjr, y, y1, y2⟩ := hcover sid j hjh htc
      have hle := n3 _ _ y1 y2
      by_cases hjn : j.id = n
      · exfalso
        have hnd := h2.ids 0
        rw [hab, recvs_append] at hnd
        have hin : j.id ∈ (recvs 0 ha).map Job.id ∨
            j.id ∈ (recvs 0 (hb1 ++ .act 0 W.id (.msg ok) :: hc1)).map Job.id := by
          simp only [List.mem_append] at hj
          rcases hj with (hj | hj) | hj
          · exact .inl (List.mem_map_of_mem (mem_recvs.mpr hj))
          · exact .inr (List.mem_map_of_mem (mem_recvs.mpr (List.mem_append_left _ hj)))
          · exact .inr (List.mem_map_of_mem (mem_recvs.mpr (List.mem_append_right _ (List.mem_cons_of_mem _ hj))))
        rw [hjn, ← hWid] at hin
        simp only [recvs, if_true, List.map_append, List.map_cons, List.nodup_append, List.nodup_cons] at hnd
        rcases hin with hin | hin
        · exact hnd.2.2 _ hin _ List.mem_cons_self rfl
        · exact hnd.2.1.1 hin
      · obtain ⟨m, hm⟩ := hturn i (visible ha) (visible (hb1 ++ .act 0 W.id (.msg ok) :: hc1)) W
          (by rw [← h1, hab, visible_append]; rfl) j.id y x (by omega) y1 (by rw [hWid]; exact n1) y2 n2
        exact ⟨m, mem_visible_sent.mp hm⟩

/-- **C41 is false** of writes that overlap and are in flight at the same time: the log has them in the order of arrival, the
threads may carry them out in the other. Both are acknowledged, the session ends in order, and the replay succeeds, but the image
has the data of the second write where the export has that of the first. -/
theorem C41_false_threads :
    ∃ (cl : Client) (w w0 : World) (ss : List Sent) (tr : List (Nat × Ext)) (T : System World), Flatfile cl ∧
      (∃ img, w0.files (.fd 9) = some img ∧ img.data = view cl.ex w) ∧
      Exec (fun _ => plainServer .little cl true)
        ⟨⟨w, none, (setupLog .little cl.ex.flags []).file⟩,
          [Session.fresh (ss.flatMap Sent.encode ++ closing (some logBye)) [0, 0] (setupLog .little cl.ex.flags []).pos]⟩ tr T ∧
      ss = [Demo.write 4 [5, 6], Demo.write 4 [7, 8]] ∧
      T.sessions.map (fun s => s.main) = [.over] ∧
      (∀ i < 2, messagesFor 0 i tr = [(Reply.simple 0 Demo.cookie []).encode]) ∧
      (view cl.ex T.sh.st).read 4 2 = [5, 6] ∧
      (trplay .little 2 100 (.fd 9) T.sh.file false w0 0).code = 0 ∧
      ((trplay .little 2 100 (.fd 9) T.sh.file false w0 0).w.files (.fd 9)).map (fun f => f.data.read 4 2) = some [7, 8] := by
  obtain ⟨tr, T, h1, h2⟩ := System.play_check (fun _ => plainServer .little (logClient false) true)
    ⟨⟨Demo.world, none, (setupLog .little (logClient false).ex.flags []).file⟩,
      [Session.fresh ([Demo.write 4 [5, 6], Demo.write 4 [7, 8]].flatMap Sent.encode ++ closing (some logBye)) [0, 0]
        (setupLog .little (logClient false).ex.flags []).pos]⟩
    (List.replicate 4 (0, .main) ++ [(0, .work 0 9)] ++ List.replicate 20 (0, .work 1 9) ++ List.replicate 20 (0, .work 0 9) ++
      List.replicate 4 (0, .main))
    (fun tr T => T.sessions.map (fun s => s.main) == [.over] &&
      (messagesFor 0 0 tr == [(Reply.simple 0 Demo.cookie []).encode] &&
      (messagesFor 0 1 tr == [(Reply.simple 0 Demo.cookie []).encode] &&
      ((view (logClient false).ex T.sh.st).read 4 2 == [5, 6] &&
      ((trplay .little 2 100 (.fd 9) T.sh.file false (imageWorld Demo.stingy) 0).code == 0 &&
      ((trplay .little 2 100 (.fd 9) T.sh.file false (imageWorld Demo.stingy) 0).w.files (.fd 9)).map
        (fun f => f.data.read 4 2) == some [7, 8]))))) (by decide +kernel)
  simp only [Bool.and_eq_true, beq_iff_eq] at h2
  obtain ⟨q1, q2, q3, q4, q5, q6⟩ := h2
  refine ⟨logClient false, Demo.world, imageWorld Demo.stingy, _, tr, T, log_flat false, ⟨_, rfl, rfl⟩, h1, rfl, q1, ?_, q4, q5, q6⟩
  intro i hi
  rcases i with _ | _ | i
  · exact q2
  · exact q3
  · omega

/-! ### An execution in turn -/

/-- Do two requests write a common byte? -/
def shareByte (x y : Sent) : Bool :=
  (x.req.type % 65536 == 1 || x.req.type % 65536 == 6) && (y.req.type % 65536 == 1 || y.req.type % 65536 == 6) &&
    decide (x.req.start < y.req.start + y.req.len) && decide (y.req.start < x.req.start + x.req.len)

/-- `InTurn` for one event, after those in `a`. -/
def turnOk (ss : List Sent) (a : List (Nat × Ext)) : Nat × Ext → Bool
  | (0, .recv j) => (List.range j.id).all fun k =>
      match ss[k]?, ss[j.id]? with
      | some x, some y => !shareByte x y ||
          a.any fun ev => match ev with
            | (0, .sent k' _) => k' == k
            | _ => false
      | _, _ => true
  | _ => true

/-- `InTurn`, computed. -/
def inTurn (ss : List Sent) : List (Nat × Ext) → List (Nat × Ext) → Bool
  | _, [] => true
  | a, ev :: b => turnOk ss a ev && inTurn ss (a ++ [ev]) b

theorem inTurn_sound (ss : List Sent) : ∀ (tr a0 : List (Nat × Ext)), inTurn ss a0 tr = true →
    ∀ (a b : List (Nat × Ext)) (j : Job), tr = a ++ (0, .recv j) :: b →
      ∀ (k : Nat) (x y : Sent) (i : Nat), k < j.id → ss[k]? = some x → ss[j.id]? = some y → x.Covers i → y.Covers i →
        ∃ m, (0, .sent k m) ∈ a0 ++ a := by
  intro tr
  induction tr with
  | nil => intro a0 _ a b j h; simp at h
  | cons ev tr ih =>
    intro a0 h a b j hab k x y i hk hx hy cx cy
    rw [inTurn, Bool.and_eq_true] at h
    cases a with
    | nil =>
      simp only [List.nil_append, List.cons.injEq] at hab
      obtain ⟨rfl, rfl⟩ := hab
      have h1 := h.1
      simp only [turnOk, List.all_eq_true, List.mem_range] at h1
      have := h1 k hk
      rw [hx, hy] at this
      simp only [Bool.or_eq_true, Bool.not_eq_true'] at this
      rcases this with hs | hs
      · exfalso
        have : shareByte x y = true := by
          obtain ⟨c1, c2, c3⟩ := cx
          obtain ⟨d1, d2, d3⟩ := cy
          simp only [shareByte, Bool.and_eq_true, Bool.or_eq_true, beq_iff_eq, decide_eq_true_eq]
          exact ⟨⟨⟨c1, d1⟩, by omega⟩, by omega⟩
        rw [this] at hs
        cases hs
      · obtain ⟨ev, he, hev⟩ := List.any_eq_true.mp hs
        split at hev
        · rw [beq_iff_eq] at hev
          subst hev
          exact ⟨_, by rw [List.append_nil]; exact he⟩
        · cases hev
    | cons ev' a =>
      simp only [List.cons_append, List.cons.injEq] at hab
      obtain ⟨rfl, rfl⟩ := hab
      obtain ⟨m, hm⟩ := ih (a0 ++ [ev]) h.2 a b j rfl k x y i hk hx hy cx cy
      exact ⟨m, by simpa using hm⟩

/-- An execution as in `C41_threads_partial`: a write, and one that does not overlap with it, in flight at once and carried out in
the other order; when both are answered, a write-zeroes request and a read. The replay gives the contents of the export. -/
example : ∃ tr T, Exec (fun _ => plainServer .little (logClient false) true)
      ⟨⟨Demo.world, none, (setupLog .little (logClient false).ex.flags []).file⟩,
        [Session.fresh ([Demo.write 4 [10, 11, 12, 13], Demo.write 8 [20, 21], Demo.request 6 6 4, Demo.request 0 2 4].flatMap
            Sent.encode ++ closing (some logBye)) [0, 0]
          (setupLog .little (logClient false).ex.flags []).pos]⟩ tr T ∧
    T.sessions.map (fun s => s.main) = [.over] ∧ (messages 0 tr).map Prod.fst = [1, 0, 2, 3] ∧
    InTurn [Demo.write 4 [10, 11, 12, 13], Demo.write 8 [20, 21], Demo.request 6 6 4, Demo.request 0 2 4] tr ∧
    (∀ i < 3, messagesFor 0 i tr = [(Reply.simple 0 Demo.cookie []).encode]) ∧
    (view (logClient false).ex T.sh.st).read 2 9 = [3, 4, 10, 11, 0, 0, 0, 0, 6] ∧
    (trplay .little 2 100 (.fd 9) T.sh.file false (imageWorld Demo.stingy) 0).code = 0 ∧
    ((trplay .little 2 100 (.fd 9) T.sh.file false (imageWorld Demo.stingy) 0).w.files (.fd 9)).map
      (fun f => f.data.read 2 9) = some [3, 4, 10, 11, 0, 0, 0, 0, 6] := by
  obtain ⟨tr, T, h1, h2⟩ := System.play_check (fun _ => plainServer .little (logClient false) true)
    ⟨⟨Demo.world, none, (setupLog .little (logClient false).ex.flags []).file⟩,
      [Session.fresh ([Demo.write 4 [10, 11, 12, 13], Demo.write 8 [20, 21], Demo.request 6 6 4, Demo.request 0 2 4].flatMap
          Sent.encode ++ closing (some logBye)) [0, 0]
        (setupLog .little (logClient false).ex.flags []).pos]⟩
    (List.replicate 4 (0, .main) ++ [(0, .work 0 9)] ++ List.replicate 20 (0, .work 1 9) ++ List.replicate 20 (0, .work 0 9) ++
      List.replicate 4 (0, .main) ++ List.replicate 30 (0, .work 1 9) ++ List.replicate 30 (0, .work 0 9) ++
      List.replicate 4 (0, .main))
    (fun tr T => T.sessions.map (fun s => s.main) == [.over] && ((messages 0 tr).map Prod.fst == [1, 0, 2, 3] &&
      (inTurn [Demo.write 4 [10, 11, 12, 13], Demo.write 8 [20, 21], Demo.request 6 6 4, Demo.request 0 2 4] [] tr &&
      (messagesFor 0 0 tr == [(Reply.simple 0 Demo.cookie []).encode] &&
      (messagesFor 0 1 tr == [(Reply.simple 0 Demo.cookie []).encode] &&
      (messagesFor 0 2 tr == [(Reply.simple 0 Demo.cookie []).encode] &&
      ((view (logClient false).ex T.sh.st).read 2 9 == [3, 4, 10, 11, 0, 0, 0, 0, 6] &&
      ((trplay .little 2 100 (.fd 9) T.sh.file false (imageWorld Demo.stingy) 0).code == 0 &&
      ((trplay .little 2 100 (.fd 9) T.sh.file false (imageWorld Demo.stingy) 0).w.files (.fd 9)).map
        (fun f => f.data.read 2 9) == some [3, 4, 10, 11, 0, 0, 0, 0, 6])))))))) (by decide +kernel)
  simp only [Bool.and_eq_true, beq_iff_eq] at h2
  obtain ⟨q1, q2, q3, q4, q5, q6, q7, q8, q9⟩ := h2
  refine ⟨tr, T, h1, q1, q2, fun i a b j hab k x y => ?_, ?_, q7, q8, q9⟩
  · have := inTurn_sound _ tr [] q3 a b j hab k x y i
    simpa using this
  · intro i hi
    rcases i with _ | _ | _ | i
    · exact q4
    · exact q5
    · exact q6
    · omega

end Props
end Nbd
