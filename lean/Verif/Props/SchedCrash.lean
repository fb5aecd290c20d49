import Verif.SchedCrash
import Verif.Props.SchedReplay
/-!
# The transaction log of a server that has died (C105)

The server logs a request, with its data, before a worker thread gets it. So at every moment the log has all that has been
acknowledged, and more.
-/

set_option autoImplicit false

namespace Nbd
namespace Props
open Spec

/-- One reply only, unless it is a read. -/
theorem does_one {size : Nat} {ro st : Bool} {c : Cmd} {l : List Act} {rs : List Reply}
    (h : Does size ro [st] c l rs) (hs : c.code ≠ 0) : ∃ r, rs = [r] := by
  cases h with
  | read data rs hc hr hl m hm h => exact absurd hc hs
  | readFails data rs hc hr hl m hm h => exact absurd hc hs
  | write hc hw hr => exact ⟨_, rfl⟩
  | writeFails hc hw hr err n he => exact ⟨_, rfl⟩
  | zeroes hc hw hr hl => exact ⟨_, rfl⟩
  | zeroesFails hc hw hr err l hz he => exact ⟨_, rfl⟩
  | zeroesBig hc hw hr hl l hz hf => exact ⟨_, rfl⟩
  | flush hc err he => exact ⟨_, rfl⟩
  | trim hc hw hr l hz => exact ⟨_, rfl⟩
  | refused err he why => exact ⟨_, rfl⟩

/-- **C105.** A session as in `C41_threads_partial` (a plain export that logs data into a new file, aligned requests, simple
replies), with any number of worker threads, at any moment: suppose the server is killed then. Every write answered so far was answered with success. Replaying the log it leaves onto a copy
of what the export held before the session either fails because the kernel reported an error, or succeeds, and then, unless the
limit `max` cut it short,
* a byte written by requests received so far is as the last of them wants it: no acknowledged write is lost;
* a byte on which no request is outstanding is as in the export, if no request that writes it was sent while an earlier one that
  writes it was unanswered.

Missing from the full property: as in `C41_partial`; several sessions that share a log, of which it is false
(`C105_false_shared`); a crash of the whole machine (the log is not synced). -/
theorem C105_crash_partial (e : Endian) (cl : Client) (w : World) (hcl : Flatfile cl) (hlog : has cl.ex.flags F_DATALOG = true)
    (ss : List Sent) (hok : ∀ s ∈ ss, s.Ok)
    (fin : Option Request) (hfin : ∀ r ∈ fin, r.IsDisc) (bsz max : Nat) (hb : 0 < bsz) (hmax : 0 < max)
    (hal : ∀ s ∈ ss, s.req.start % bsz = 0 ∧ s.req.len % bsz = 0)
    (half : ∀ r ∈ fin, r.start % bsz = 0 ∧ r.len % bsz = 0)
    (hcode : ∀ s ∈ ss, s.req.type % 65536 ∈ [0, 1, 3, 6])
    (hrange : ∀ s ∈ ss, s.req.type % 65536 = 1 ∨ s.req.type % 65536 = 6 → s.req.start + s.req.len ≤ cl.ex.exportsize)
    (hz : ∀ s ∈ ss, s.req.type % 65536 = 6 → s.req.len ≤ 64 * 1024 * 1024)
    (hsimple : cl.structured = false ∨ ∀ s ∈ ss, s.req.type % 65536 ≠ 0)
    (errnos : List Nat) (T : System World) (tr : List (Nat × Ext))
    (hx : Exec (fun _ => plainServer e cl true)
      ⟨⟨w, none, (setupLog e cl.ex.flags []).file⟩,
        [Session.fresh (ss.flatMap Sent.encode ++ closing fin) errnos (setupLog e cl.ex.flags []).pos]⟩ tr T)
    (s : Session World) (hs : T.sessions[0]? = some s) (hlive : s.main ≠ .dead ∧ s.main ≠ .broken)
    (hacc : ∀ (i : Nat) (x : Sent), ss[i]? = some x → x.req.type % 65536 = 1 ∨ x.req.type % 65536 = 6 →
      messagesFor 0 i tr = [] ∨ messagesFor 0 i tr = [(Reply.simple 0 x.req.cookie []).encode])
    (w0 : World) (id : FileId) (img : File) (himg : w0.files id = some img) (hcopy : img.data = view cl.ex w)
    (hmoves : ∀ t, w0.orc t ≠ .done 0)
    (p : Played) (hplay : p = trplay e bsz max id T.sh.file false w0 0)
    (got : List Sent) (hgot : got = ss.take (received 0 tr).length) :
    (p.code = 0 ∨ (p.code = 1 ∧ ∃ t n, w0.orc t = .err n)) ∧
    (p.code = 0 → (got.flatMap fun s => s.req.pieces bsz s.data).length ≤ max →
      ∃ img', p.w.files id = some img' ∧
        (∀ (n : Nat) (x : Sent) (i : Nat), got[n]? = some x → x.Covers i →
          (∀ (m : Nat) (y : Sent), n < m → got[m]? = some y → ¬ y.Covers i) →
            (x.req.type % 65536 = 1 → x.data[i - x.req.start]? = some (img'.data i)) ∧
            (x.req.type % 65536 = 6 → img'.data i = 0)) ∧
        (∀ i, InTurnAt i ss tr → (∀ (n : Nat) (x : Sent), got[n]? = some x → x.Covers i → messagesFor 0 n tr ≠ []) →
          img'.data i = view cl.ex T.sh.st i)) := by
  have hset : (setupLog e cl.ex.flags []).pos = (setupLog e cl.ex.flags []).file.length ∧
      (setupLog e cl.ex.flags []).file = Record.dataOn.encode := by
    unfold setupLog
    rw [hlog]
    simp only [if_true]
    rw [fresh_write, optionRecord_eq]
    exact ⟨rfl, rfl⟩
  rw [hset.1] at hx
  have hfresh : ∀ t ∈ [Session.fresh (σ := World) (ss.flatMap Sent.encode ++ closing fin) errnos
      (setupLog e cl.ex.flags []).file.length], t.Fresh := by
    intro t ht; rw [List.mem_singleton] at ht; exact ⟨_, errnos, _, ht⟩
  obtain ⟨_, hzero⟩ := exec_single rfl hx
  obtain ⟨t, L, ht, hL⟩ := hx.logged (plainServer_hdrs e cl) rfl
    (fun en j hj => (requestP_neat e cl en j.req hj j.payload).logs) (plainServer_reads e cl true fin hfin) hok hfin
  rw [ht] at hs
  cases hs
  have hL : LogInv true (setupLog e cl.ex.flags []).file ss fin tr T.sh s L := by
    have : (has (plainServer e cl true).cl.ex.flags F_DATALOG && !has (plainServer e cl true).cl.ex.flags F_SPLICE) = true := by
      show (has cl.ex.flags F_DATALOG && !has cl.ex.flags F_SPLICE) = true
      rw [hlog, hcl.splice]; rfl
    rw [this] at hL
    exact hL
  have hs0 : T.sessions[0]? = some s := by rw [ht]; rfl
  have hun := hx.underway hfresh s (List.mem_of_getElem? hs0)
  obtain ⟨t, ht', hfo⟩ := hx.follows (sid := 0) (ss := ss) (tail := closing fin)
    (plainServer_reads e cl true fin hfin) hok ⟨errnos, _, rfl⟩
  rw [hs0] at ht'
  cases ht'
  have hle := hfo.le
  have hgl : got.length = (received 0 tr).length := by rw [hgot, List.length_take]; omega
  have hsub : ∀ x ∈ got, x ∈ ss := fun x hx => List.mem_of_mem_take (by rw [← hgot]; exact hx)
  have hget : ∀ (n : Nat) (x : Sent), got[n]? = some x → ss[n]? = some x := by
    intro n x h
    have hlt := (List.getElem?_eq_some_iff.mp h).1
    rw [hgot, List.getElem?_take_of_lt (by omega)] at h
    exact h
  have hread := hfo.read
  rw [← hgot] at hread
  -- the requests as the server has numbered them
  obtain ⟨g, g1, _, _, _, g5⟩ := hx.inv (fun _ => plainServer_hdrs e cl) hfresh
  have si := g5 0 s hs0
  have hcount : s.count = got.length := by
    have := congrArg List.length si.ids
    rw [← recvs_visible, g1] at this
    simpa [hgl] using this.symm
  have hids : (received 0 tr).map Job.id = List.range got.length := by
    rw [← hcount, ← si.ids, ← recvs_visible, g1]
  have hjob : ∀ j ∈ received 0 tr, ∃ x, got[j.id]? = some x ∧ asked j = x.cmd ∧ j.req.cookie = x.req.cookie := by
    intro j hj
    obtain ⟨n, hn, rfl⟩ := List.getElem_of_mem hj
    have hid : (received 0 tr)[n].id = n := by
      have : ((received 0 tr).map Job.id)[n]? = some (received 0 tr)[n].id := by
        rw [List.getElem?_map, List.getElem?_eq_getElem hn]; rfl
      rw [hids, List.getElem?_range (by omega)] at this
      exact (Option.some.inj this).symm
    have hlt : n < got.length := by omega
    refine ⟨got[n], by rw [hid, List.getElem?_eq_getElem hlt], ?_⟩
    have : ((received 0 tr).map Job.what)[n]? = some (received 0 tr)[n].what := by
      rw [List.getElem?_map, List.getElem?_eq_getElem hn]; rfl
    rw [hread, List.getElem?_map, List.getElem?_eq_getElem hlt] at this
    simp only [Option.map_some, Option.some.injEq, Job.what, Prod.mk.injEq] at this
    unfold asked cmdOf
    rw [← this.1, ← this.2]
    exact ⟨rfl, rfl⟩
  have hnum : ∀ n x, got[n]? = some x → ∃ j ∈ received 0 tr, j.id = n := by
    intro n x hn
    have hlt := (List.getElem?_eq_some_iff.mp hn).1
    have : n ∈ (received 0 tr).map Job.id := by rw [hids]; exact List.mem_range.mpr hlt
    obtain ⟨j, hj, h⟩ := List.mem_map.mp this
    exact ⟨j, hj, h⟩
  -- what was done
  have hone : OneExport cl.ex (fun _ => cl) := ⟨fun _ => rfl, fun _ => hcl⟩
  obtain ⟨h, h1, h2, h3⟩ := linear_history e cl.ex (fun _ => cl) (fun _ => true) hone _ T tr hfresh hx
  have hdoes : ∀ j ∈ received 0 tr, ∃ rs more, (sentFor 0 j.id tr).map Msg.bytes ++ more = rs.map Reply.encode ∧
      ∃ l, Does cl.ex.exportsize (badWrite cl) [cl.structured] (asked j) l rs := by
    intro j hj
    rw [← h1, recvs_visible] at hj
    obtain ⟨more, rs, r1, r2, _⟩ := h2.does 0 j hj
    rw [msgs_append, List.map_append, msgs_mine, h1] at r1
    exact ⟨rs, _, r1, _, r2⟩
  have hacked : ∀ (n : Nat) (x : Sent), got[n]? = some x → (x.req.type % 65536 = 1 ∨ x.req.type % 65536 = 6) → messagesFor 0 n tr ≠ [] →
      x.cmd.code = x.req.type % 65536 ∧ messagesFor 0 n tr = [(Reply.simple 0 x.req.cookie []).encode] := by
    intro n x hn hc hne
    obtain ⟨j, hj, rfl⟩ := hnum n x hn
    obtain ⟨rs, more, r1, l, r2⟩ := hdoes j hj
    obtain ⟨y, y1, y2, _⟩ := hjob j hj
    rw [hn] at y1
    cases y1
    rw [y2] at r2
    have hm := (hacc _ _ (hget _ _ hn) hc).resolve_left hne
    obtain ⟨r, rfl⟩ := does_one r2 (by
      simp only [Sent.cmd]
      split <;> omega)
    rw [← messagesFor_eq, hm] at r1
    have hmo : [(Reply.simple 0 x.req.cookie []).encode] = [r].map Reply.encode := by
      simp only [List.map_cons, List.map_nil, List.singleton_append, List.cons.injEq] at r1 ⊢
      exact ⟨r1.1, trivial⟩
    exact ⟨(does_acked r2 hc hmo.symm).1, hm⟩
  -- the log
  have hsz := hcl.plain.good.size
  have halx : ∀ x ∈ ss, x.req.Aligned bsz := by
    intro x hxm
    refine ⟨(hal x hxm).1, (hal x hxm).2, ?_, ?_⟩
    · have := hcode x hxm
      simp only [List.mem_cons, List.not_mem_nil, or_false] at this ⊢
      omega
    · intro hc
      have := hrange x hxm hc
      omega
  have hask : Nbd.asked true ss (received 0 tr).length = Nbd.asked true got got.length := by
    unfold Nbd.asked
    rw [← hgot, List.take_length]
  obtain ⟨tl, q1, q2, q3, q4⟩ := hL.reqs
  rw [hask] at q1
  have hcut : ∃ (L0 : List Piece) (fin' : Option Request) (tail : List Byte), (∀ r ∈ fin', r ∈ fin) ∧ L.flatMap Piece.bs = L0.flatMap Piece.bs ++ tail ∧
      (∀ w cur, trplay e bsz max id tail true w cur = ⟨w, cur, 0⟩) ∧
      L0.filter (fun x => !x.rep) = Nbd.asked true got got.length ++ byePiece got.length fin' ∧ ∀ p ∈ L0, p ∈ L := by
    have hnil : ∀ w cur, trplay e bsz max id [] true w cur = ⟨w, cur, 0⟩ := by
      intro w cur
      rw [trplay.eq_def, if_pos (by decide)]
    have hend : s.main = .closing ∨ s.main = .over → ∃ (L0 : List Piece) (fin' : Option Request) (tail : List Byte), (∀ r ∈ fin', r ∈ fin) ∧
        L.flatMap Piece.bs = L0.flatMap Piece.bs ++ tail ∧
        (∀ w cur, trplay e bsz max id tail true w cur = ⟨w, cur, 0⟩) ∧
        L0.filter (fun x => !x.rep) = Nbd.asked true got got.length ++ byePiece got.length fin' ∧ ∀ p ∈ L0, p ∈ L := by
      intro hm
      refine ⟨L, fin, [], fun _ h => h, by simp, hnil, ?_, fun _ h => h⟩
      rw [q1, q4 hm, hgl, hfo.all hm]
    cases hm : s.main with
    | reading => exact ⟨L, none, [], by simp, by simp, hnil, by rw [q1, q2 hm]; rfl, fun _ h => h⟩
    | payload =>
      obtain ⟨_, _, x, L0, x1, x2, x3⟩ := q3 hm
      have hxm := List.mem_of_getElem? x1
      have hk := hun.keeps hm
      obtain ⟨hlt, hxe⟩ := List.getElem?_eq_some_iff.mp x1
      rw [hfo.left (.inr hm), List.drop_eq_getElem_cons hlt, hxe, List.flatMap_cons, List.append_assoc,
        keeps_sent rfl (hok x hxm), Bool.and_eq_true, decide_eq_true_eq] at hk
      refine ⟨L0, none, x.req.encode, by simp, by rw [x3, x2]; simp, ?_, ?_, ?_⟩
      · exact trplay_header e bsz max hb id x.req (hok x hxm).fits (hok x hxm).magic (halx x hxm) hk.1
      · have := q1
        rw [x3, List.filter_append, x2] at this
        simp only [List.filter_cons, List.filter_nil, Bool.not_false, if_true] at this
        rw [List.append_cancel_right this]
        simp [byePiece]
      · intro q hq
        rw [x3]
        exact List.mem_append_left _ hq
    | closing => exact hend (.inl hm)
    | over => exact hend (.inr hm)
    | dead => exact absurd hm hlive.1
    | broken => exact absurd hm hlive.2
  obtain ⟨L0, fin', tail, k1, k2, k3, k4, k5⟩ := hcut
  obtain ⟨recs, c1, c2, c3, c4⟩ := pieces_played bsz L0 got fin' (fun x hx => hok x (hsub x hx)) (fun r hr => hfin r (k1 r hr)) k4 (by
    intro q hq hqr
    have hm : q.bs ∈ repliesIn q.num L := List.mem_map_of_mem (List.mem_filter.mpr ⟨k5 q hq, by simp [hqr]⟩)
    have hlt : q.num < got.length := by
      by_cases hlt : q.num < got.length
      · exact hlt
      · rw [hL.fresh q.num (by omega)] at hm
        cases hm
    have hwhere : q.bs ∈ hdrsFor q.num tr ∨
        ∃ err c, (Record.reply err c).Ok true ∧ q.bs = (Record.reply err c).encode := by
      by_cases hh : ∃ (k : Nat) (x : Worker World) (j : Job), s.workers[k]? = some x ∧ x.job = some j ∧ j.id = q.num
      · obtain ⟨k, x, j, w1, w2, w3⟩ := hh
        obtain ⟨o, o1, o2⟩ := hL.held k x j w1 w2
        rw [← w3] at hm ⊢
        cases o with
        | nothing => rw [show repliesIn j.id L = hdrsFor j.id tr from o2] at hm; exact .inl hm
        | send h =>
          rw [o2.1, List.mem_append, List.mem_singleton] at hm
          rcases hm with hm | hm
          · exact .inl hm
          · obtain ⟨err, v1, v2, v3⟩ := hun.owed (List.mem_of_getElem? w1) w2 o1 o2.2
            exact .inr ⟨err, _, ⟨v1, v2⟩, by rw [hm, v3]⟩
        | log h =>
          left
          rw [o2.1]
          exact List.mem_append_left _ hm
      · rw [hL.rest q.num (fun k x j w1 w2 w3 => hh ⟨k, x, j, w1, w2, w3⟩)] at hm
        exact .inl hm
    rcases hwhere with hm | hm
    · obtain ⟨m, hm, hbs⟩ := List.mem_map.mp hm
      obtain ⟨j, hj, hjid⟩ := hnum q.num _ (List.getElem?_eq_getElem hlt)
      obtain ⟨x, x1, x2, x3⟩ := hjob j hj
      have hxm := hsub x (List.mem_of_getElem? x1)
      have hck : j.req.cookie.length = 8 := by rw [x3]; exact (hok x hxm).fits.cookie
      have hhdr : HdrOk e j.req.cookie m := by
        have hj' := hj
        rw [← g1, recvs_visible] at hj'
        refine si.permitted (plainServer_hdrs e cl) j hj' m ?_
        rw [msgs_mine, g1, hjid]
        exact hm
      obtain ⟨rs, more, r1, l, r2⟩ := hdoes j hj
      rw [hjid] at r1
      have hbm : m.bytes ∈ rs.map Reply.encode := by
        rw [← r1]
        exact List.mem_append_left _ (List.mem_map_of_mem hm)
      obtain ⟨r, hr, hrb⟩ := List.mem_map.mp hbm
      obtain ⟨err, data, rfl, he⟩ := does_simple r2 (by
        rcases hsimple with h | h
        · exact .inl h
        · right
          rw [x2]
          have := h x hxm
          simp only [Sent.cmd]
          split
          · exact this
          · omega) r hr
      have hc' : (asked j).cookie = j.req.cookie := rfl
      rw [hc'] at hrb
      refine ⟨err, j.req.cookie, ⟨he, hck⟩, ?_⟩
      rw [← hbs]
      exact hdr_record e _ m (.simple err j.req.cookie data) hhdr hrb.symm hck hck
    · exact hm)
    (fun x hx => halx x (hsub x hx))
    (by
      intro r hr
      have hd := (hfin r (k1 r hr)).disc
      exact ⟨(half r (k1 r hr)).1, (half r (k1 r hr)).2, by rw [hd]; decide, by rw [hd]; simp⟩)
  have hfile := hL.file
  rw [hset.2, k2, ← c1] at hfile
  have hrep := trplay_records_tail e bsz max hb id recs c2 c3 tail k3 w0 0 (view cl.ex w) hmax ⟨img, himg, hcopy⟩ hmoves
  rw [c4] at hrep
  have hp' : p = trplay e bsz max id (recs.flatMap Record.encode ++ tail) true w0 0 := by
    rw [hplay, hfile, trplay_dataOn]
  rw [← hp'] at hrep
  refine ⟨hrep.code, fun h0 hle' => ?_⟩
  obtain ⟨img', hi, hd⟩ := hrep.image h0
  rw [List.take_of_length_le (by omega)] at hd
  refine ⟨img', hi, ?_, ?_⟩
  · intro n x i hn hcv hlast
    rw [hd]
    rcases applied_byte bsz i got (fun x hx => hok x (hsub x hx)) (fun x hx => (hal x (hsub x hx)).2) (view cl.ex w) with
      ⟨n1, _⟩ | ⟨m, y, n1, n2, n3, n4⟩
    · exact absurd hcv (n1 x (List.mem_of_getElem? hn))
    · have h1 := n3 n x hn hcv
      have h2 : ¬ n < m := fun h => hlast m y h n1 n2
      have : m = n := by omega
      subst this
      rw [hn] at n1
      cases n1
      rcases n4 with ⟨m1, m2⟩ | ⟨m1, m2⟩
      · exact ⟨fun _ => m2, fun h => by omega⟩
      · exact ⟨fun h => by omega, fun _ => m2⟩
  intro i hturn hnone
  rw [hd]
  -- the contents of the export
  have law := fun (_ : Nat) => Complete.law (size := cl.ex.exportsize) hsz (badWrite cl) [cl.structured]
  have hcover : ∀ sid j, .recv sid j ∈ h → Touches (asked j) i →
      sid = 0 ∧ j ∈ received 0 tr ∧ ∃ x, got[j.id]? = some x ∧ x.Covers i := by
    intro sid j hj htc
    have hj' := mem_visible_recv.mpr hj
    rw [h1] at hj'
    have h0 : sid = 0 := hzero _ hj'
    subst h0
    have hjr : j ∈ received 0 tr := by rw [← h1, recvs_visible]; exact mem_recvs.mpr hj
    obtain ⟨x, x1, x2, _⟩ := hjob j hjr
    refine ⟨rfl, hjr, x, x1, ?_⟩
    rw [x2] at htc
    obtain ⟨u1, u2, u3⟩ := htc
    have hcm := hcode x (hsub x (List.mem_of_getElem? x1))
    simp only [List.mem_cons, List.not_mem_nil, or_false, Sent.cmd] at u1 hcm
    refine ⟨?_, u2, u3⟩
    split at u1 <;> omega
  rcases applied_byte bsz i got (fun x hx => hok x (hsub x hx)) (fun x hx => (hal x (hsub x hx)).2) (view cl.ex w) with ⟨n1, n2⟩ | ⟨n, x, n1, n2, n3, n4⟩
  · rw [n2]
    refine (legal_value h2.legal ?_ (.inl rfl)).symm
    intro y hy
    exfalso
    obtain ⟨sid, jid, hy⟩ := mem_acts.mp hy
    obtain ⟨a, b, hab⟩ := List.append_of_mem hy
    obtain ⟨j, hj, rfl⟩ := h2.causal a sid jid _ b hab
    have hjh : .recv sid j ∈ h := by rw [hab]; exact List.mem_append_left _ (mem_recvs.mp hj)
    obtain ⟨more, hc⟩ := h2.does sid j (mem_recvs.mpr hjh)
    have htc := ((law sid).mayStore trivial hc (h2.data sid j (mem_recvs.mpr hjh))
      (List.mem_append_left _ (mem_mine.mpr hy))).1
    obtain ⟨_, _, x, x1, x2⟩ := hcover sid j hjh htc
    exact n1 x (List.mem_of_getElem? x1) x2
  · obtain ⟨W, hW, hWid⟩ := hnum n x n1
    obtain ⟨x', x1, x2, x3⟩ := hjob W hW
    rw [hWid, n1] at x1
    cases x1
    have hWh : .recv 0 W ∈ h := by
      rw [← h1, recvs_visible] at hW
      exact mem_recvs.mp hW
    obtain ⟨ha, h4, hab⟩ := List.append_of_mem hWh
    -- the acknowledgement
    have hack := (hacked n x n1 n2.1 (hnone n x n1 n2)).2
    rw [messagesFor_eq, ← h1, ← msgs_mine, ← hWid, hab, mine_append, h2.before hab] at hack
    have hsent : ∃ ok, .act 0 W.id (.msg ok) ∈ h4 ∧ ok.bytes = (Reply.simple 0 x.req.cookie []).encode := by
      simp only [List.nil_append] at hack
      have hmem : (Reply.simple 0 x.req.cookie []).encode ∈
          (Act.msgs (mine 0 W.id (.recv 0 W :: h4))).map Msg.bytes := by rw [hack]; simp
      obtain ⟨ok, ho, hob⟩ := List.mem_map.mp hmem
      have hin : Act.msg ok ∈ mine 0 W.id (.recv 0 W :: h4) := by
        generalize mine 0 W.id (.recv 0 W :: h4) = l at ho
        induction l with
        | nil => cases ho
        | cons y l ih =>
          cases y with
          | msg m =>
            simp only [Act.msgs, List.mem_cons] at ho
            rcases ho with rfl | ho
            · simp
            · exact List.mem_cons_of_mem _ (ih ho)
          | get => exact List.mem_cons_of_mem _ (ih ho)
          | put => exact List.mem_cons_of_mem _ (ih ho)
      have := mem_mine.mp hin
      simp only [List.mem_cons, reduceCtorEq, false_or] at this
      exact ⟨ok, this, hob⟩
    obtain ⟨ok, hok1, hok2⟩ := hsent
    obtain ⟨hb1, hc1, hbc⟩ := List.append_of_mem hok1
    subst hbc
    refine (h2.holds law (hd := []) trivial (by rw [List.append_nil]; exact hab) (x := applyBlocks (view cl.ex w) _ i) ?_ ?_ ?_
      (by rw [← hab]; exact h2.legal)).symm
    · rw [x2]
      have hcd := (hacked n x n1 n2.1 (hnone n x n1 n2)).1
      rcases n4 with ⟨m1, m2⟩ | ⟨m1, m2⟩
      · left
        exact ⟨by rw [hcd, m1], n2.2.1, m2⟩
      · right
        have := hz x (hsub x (List.mem_of_getElem? n1)) m1
        have u := n2.2
        exact ⟨by rw [hcd, m1], show i < x.req.start + 2 ^ 26 by omega, u.1, u.2, m2⟩
    · rw [x2]; exact hok2
    · intro sid j hj htc
      have hjh : .recv sid j ∈ h := by
        rw [hab]
        simp only [List.mem_append, List.mem_cons] at hj ⊢
        rcases hj with (hj | hj) | hj
        · exact .inl hj
        · exact .inr (.inr (.inl hj))
        · exact .inr (.inr (.inr (.inr hj)))
      obtain ⟨rfl, hjr, y, y1, y2⟩ := hcover sid j hjh htc
      have hle := n3 _ _ y1 y2
      by_cases hjn : j.id = n
      · exfalso
        have hnd := h2.ids 0
        rw [hab, recvs_append] at hnd
        have hin : j.id ∈ (recvs 0 ha).map Job.id ∨
            j.id ∈ (recvs 0 (hb1 ++ .act 0 W.id (.msg ok) :: hc1)).map Job.id := by
          simp only [List.mem_append] at hj
          rcases hj with (hj | hj) | hj
          · exact .inl (List.mem_map_of_mem (mem_recvs.mpr hj))
          · exact .inr (List.mem_map_of_mem (mem_recvs.mpr (List.mem_append_left _ hj)))
          · exact .inr (List.mem_map_of_mem (mem_recvs.mpr (List.mem_append_right _ (List.mem_cons_of_mem _ hj))))
        rw [hjn, ← hWid] at hin
        simp only [recvs, if_true, List.map_append, List.map_cons, List.nodup_append, List.nodup_cons] at hnd
        rcases hin with hin | hin
        · exact hnd.2.2 _ hin _ List.mem_cons_self rfl
        · exact hnd.2.1.1 hin
      · obtain ⟨m, hm⟩ := hturn (visible ha) (visible (hb1 ++ .act 0 W.id (.msg ok) :: hc1)) W
          (by rw [← h1, hab, visible_append]; rfl) j.id y x (by omega) (hget _ _ y1) (by rw [hWid]; exact hget _ _ n1) y2 n2
        exact ⟨m, mem_visible_sent.mp hm⟩

/-- Three writes of which the first is acknowledged, the second is about to be carried out, and the data of the third has not
arrived. -/
def diedSent : List Sent := [Demo.write 4 [10, 11, 12, 13], Demo.write 6 [20, 21], Demo.write 0 [30, 31]]

/-- An execution as in `C105_crash_partial`. The replay gives the first two writes, the export has the first only, and the log
ends with the header of the third. -/
example : ∃ tr T, Exec (fun _ => plainServer .little (logClient false) true)
      ⟨⟨Demo.world, none, (setupLog .little (logClient false).ex.flags []).file⟩,
        [Session.fresh (diedSent.flatMap Sent.encode ++ closing none) [0, 0]
          (setupLog .little (logClient false).ex.flags []).pos]⟩ tr T ∧
    T.sessions.map (fun s => s.main) = [.payload] ∧ InTurn diedSent tr ∧ (received 0 tr).length = 2 ∧
    messagesFor 0 0 tr = [(Reply.simple 0 Demo.cookie []).encode] ∧ (∀ i, 0 < i → i < 3 → messagesFor 0 i tr = []) ∧
    (view (logClient false).ex T.sh.st).read 2 9 = [3, 4, 10, 11, 12, 13, 4, 5, 6] ∧
    (trplay .little 2 100 (.fd 9) T.sh.file false (imageWorld Demo.stingy) 0).code = 0 ∧
    ((trplay .little 2 100 (.fd 9) T.sh.file false (imageWorld Demo.stingy) 0).w.files (.fd 9)).map
      (fun f => f.data.read 2 9) = some [3, 4, 10, 11, 20, 21, 4, 5, 6] := by
  obtain ⟨tr, T, h1, h2⟩ := System.play_check (fun _ => plainServer .little (logClient false) true)
    ⟨⟨Demo.world, none, (setupLog .little (logClient false).ex.flags []).file⟩,
      [Session.fresh (diedSent.flatMap Sent.encode ++ closing none) [0, 0]
        (setupLog .little (logClient false).ex.flags []).pos]⟩
    (List.replicate 2 (0, .main) ++ List.replicate 20 (0, .work 0 9) ++ List.replicate 2 (0, .main) ++ [(0, .work 1 9), (0, .main)])
    (fun tr T => T.sessions.map (fun s => s.main) == [.payload] && (inTurn diedSent [] tr && ((received 0 tr).length == 2 &&
      (messagesFor 0 0 tr == [(Reply.simple 0 Demo.cookie []).encode] && (messagesFor 0 1 tr == [] && (messagesFor 0 2 tr == [] &&
      ((view (logClient false).ex T.sh.st).read 2 9 == [3, 4, 10, 11, 12, 13, 4, 5, 6] &&
      ((trplay .little 2 100 (.fd 9) T.sh.file false (imageWorld Demo.stingy) 0).code == 0 &&
      ((trplay .little 2 100 (.fd 9) T.sh.file false (imageWorld Demo.stingy) 0).w.files (.fd 9)).map
        (fun f => f.data.read 2 9) == some [3, 4, 10, 11, 20, 21, 4, 5, 6])))))))) (by decide +kernel)
  simp only [Bool.and_eq_true, beq_iff_eq] at h2
  obtain ⟨q1, q2, q3, q4, q5, q6, q7, q8, q9⟩ := h2
  refine ⟨tr, T, h1, q1, fun i a b j hab k x y => ?_, q3, q4, ?_, q7, q8, q9⟩
  · have := inTurn_sound _ tr [] q2 a b j hab k x y i
    simpa using this
  · intro i hi hi'
    rcases i with _ | _ | _ | i
    · omega
    · exact q5
    · exact q6
    · omega

/-- **C105 is false** of two sessions that share a log: each writes at its own place in the file, so the records of one overwrite
those of the other. Here both writes, to different places, are acknowledged and carried out,
and the server dies. The replay of the log succeeds, and the first write is not in the image. -/
theorem C105_false_shared :
    ∃ (cl : Client) (w w0 : World) (tr : List (Nat × Ext)) (T : System World), Flatfile cl ∧
      (∃ img, w0.files (.fd 9) = some img ∧ img.data = view cl.ex w) ∧
      Exec (fun _ => plainServer .little cl true)
        ⟨⟨w, none, (setupLog .little cl.ex.flags (setupLog .little cl.ex.flags []).file).file⟩,
          [Session.fresh (Demo.write 4 [5, 6]).encode [0] (setupLog .little cl.ex.flags []).pos,
           Session.fresh (Demo.write 8 [7, 8]).encode [0]
            (setupLog .little cl.ex.flags (setupLog .little cl.ex.flags []).file).pos]⟩ tr T ∧
      (∀ sid < 2, messagesFor sid 0 tr = [(Reply.simple 0 Demo.cookie []).encode]) ∧
      (view cl.ex T.sh.st).read 4 2 = [5, 6] ∧ (view cl.ex T.sh.st).read 8 2 = [7, 8] ∧
      (trplay .little 2 100 (.fd 9) T.sh.file false w0 0).code = 0 ∧
      ∃ img', (trplay .little 2 100 (.fd 9) T.sh.file false w0 0).w.files (.fd 9) = some img' ∧
        img'.data.read 4 2 = (view cl.ex w).read 4 2 ∧ img'.data.read 4 2 ≠ [5, 6] ∧ img'.data.read 8 2 = [7, 8] := by
  obtain ⟨tr, T, h1, h2⟩ := System.play_check (fun _ => plainServer .little (logClient false) true)
    ⟨⟨Demo.world, none, (setupLog .little (logClient false).ex.flags (setupLog .little (logClient false).ex.flags []).file).file⟩,
      [Session.fresh (Demo.write 4 [5, 6]).encode [0] (setupLog .little (logClient false).ex.flags []).pos,
       Session.fresh (Demo.write 8 [7, 8]).encode [0]
        (setupLog .little (logClient false).ex.flags (setupLog .little (logClient false).ex.flags []).file).pos]⟩
    (List.replicate 2 (0, .main) ++ List.replicate 20 (0, .work 0 9) ++ List.replicate 2 (1, .main) ++
      List.replicate 20 (1, .work 0 9))
    (fun tr T =>
      (messagesFor 0 0 tr == [(Reply.simple 0 Demo.cookie []).encode] &&
      (messagesFor 1 0 tr == [(Reply.simple 0 Demo.cookie []).encode] &&
      ((view (logClient false).ex T.sh.st).read 4 2 == [5, 6] &&
      ((view (logClient false).ex T.sh.st).read 8 2 == [7, 8] &&
      ((trplay .little 2 100 (.fd 9) T.sh.file false (imageWorld Demo.stingy) 0).code == 0 &&
      ((trplay .little 2 100 (.fd 9) T.sh.file false (imageWorld Demo.stingy) 0).w.files (.fd 9)).any
        (fun f => f.data.read 4 2 == (view (logClient false).ex Demo.world).read 4 2 && (f.data.read 4 2 != [5, 6] && f.data.read 8 2 == [7, 8])))))))) (by decide +kernel)
  simp only [Bool.and_eq_true, beq_iff_eq] at h2
  obtain ⟨q2, q3, q4, q4', q5, q6⟩ := h2
  rw [Option.any_eq_true] at q6
  obtain ⟨img', u1, u2⟩ := q6
  simp only [Bool.and_eq_true, beq_iff_eq, bne_iff_ne] at u2
  refine ⟨logClient false, Demo.world, imageWorld Demo.stingy, tr, T, log_flat false, ⟨_, rfl, rfl⟩, h1, ?_, q4, q4', q5, img', u1, u2.1, u2.2.1, u2.2.2⟩
  intro i hi
  rcases i with _ | _ | i
  · exact q2
  · exact q3
  · omega

end Props
end Nbd
