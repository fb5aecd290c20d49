import Verif.Demo
/-!
# C03-C10, C22, C53: whole sessions

`mainloop e cl w stream` is everything that happens on a connection whose client sends the bytes
`stream` and then goes away; `.sent` are the bytes the client receives, `.handled` the requests
that were carried out, `.w` the files afterwards, `.ending` how it ended. `w` also holds an
arbitrary oracle for the outcome of every system call, so "for all `w`" means for every pattern
of partial transfers and failures. `Spec.Sent` is a request as a client sends it, `Spec.Sent.Ok`
that it is well formed. `Plain cl` is an export without copy-on-write whose file layout is sound;
`Verif.Props.Store` shows which configurations give such an export.
-/

set_option autoImplicit false

namespace Nbd.Props

open Spec

theorem and_bit (t n : Nat) : ((t &&& 2 ^ n) != 0) = t.testBit n := by
  cases h : t.testBit n with
  | true =>
    rw [bne_iff_ne]
    intro h0
    have := congrArg (fun x => x.testBit n) h0
    simp [Nat.testBit_and, h] at this
  | false =>
    have : t &&& 2 ^ n = 0 := by
      apply Nat.eq_of_testBit_eq
      intro i
      rw [Nat.testBit_and, Nat.testBit_two_pow, Nat.zero_testBit]
      by_cases hi : n = i
      · rw [← hi, h]; rfl
      · simp [hi]
    rw [this]
    rfl

/-- Bit 16 of the command asks for FUA. -/
theorem has_fua (t : Nat) : has t CMD_FLAG_FUA = t.testBit 16 := and_bit t 16

/-- Bit 18 asks for a reply in one piece. -/
theorem has_df (t : Nat) : has t CMD_FLAG_DF = t.testBit 18 := and_bit t 18

/-- A single request on a plain export is one step of the flat array. -/
theorem single (e : Endian) (cl : Client) (w : World) (hp : Plain cl) (s : Sent) (hok : s.Ok)
    (hz : s.cmd.code = 6 → s.req.len ≤ 64 * 1024 * 1024)
    (hend : (mainloop e cl w s.encode).ending = .gone) :
    ∃ rs, (mainloop e cl w s.encode).sent = wire rs ∧
      FlatStep cl.ex.exportsize (badWrite cl) (framing cl) (view cl.ex w) s.cmd rs
        (view cl.ex (mainloop e cl w s.encode).w) := by
  have h1 := mainloop_plain e [s] (by simpa using hok) cl w hp
    (by intro x hx; rw [List.mem_singleton] at hx; subst hx; exact hz) (by simpa using hend)
  simp only [List.flatMap_cons, List.flatMap_nil, List.append_nil, List.map_cons, List.map_nil] at h1
  obtain ⟨_, rs, hsent, hrun⟩ := h1
  generalize view cl.ex (mainloop e cl w s.encode).w = g at hrun ⊢
  cases hrun with
  | cons _ _ _ _ rs' _ rest hstep hrest =>
    cases hrest
    rw [List.append_nil] at hsent
    exact ⟨rs', hsent, hstep⟩

theorem errno_lt {err : Nat} (he : err ∈ errnos) : err < 2 ^ 32 ∧ err ≠ 0 := by
  simp only [errnos, List.mem_cons, List.not_mem_nil, or_false] at he
  omega

theorem simple_encode_inj {a b : Nat} {c d : List Byte} (ha : a < 2 ^ 32) (hb : b < 2 ^ 32)
    (h : wire [.simple a c []] = (Reply.simple b d []).encode) : a = b := by
  simp only [wire, List.map_cons, List.map_nil, List.flatten_cons, List.flatten_nil,
    List.append_nil, Reply.encode, List.append_assoc] at h
  have h1 := List.append_inj_right h (by simp)
  have h2 := List.append_inj_left h1 (by simp)
  have := congrArg beVal h2
  rwa [beVal_toBE_of_lt ha, beVal_toBE_of_lt hb] at this

/-! ### C03 -/

/-- **C03** (partial: plain, multi-file and tree exports without splicing, or with it on an encrypted session; it is false of splice exports otherwise, `C48_false_structured`, and of
copy-on-write exports, `C12_false_structured`). Structured replies negotiated. Whatever a client's read request and
however the store behaves, what the server sends parses completely into replies that form one
answer with the request's cookie, only the last being final; and if that last one reports
success, the offset/data chunks put together are exactly the requested bytes. -/
theorem C03_structured_read_partial (e : Endian) (cl : Client) (hp : Plain cl) (hst : cl.structured = true)
    (hns : has cl.ex.flags F_SPLICE = false ∨ cl.tls = true) (w : World) (s : Sent) (hok : s.Ok)
    (hread : s.req.type % 65536 = 0)
    (hend : (mainloop e cl w s.encode).ending = .gone) :
    ∃ rs, parseReplies s.req.len (mainloop e cl w s.encode).sent.length
        (mainloop e cl w s.encode).sent = some rs ∧
      Answer s.req.cookie rs ∧
      ((rs.getLast?).map Reply.error = some 0 →
        (∀ r ∈ rs, ∃ fl ty c p, r = .chunk fl ty c p) ∧
        reassemble s.req.start rs = some ((view cl.ex w).read s.req.start s.req.len)) := by
  obtain ⟨rs, hsent, hstep⟩ := single e cl w hp s hok (by
    intro hc
    simp only [Sent.cmd] at hc
    split at hc
    · rw [hread] at hc; cases hc
    · cases hc) hend
  have hck := hok.fits.cookie
  have hfr : framing cl = [true] := by rcases hns with h | h <;> simp [framing, h, hst]
  rw [hfr] at hstep
  generalize view cl.ex (mainloop e cl w s.encode).w = g at hstep
  have hsz := hp.good.size
  have hfin : ∀ rs : List Reply, (∀ r ∈ rs, r.Fits s.req.len) → Answer s.req.cookie rs →
      ((rs.getLast?).map Reply.error = some 0 →
        (∀ r ∈ rs, ∃ fl ty c p, r = .chunk fl ty c p) ∧
        reassemble s.req.start rs = some ((view cl.ex w).read s.req.start s.req.len)) →
      (mainloop e cl w s.encode).sent = wire rs →
      ∃ rs, parseReplies s.req.len (mainloop e cl w s.encode).sent.length
          (mainloop e cl w s.encode).sent = some rs ∧ Answer s.req.cookie rs ∧
        ((rs.getLast?).map Reply.error = some 0 →
          (∀ r ∈ rs, ∃ fl ty c p, r = .chunk fl ty c p) ∧
          reassemble s.req.start rs = some ((view cl.ex w).read s.req.start s.req.len)) := by
    intro rs hf ha hr hs
    refine ⟨rs, ?_, ha, hr⟩
    rw [hs]
    exact parseReplies_wire _ _ hf _ (Nat.le_refl _)
  have hans : ∀ (cs : List (Nat × List Byte)) (last : Reply), last.cookie = s.req.cookie →
      last.final = true →
      Answer s.req.cookie (cs.map (fun x => dataChunk s.req.cookie x.1 x.2) ++ [last]) := by
    intro cs last h1 h2
    constructor
    · intro r hr
      rw [List.mem_append, List.mem_map, List.mem_singleton] at hr
      rcases hr with ⟨x, _, rfl⟩ | rfl
      · rfl
      · exact h1
    · refine ⟨_, _, rfl, h2, ?_⟩
      intro r hr
      rw [List.mem_map] at hr
      obtain ⟨x, _, rfl⟩ := hr
      rfl
  cases hstep with
  | read _ hc hr m hm h =>
    cases h with
    | simple => simp at hm
    | structured cs ht =>
      refine hfin _ ?_ (hans cs _ rfl rfl) ?_ hsent
      · intro r hr
        rw [List.mem_append, List.mem_singleton] at hr
        rcases hr with hr | rfl
        · exact tiles_fit _ hck ht _ r hr
        · exact ⟨by decide, by decide, hck, by decide⟩
      · intro _
        refine ⟨?_, ?_⟩
        · intro r hr
          rw [List.mem_append, List.mem_map, List.mem_singleton] at hr
          rcases hr with ⟨x, _, rfl⟩ | rfl
          · exact ⟨_, _, _, _, rfl⟩
          · exact ⟨_, _, _, _, rfl⟩
        · refine reassemble_tiles _ ht ?_ _ rfl
          simp only [Flat.read_length, Sent.cmd] at hr ⊢
          omega
  | readFails _ hc hr m hm h =>
    cases h with
    | simple => simp at hm
    | structured n err cs ht he msg =>
      have hlast : Reply.error (.chunk 1 32769 s.req.cookie (toBE 4 err ++ msg)) = err := by
        show (if 32769 ≥ 32768 then beVal ((toBE 4 err ++ msg).take 4) else 0) = err
        rw [if_pos (by decide), List.take_left' (by simp), beVal_toBE_of_lt (errno_lt he).1]
      refine hfin _ ?_ (hans cs _ rfl rfl) ?_ hsent
      · intro r hr
        rw [List.mem_append, List.mem_singleton] at hr
        rcases hr with hr | rfl
        · exact tiles_fit _ hck ht _ r hr
        · refine ⟨by decide, by decide, hck, ?_⟩
          rw [List.length_append, toBE_length]; omega
      · intro h0
        rw [List.getLast?_concat, Option.map_some] at h0
        have h0 : some (Reply.error (.chunk 1 32769 s.req.cookie (toBE 4 err ++ msg))) = some 0 := h0
        rw [hlast] at h0
        exact absurd (Option.some.inj h0) (errno_lt he).2
  | write hc => simp only [Sent.cmd] at hc; split at hc <;> omega
  | writeFails hc => simp only [Sent.cmd] at hc; split at hc <;> omega
  | zeroes hc => simp only [Sent.cmd] at hc; split at hc <;> omega
  | zeroesFails hc => simp only [Sent.cmd] at hc; split at hc <;> omega
  | flush hc => simp only [Sent.cmd] at hc; split at hc <;> omega
  | trim hc => simp only [Sent.cmd] at hc; split at hc <;> omega
  | refused err he why =>
    refine hfin _ ?_ ⟨by simp [Reply.cookie, Sent.cmd], [], _, rfl, rfl, by simp⟩ ?_ hsent
    · intro r hr
      rw [List.nil_append, List.mem_singleton] at hr
      subst hr
      exact ⟨(errno_lt he).1, hck, by simp [(errno_lt he).2]⟩
    · intro h0
      simp [Reply.error] at h0
      exact absurd h0 (errno_lt he).2

/-- The hypotheses are met by a read across two files served in pieces of one to three bytes, and
the answer is complete. -/
example : (mainloop .little (Demo.client true) Demo.world (Demo.request 0 2 8).encode).ending = .gone ∧
    (∃ rs, parseReplies 8 (mainloop .little (Demo.client true) Demo.world
        (Demo.request 0 2 8).encode).sent.length
      (mainloop .little (Demo.client true) Demo.world (Demo.request 0 2 8).encode).sent = some rs ∧
      rs.length = 6 ∧ reassemble 2 rs = some [3, 4, 5, 1, 2, 3, 4, 5]) := by
  refine ⟨by decide +kernel, ?_⟩
  refine ⟨(parseReplies 8 (mainloop .little (Demo.client true) Demo.world
        (Demo.request 0 2 8).encode).sent.length
      (mainloop .little (Demo.client true) Demo.world (Demo.request 0 2 8).encode).sent).getD [],
    ?_, ?_, ?_⟩ <;> decide +kernel

/-! ### C04, C05 -/

/-- **C04, C05** (any export, any store). The client sends well-formed requests `ss` and then
nothing, part of a request, or a disconnect followed by anything (`tail`). The requests the server
carries out are a prefix of the ones sent, in order, with exactly their fields and payloads; what
it sends is one complete answer per such request, in order, and nothing else; and the prefix is
everything unless the process died handling the next request. -/
theorem C04_C05_session (e : Endian) (cl : Client) (w : World) (ss : List Sent)
    (hok : ∀ s ∈ ss, s.Ok) (tail : List Byte)
    (htail : tail.length < 28 ∨ ∃ (r : Request) (junk : List Byte), r.Fits ∧ r.magic = 0x25609513 ∧
      r.type = 2 ∧ tail = r.encode ++ junk) :
    let run := mainloop e cl w (ss.flatMap Sent.encode ++ tail)
    ∃ k rs, k ≤ ss.length ∧
      run.handled.map Done.sent = (ss.take k).map Sent.fields ∧
      run.sent = wire rs ∧
      Answers ((ss.take k).map (fun s => s.req.cookie)) rs ∧
      (k < ss.length → run.ending = .ub ∨ run.ending = .exit) := by
  have : ∃ ends, ∀ cl w, (mainloop e cl w tail).handled = [] ∧ (mainloop e cl w tail).ending = ends := by
    rcases htail with h | ⟨r, junk, h1, h2, h3, rfl⟩
    · exact ⟨.gone, fun cl w => mainloop_short e cl w tail h⟩
    · exact ⟨.disconnected, fun cl w => mainloop_disc e cl w r h1 h2 h3 junk⟩
  obtain ⟨ends, ht⟩ := this
  obtain ⟨k, rs, h1, h2, h3, h4, h5, _⟩ := mainloop_session e ss hok tail ends ht cl w
  refine ⟨k, rs, h1, h4, h2, h3, ?_⟩
  intro h
  simpa using h5 h

/-- **C04, C05** (partial: plain file exports; `C04_false_tls_splice` is a case in which the process dies). There nothing makes the process die, so every request sent
is carried out and answered. -/
theorem C04_C05_session_plain_partial (e : Endian) (cl : Client) (w : World) (hp : Plain cl)
    (hs : cl.tls = false ∨ has cl.ex.flags F_SPLICE = false)
    (ht : has cl.ex.flags F_TREEFILES = false) (ss : List Sent)
    (hok : ∀ s ∈ ss, s.Ok) (tail : List Byte)
    (htail : tail.length < 28 ∨ ∃ (r : Request) (junk : List Byte), r.Fits ∧ r.magic = 0x25609513 ∧
      r.type = 2 ∧ tail = r.encode ++ junk) :
    let run := mainloop e cl w (ss.flatMap Sent.encode ++ tail)
    ∃ rs, run.handled.map Done.sent = ss.map Sent.fields ∧
      run.sent = wire rs ∧ Answers (ss.map (fun s => s.req.cookie)) rs := by
  obtain ⟨k, rs, h1, h2, h3, h4, h5⟩ := C04_C05_session e cl w ss hok tail htail
  have hsafe := mainloop_safe e cl w (ss.flatMap Sent.encode ++ tail) hp hs
  have hk : k = ss.length := by
    by_cases hlt : k < ss.length
    · rcases h5 hlt with h | h
      · exact absurd h hsafe.1
      · exact absurd h (hsafe.2.2 ht)
    · omega
  subst hk
  rw [List.take_length] at h2 h4
  exact ⟨rs, h2, h3, h4⟩

/-- A write that is refused (out of range), then a read: both carried out, in step. -/
example : (mainloop .big (Demo.client false) Demo.world
      ([Demo.write 9 [7, 8, 9], Demo.request 0 9 2].flatMap Sent.encode)).sent =
    wire [.simple 28 Demo.cookie [], .simple 0 Demo.cookie [5, 6]] := by decide +kernel

/-- **C04 is false of splice exports on encrypted connections**: the server crashes on a write. -/
theorem C04_false_tls_splice : ∃ (cl : Client) (w : World) (s : Sent), s.Ok ∧
    has cl.ex.flags F_SPLICE = true ∧ cl.tls = true ∧
    (mainloop .little cl w s.encode).ending = .ub ∧ (mainloop .little cl w s.encode).sent = [] :=
  ⟨⟨⟨F_SPLICE, 11, [⟨3, 0⟩], []⟩, false, [], 0, 0, 0, false, true⟩, Demo.world,
    Demo.write 3 [10, 11, 12, 13], Demo.write_ok, by decide, rfl, by decide +kernel, by decide +kernel⟩

/-! ### C53: nothing a client sends kills the server process of a plain file export -/

/-- **C53** (partial: not splice exports over TLS, where it is false, `C04_false_tls_splice`). Whatever bytes a client sends and however the store behaves, a session on a plain
file export never runs into undefined behaviour or a failed assertion: it ends because the client
disconnects, goes away, or sends a wrong magic number. Tree exports never run into undefined
behaviour (but can exit when a block file cannot be created). -/
theorem C53_no_crash_partial (e : Endian) (cl : Client) (w : World) (hp : Plain cl)
    (hs : cl.tls = false ∨ has cl.ex.flags F_SPLICE = false) (stream : List Byte) :
    (mainloop e cl w stream).ending ≠ .ub ∧
    (has cl.ex.flags F_TREEFILES = false → (mainloop e cl w stream).ending = .gone ∨
      (mainloop e cl w stream).ending = .disconnected) := by
  obtain ⟨h1, _, h2⟩ := mainloop_safe e cl w stream hp hs
  refine ⟨h1, fun ht => ?_⟩
  have := h2 ht
  cases h : (mainloop e cl w stream).ending <;> simp_all

example : Plain (Demo.client false) ∧ (Demo.client false).tls = false ∧
    has (Demo.client false).ex.flags F_TREEFILES = false := ⟨Demo.client_plain _, rfl, by decide⟩

/-! ### C06 -/

/-- **C06.** On a read-only export, whatever else its configuration (copy-on-write, tree, several
files, splice, waiting for a file) and whatever bytes a client sends: every file exists afterwards
with the same size and contents, and every write, trim and write-zeroes request is answered by one
simple reply with EPERM (a request with undefined flag bits may be refused as EINVAL instead). -/
theorem C06_readonly (e : Endian) (cl : Client) (w : World) (stream : List Byte)
    (hro : has cl.ex.flags F_READONLY = true) :
    let run := mainloop e cl w stream
    (∀ id, (run.w.files id).map (fun f => (f.data, f.size)) =
      (w.files id).map (fun f => (f.data, f.size))) ∧
    ∀ d ∈ run.handled, d.req.type < 262144 →
      (d.req.type % 65536 = 1 ∨ d.req.type % 65536 = 4 ∨ d.req.type % 65536 = 6) →
      d.msgs.flatMap Msg.bytes = (Reply.simple 1 d.req.cookie []).encode := by
  obtain ⟨h1, h2⟩ := mainloop_ro e cl w stream hro
  refine ⟨h1, ?_⟩
  intro d hd ht hc
  have := (h2 d hd ht (by simpa using hc)).wire
  rw [List.flatMap_def, this]
  simp [wire]

/-- A write to a read-only export. -/
example : has Demo.roClient.ex.flags F_READONLY = true ∧
    (mainloop .little Demo.roClient Demo.world (Demo.write 3 [10, 11, 12, 13]).encode).sent
      = (Reply.simple 1 Demo.cookie []).encode ∧
    (mainloop .little Demo.roClient Demo.world (Demo.write 3 [10, 11, 12, 13]).encode).handled.length
      = 1 := by
  refine ⟨by decide, by decide +kernel, by decide +kernel⟩

/-! ### C07 -/

/-- **C07** (frame, plain exports). A request the server carries out changes no byte of the export
outside the request's range; apart from trims, it changes no byte of any file that is not a byte
of that range (so not even beyond the export's size). -/
theorem C07_frame (e : Endian) (cl cl' : Client) (hp : Plain cl) (w w' : World) (r : Req)
    (p : Payload) (msgs : List Msg) (hlen : r.len < 2 ^ 32) (hpl : p.fits r)
    (h : handleRequest e cl w r p = .val (cl', w', msgs)) :
    (∀ a, a < r.start ∨ r.start + r.len ≤ a → view cl.ex w' a = view cl.ex w a) ∧
    (r.type % 65536 ≠ 4 → ∀ id o,
      (∀ a, r.start ≤ a → a < r.start + r.len → home cl.ex a ≠ some (id, o)) →
      content w' (id, o) = content w (id, o)) := by
  have hf := handleRequest_frame e cl cl' hp w w' r p msgs hlen hpl h
  constructor
  · intro a ha
    unfold view
    split
    · rename_i hsz
      split
      · rename_i x hx
        apply hf x
        · intro b hb h1 h2 hbx
          have := home_inj cl.ex hp.good a b hsz hb x hx hbx
          omega
        · exact .inl ⟨a, hsz, hx⟩
      · rfl
    · rfl
  · intro ht id o hx
    exact hf (id, o) (fun a _ h1 h2 => hx a h1 h2) (.inr ht)

example : (match handleRequest .little (Demo.client false) Demo.world
      (reqOf .little (Demo.write 3 [10, 11, 12, 13])) (.data [10, 11, 12, 13]) with
    | .val (_, w', _) => (view Demo.ex w').read 0 11
    | _ => []) = [1, 2, 3, 10, 11, 12, 13, 3, 4, 5, 6] := by decide +kernel

/-- **C07** (refusal, any kind of export and session, sizes up to 2^64 - 2^32). A read, write, trim or write-zeroes
request whose range is not inside the export changes nothing at all and is answered with an error:
EPERM for writing commands on a read-only export, otherwise EINVAL (read, trim) or ENOSPC (write,
write-zeroes). -/
theorem C07_out_of_range_partial (e : Endian) (cl : Client) (w : World) (r : Req) (p : Payload)
    (hsize : cl.ex.exportsize ≤ 2 ^ 64 - 2 ^ 32) (hlen : r.len < 2 ^ 32)
    (hcmd : r.type % 65536 = 0 ∨ r.type % 65536 = 1 ∨ r.type % 65536 = 4 ∨ r.type % 65536 = 6)
    (hout : cl.ex.exportsize < r.start + r.len) :
    ∃ msgs err, handleRequest e cl w r p = .val (cl, w, msgs) ∧
      msgs.flatMap Msg.bytes = (Reply.simple err r.cookie []).encode ∧
      (r.type < 262144 → err =
        if r.type % 65536 ≠ 0 ∧ (has cl.ex.flags F_READONLY || has cl.ex.flags F_AUTOREADONLY) then 1
        else if r.type % 65536 = 0 ∨ r.type % 65536 = 4 then 22 else 28) ∧
      (262144 ≤ r.type → err = 22) := by
  have hbr : badRange cl r = true := by
    unfold badRange
    simp only [gt_iff_lt, Bool.or_eq_true, decide_eq_true_eq]
    omega
  have henc : ∀ n : Nat, [simpleMsg e r (some (nbdErrno e n))].flatMap Msg.bytes
      = (Reply.simple (errnoWire n).toNat r.cookie []).encode := by
    intro n
    have := (simpleMsg_encodes e r (some (errnoWire n))).wire
    rw [List.flatMap_def, nbdErrno_eq]
    simpa [wire] using this
  unfold handleRequest
  simp only []
  by_cases hf : r.type < 262144
  · rw [if_neg (by omega)]
    rcases hcmd with h | h | h | h
    · rw [if_pos (by rw [h]; rfl), hbr, if_pos rfl]
      exact ⟨_, _, rfl, henc _, fun _ => by simp [h]; rfl, fun h' => by omega⟩
    · rw [if_neg (by rw [h]; decide), if_pos (by rw [h]; rfl)]
      cases hb : badWrite cl with
      | true =>
        unfold badWrite at hb
        exact ⟨_, _, rfl, henc _, fun _ => by simp [h, hb]; rfl, fun h' => by omega⟩
      | false =>
        rw [hbr]
        unfold badWrite at hb
        exact ⟨_, _, rfl, henc _, fun _ => by simp [h, hb]; rfl, fun h' => by omega⟩
    · rw [if_neg (by rw [h]; decide), if_neg (by rw [h]; decide), if_neg (by rw [h]; decide),
        if_pos (by rw [h]; rfl)]
      cases hb : badWrite cl with
      | true =>
        unfold badWrite at hb
        exact ⟨_, _, rfl, henc _, fun _ => by simp [h, hb]; rfl, fun h' => by omega⟩
      | false =>
        rw [hbr]
        unfold badWrite at hb
        exact ⟨_, _, rfl, henc _, fun _ => by simp [h, hb]; rfl, fun h' => by omega⟩
    · rw [if_neg (by rw [h]; decide), if_neg (by rw [h]; decide), if_neg (by rw [h]; decide),
        if_neg (by rw [h]; decide), if_pos (by rw [h]; rfl)]
      cases hb : badWrite cl with
      | true =>
        unfold badWrite at hb
        exact ⟨_, _, rfl, henc _, fun _ => by simp [h, hb]; rfl, fun h' => by omega⟩
      | false =>
        rw [hbr]
        unfold badWrite at hb
        exact ⟨_, _, rfl, henc _, fun _ => by simp [h, hb]; rfl, fun h' => by omega⟩
  · rw [if_pos (by omega)]
    exact ⟨_, _, rfl, henc _, fun h' => absurd h' hf, fun _ => rfl⟩

example : (Demo.client false).ex.exportsize ≤ 2 ^ 64 - 2 ^ 32 ∧
    (Demo.client false).ex.exportsize < 9 + 3 := by decide

/-- **C07 is false for the size the server assumes when it cannot find out the size** (2^64 - 1):
`offset + length` wraps around, so a write across the end is accepted as in range. -/
theorem C07_false_unknown_size : ∃ (cl : Client) (r : Req),
    cl.ex.exportsize = 2 ^ 64 - 1 ∧ r.len < 2 ^ 32 ∧ cl.ex.exportsize < r.start + r.len ∧
    badRange cl r = false :=
  ⟨⟨⟨0, 2 ^ 64 - 1, [⟨3, 0⟩], []⟩, false, [], 0, 0, 0, false, false⟩,
   ⟨0, 1, [], 2 ^ 64 - 10, 100⟩, rfl, by decide, by decide, by decide⟩

/-! ### C08 -/

/-- **C08** (partial: write-zeroes requests are limited to 64 MiB because of C09, and the layout
must be sound, see C13). Whatever well-formed requests a client sends, the bytes it receives are
those of a correct server whose store is one flat array holding the export's initial contents, and
the export's final contents are that array's. Failures are answered as failures. -/
theorem C08_flat_array_partial (e : Endian) (cl : Client) (w : World) (hp : Plain cl)
    (ss : List Sent) (hok : ∀ s ∈ ss, s.Ok)
    (hz : ∀ s ∈ ss, s.cmd.code = 6 → s.req.len ≤ 64 * 1024 * 1024)
    (hend : (mainloop e cl w (ss.flatMap Sent.encode)).ending = .gone) :
    ∃ rs, (mainloop e cl w (ss.flatMap Sent.encode)).sent = wire rs ∧
      FlatRun cl.ex.exportsize (has cl.ex.flags F_READONLY || has cl.ex.flags F_AUTOREADONLY)
        (if has cl.ex.flags F_SPLICE && !cl.tls then [cl.structured, false] else [cl.structured])
        (view cl.ex w) (ss.map Sent.cmd) rs
        (view cl.ex (mainloop e cl w (ss.flatMap Sent.encode)).w) :=
  (mainloop_plain e ss hok cl w hp hz hend).2

/-- Write across the file boundary, read back, zero a part, read again. -/
example : (mainloop .little (Demo.client false) Demo.world
      ([Demo.write 3 [10, 11, 12, 13], Demo.request 0 0 11, Demo.request 6 4 2,
        Demo.request 0 2 6].flatMap Sent.encode)).sent =
    wire [.simple 0 Demo.cookie [], .simple 0 Demo.cookie [1, 2, 3, 10, 11, 12, 13, 3, 4, 5, 6],
      .simple 0 Demo.cookie [], .simple 0 Demo.cookie [3, 10, 0, 0, 13, 3]] := by decide +kernel

/-- **C08, no spurious failures.** If every system call of the store succeeds (transferring at
least one byte), every byte of the export is present, and the request is in range and permitted,
the request succeeds. -/
theorem C08_no_spurious_errors (e : Endian) (cl : Client) (hp : Plain cl) (w : World) (r : Req)
    (p : Payload) (hlen : r.len < 2 ^ 32) (hpl : p.fits r)
    (hhealthy : ∀ t, ∃ n, 0 < n ∧ w.orc t = .done n)
    (hbacked : ∀ a, a < cl.ex.exportsize →
      ∃ id o f, home cl.ex a = some (id, o) ∧ w.files id = some f ∧ o < f.size)
    (hopen : ∀ fi ∈ cl.ex.files, ∃ f, w.files (.fd fi.fhandle) = some f)
    (hnw : has cl.ex.flags F_WAIT = false) (hf : r.type < 262144)
    (hcode : r.type % 65536 = 3 ∨
      (r.start + r.len ≤ cl.ex.exportsize ∧
        (r.type % 65536 = 0 ∨
         (badWrite cl = false ∧ (r.type % 65536 = 6 ∨ r.type % 65536 = 1))))) :
    ∃ cl' w' msgs rs, handleRequest e cl w r p = .val (cl', w', msgs) ∧
      msgs.flatMap Msg.bytes = wire rs ∧ ∀ x ∈ rs, x.error = 0 := by
  obtain ⟨cl', w', msgs, rs, h1, h2, h3⟩ := handleRequest_healthy e cl hp w r p hlen hpl hhealthy
    hbacked hopen hnw hf hcode
  exact ⟨cl', w', msgs, rs, h1, by rw [List.flatMap_def]; exact h2.wire, h3⟩

/-! ### C09 -/

/-- **C09** (partial: lengths up to 64 MiB). After a write-zeroes request answered without error
every byte of its range is zero and every other byte of the export is unchanged. -/
theorem C09_write_zeroes_partial (e : Endian) (cl : Client) (w : World) (hp : Plain cl) (s : Sent)
    (hok : s.Ok) (hcmd : s.req.type % 65536 = 6) (hlen : s.req.len ≤ 64 * 1024 * 1024)
    (hend : (mainloop e cl w s.encode).ending = .gone)
    (hsucc : (mainloop e cl w s.encode).sent = (Reply.simple 0 s.req.cookie []).encode) :
    ∀ a, view cl.ex (mainloop e cl w s.encode).w a =
      if s.req.start ≤ a ∧ a < s.req.start + s.req.len then 0 else view cl.ex w a := by
  obtain ⟨rs, hsent, hstep⟩ := single e cl w hp s hok (fun _ => hlen) hend
  rw [hsent] at hsucc
  have hc : s.cmd.code = 6 ∨ s.cmd.code = 65535 := by
    simp only [Sent.cmd]; split
    · left; exact hcmd
    · right; rfl
  generalize view cl.ex (mainloop e cl w s.encode).w = g at hstep
  cases hstep with
  | read _ h => omega
  | readFails _ h => omega
  | write h => omega
  | writeFails h => omega
  | zeroes =>
    intro a
    show Flat.write (view cl.ex w) s.req.start (Flat.zeros s.req.len) a = _
    rw [Flat.write_apply]
    by_cases hin : s.req.start ≤ a ∧ a < s.req.start + s.req.len
    · rw [if_pos hin, dif_pos ⟨hin.1, by rw [Flat.zeros_length]; omega⟩]
      simp [Flat.zeros]
    · rw [if_neg hin, dif_neg (by rw [Flat.zeros_length]; omega)]
  | zeroesFails _ _ _ err n he =>
    exact absurd (simple_encode_inj (errno_lt he).1 (by decide) hsucc) (errno_lt he).2
  | flush h => omega
  | trim h => omega
  | refused err he =>
    exact absurd (simple_encode_inj (errno_lt he).1 (by decide) hsucc) (errno_lt he).2

example : (mainloop .little (Demo.client false) Demo.world (Demo.request 6 4 2).encode).sent
    = (Reply.simple 0 Demo.cookie []).encode ∧
    (view Demo.ex (mainloop .little (Demo.client false) Demo.world (Demo.request 6 4 2).encode).w).read 3 4
      = [4, 0, 0, 2] := by
  constructor <;> decide +kernel

/-- Every acknowledged write-zeroes request longer than 64 MiB on the demo export leaves the byte
64 MiB after its start as it was. -/
theorem zeroes_stop (m : UInt32) (len : Nat) (hlen : 64 * 1024 * 1024 < len) (hr : 5 + len ≤ 2 ^ 27) :
    ∃ w', handleRequest .little Demo.bigClient Demo.bigWorld ⟨m, 6, Demo.cookie, 5, len⟩ .nothing =
      .val (Demo.bigClient, w', [simpleMsg .little ⟨m, 6, Demo.cookie, 5, len⟩ none]) ∧
      view Demo.bigClient.ex w' (5 + 64 * 1024 * 1024) = 1 := by
  have hlt : 5 + 64 * 1024 * 1024 < 2 ^ 27 := by omega
  have hsz : Demo.bigClient.ex.exportsize = 2 ^ 27 := rfl
  have hhome : ∀ a, a < 2 ^ 27 → home Demo.bigClient.ex a = some (.fd 3, a) := by
    intro a ha
    simp [home, Demo.bigClient, locate, has]
  have hb : Backed Demo.bigClient.ex Demo.bigWorld := by
    intro a ha
    exact ⟨.fd 3, a, _, hhome a ha, rfl, ha⟩
  have hh : Healthy Demo.bigWorld := fun t => ⟨2 ^ 31, by decide, rfl⟩
  obtain ⟨w', h1, -, -⟩ := expwriteZeroes_backed Demo.bigClient Demo.big_plain Demo.bigWorld hh hb 5
    len false (by rw [hsz]; exact hr)
  obtain ⟨-, n, h2, h3, h4⟩ := (expwriteZeroes_plain Demo.bigClient Demo.big_plain Demo.bigWorld 5
    len false (by rw [hsz]; exact hr) (by decide)).2 _ _ _ h1
  have hn : n = 64 * 1024 * 1024 := by rw [h4 rfl]; unfold ZEROCHUNK; omega
  refine ⟨w', ?_, ?_⟩
  · unfold handleRequest
    have hbr : badRange Demo.bigClient ⟨m, 6, Demo.cookie, 5, len⟩ = false := by
      unfold badRange
      rw [hsz]
      simp only [Bool.or_eq_false_iff, decide_eq_false_iff_not]
      omega
    simp only []
    rw [if_neg (by decide), if_neg (by decide), if_neg (by decide), if_neg (by decide),
      if_neg (by decide), if_pos (by decide), if_neg (by decide), if_neg (by rw [hbr]; decide)]
    unfold handleWriteZeroes
    have : has 6 CMD_FLAG_FUA = false := by decide
    simp only [this, h1]
    rfl
  · have : view Demo.bigClient.ex w' (5 + 64 * 1024 * 1024)
        = content w' (.fd 3, 5 + 64 * 1024 * 1024) := by
      unfold view
      rw [hsz, if_pos hlt, hhome _ hlt]
    rw [this, h3.outside]
    · rfl
    · intro k hk
      rw [Flat.zeros_length, hn] at hk
      rw [hhome _ (by omega)]
      intro h
      have := (Prod.mk.inj (Option.some.inj h)).2
      omega

/-- **C09 is false above 64 MiB**: the server acknowledges a write-zeroes request of 64 MiB + 1
bytes although the last byte of the range keeps its old, nonzero value. The offset is not advanced
between chunks. -/
theorem C09_false : ∃ (cl : Client) (w w' : World) (r : Req) (msgs : List Msg), Plain cl ∧
    r.type = 6 ∧ r.len = 64 * 1024 * 1024 + 1 ∧ r.start + r.len ≤ cl.ex.exportsize ∧
    handleRequest .little cl w r .nothing = .val (cl, w', msgs) ∧
    (msgs.map Msg.bytes).flatten = wire [.simple 0 r.cookie []] ∧
    view cl.ex w' (r.start + 64 * 1024 * 1024) ≠ 0 := by
  obtain ⟨w', h1, h2⟩ := zeroes_stop 0 (64 * 1024 * 1024 + 1) (by omega) (by omega)
  exact ⟨Demo.bigClient, Demo.bigWorld, w', ⟨0, 6, Demo.cookie, 5, 64 * 1024 * 1024 + 1⟩, _,
    Demo.big_plain, rfl, rfl, by show 5 + (64 * 1024 * 1024 + 1) ≤ 2 ^ 27; omega, h1, (simpleMsg_encodes .little _ none).wire,
    by rw [h2]; decide⟩

end Nbd.Props
