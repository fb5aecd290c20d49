import Verif.SchedSeq
/-!
# Exports with `splice = true`, processed by several threads

The program of one request on an export of plain files that uses pipes, one system call per step.
`requestS` is `requestP` (`Verif.Sched`) but for a read or write that goes through a pipe.
A pipe that is full makes a thread wait (`Verif.Pipe`, C96); here this is a thread that makes no
more steps.
-/

set_option autoImplicit false

namespace Nbd

/-- nbd-server.c 1486-1521 and 1534-1544 `expsplice`, direction SPLICE_OUT: as `writeFullyP`, with
the bytes taken out of the pipe. -/
def spliceOutP (ex : Export) (fua : Bool) (k : Bool → Nat → Prog World) (a len : Nat)
    (pipe : List Byte) (en : Nat) : Prog World :=
  if len = 0 then k true en
  else
    call (rawPwrite ex a (pipe.take len)) en fun r en =>
      match r with
      | none => k false en
      | some (h, x) =>
        let next := fun en =>
          match x with
          | none => k false en
          | some 0 => k false en
          | some (n + 1) => spliceOutP ex fua k (a + (n + 1)) (len - (n + 1)) (pipe.drop (n + 1)) en
        if has ex.flags F_SYNC || fua then
          call (fun w => .val (handleSyncIgnored w h, ())) en fun _ en => next en
        else next en
termination_by len
decreasing_by all_goals omega

/-- nbd-server.c 1486-1521: `get_filepos` and one `splice` from the file to the pipe; only how many
bytes it moved is known to the program (`none` is -1). -/
def spliceOnce (ex : Export) (a len : Nat) (w : World) : Out (World × Option Nat) :=
  match rawexpread ex w a len with
  | .ub => .ub
  | .exit => .exit
  | .val (w, none) => .val (w, none)
  | .val (w, some bs) => .val (w, some bs.length)

/-- nbd-server.c 1534-1544 `expsplice`, direction SPLICE_IN. The pipe then holds references to the
pages of the file, not copies of the bytes: `pipe` says which places of the export they are, and the
bytes are looked at when they leave the pipe (`peekP`). -/
def spliceInP (ex : Export) (k : Bool → List Nat → Nat → Prog World) (a len : Nat)
    (pipe : List Nat) (en : Nat) : Prog World :=
  if len = 0 then k true pipe en
  else
    call (spliceOnce ex a len) en fun r en =>
      match r with
      | none => k false pipe en
      | some 0 => k false pipe en
      | some (n + 1) =>
        spliceInP ex k (a + (n + 1)) (len - (n + 1)) (pipe ++ List.range' a (n + 1)) en
termination_by len
decreasing_by omega

/-- The bytes that come out of the pipe, one at a time, each as the page of the file holds it at
that moment. nbd-server.c 2863 (`spliceit`, 481-491). Simplification: the bytes are settled before the
message is begun; a page can in fact be changed while the message is on its way. (Nothing can come
between the beginning and the end of a message on the same connection, so as long as the message is
being handed to the kernel this is the same as beginning it later.) -/
def peekP (ex : Export) (k : List Byte → Prog World) : List Nat → List Byte → Prog World
  | [], acc => k acc
  | a :: pipe, acc => .op (fun w => .val (w, view ex w a)) fun b => peekP ex k pipe (acc ++ [b])

/-- nbd-server.c 2915-2927 `handle_read` with 2840-2868 `handle_splice_read`, on an export with
`splice = true`. The reply is logged, then sent; the log gets its header only. -/
def spliceReadP (e : Endian) (cl : Client) (lg : Bool) (r : Req) (en : Nat) : Prog World :=
  if cl.tls then readP e cl lg r en
  else
    call (fun w => .val (mkpipe w r.len)) en fun piped en =>
      if piped then
        spliceInP cl.ex (fun ok pipe en =>
          if ok then
            peekP cl.ex (fun bs => sendReplyP lg ⟨simpleHdr e 0 r.cookie, bs⟩ (.done en)) pipe []
          else readP e cl lg r en) r.start r.len [] en
      else readP e cl lg r en

/-- nbd-server.c 3025-3093 `handle_request` on an export of one or more files with or without
`splice = true` (not copy-on-write, not waiting, not a tree): a read that is not refused goes through
a pipe, and so does a write whose data the main thread left in one. -/
def requestS (e : Endian) (cl : Client) (lg : Bool) (en : Nat) (r : Req) (p : Payload) :
    Prog World :=
  let type := r.type % 65536
  let flags := r.type - r.type % 65536
  if flags / 65536 / 4 ≠ 0 then requestP e cl lg en r p
  else if type = CMD_READ then
    if badRange cl r then requestP e cl lg en r p
    else if has cl.ex.flags F_SPLICE then spliceReadP e cl lg r en
    else readP e cl lg r en
  else if type = CMD_WRITE then
    if badWrite cl then requestP e cl lg en r p
    else if badRange cl r then requestP e cl lg en r p
    else
      match p with
      | .pipe bs =>
        spliceOutP cl.ex (has r.type CMD_FLAG_FUA) (answerP e lg r) r.start r.len bs en
      | _ => requestP e cl lg en r p
  else requestP e cl lg en r p

/-- A session on an export of one or more files, with or without `splice = true`: every system
call is a step. nbd-server.c 3025-3152 with 1200-1282, 1444-1544 and 2840-2868. -/
def spliceServer (e : Endian) (cl : Client) (lg : Bool) : Server World where
  e := e
  cl := cl
  logging := lg
  take := fun w stream => fetch e cl w stream
  code := requestS e cl lg

open Spec

/-! ### Weakening -/

theorem Prog.Good.mono {σ : Type} {view : σ → Flat} {P Q P' Q' : List Act → Prop}
    (hp : ∀ l, P l → P' l) (hq : ∀ l, Q l → Q' l) (p : Prog σ) :
    ∀ (l : List Act), p.Good view P Q l → p.Good view P' Q' l := by
  induction p with
  | done en => intro l h; exact hp _ h
  | op f k ih =>
    intro l h
    refine ⟨hq _ h.1, ?_⟩
    intro s s' a hf
    obtain ⟨es, h1, h2, h3⟩ := h.2 s s' a hf
    exact ⟨es, h1, h2, ih a _ h3⟩
  | send m k ih => intro l h; exact ⟨hq _ h.1, ih _ h.2⟩
  | log bs k ih => intro l h; exact ⟨hq _ h.1, ih _ h.2⟩

theorem Does.framing {size : Nat} {ro : Bool} {fr fr' : List Bool} {c : Cmd} {l : List Act}
    {rs : List Reply} (hf : ∀ m ∈ fr, m ∈ fr') (h : Does size ro fr c l rs) :
    Does size ro fr' c l rs := by
  cases h with
  | read data _ hc hr hl m hm h => exact .read data _ hc hr hl m (hf m hm) h
  | readFails data _ hc hr hl m hm h => exact .readFails data _ hc hr hl m (hf m hm) h
  | write hc hw hr => exact .write hc hw hr
  | writeFails hc hw hr err n he => exact .writeFails hc hw hr err n he
  | zeroes hc hw hr hl => exact .zeroes hc hw hr hl
  | zeroesFails hc hw hr err l hz he => exact .zeroesFails hc hw hr err _ hz he
  | zeroesBig hc hw hr hl l hz hf => exact .zeroesBig hc hw hr hl _ hz hf
  | flush hc err he => exact .flush hc err he
  | trim hc hw hr l hz => exact .trim hc hw hr _ hz
  | refused err he why => exact .refused err he why

theorem Complete.framing {size : Nat} {ro : Bool} {fr fr' : List Bool} {c : Cmd} {l : List Act}
    (hf : ∀ m ∈ fr, m ∈ fr') (h : Complete size ro fr c l) : Complete size ro fr' c l := by
  obtain ⟨rs, h1, h2, h3⟩ := h
  exact ⟨rs, h1, Does.framing hf h2, h3⟩

theorem Partial.framing {size : Nat} {ro : Bool} {fr fr' : List Bool} {c : Cmd} {l : List Act}
    (hf : ∀ m ∈ fr, m ∈ fr') (h : Partial size ro fr c l) : Partial size ro fr' c l := by
  obtain ⟨more, h⟩ := h
  exact ⟨more, Complete.framing hf h⟩

/-! ### What is done to the array -/

theorem spliceOutP_eq (ex : Export) (fua : Bool) (k : Bool → Nat → Prog World) (n : Nat) :
    ∀ (a : Nat) (pipe : List Byte) (en : Nat), pipe.length = n →
      spliceOutP ex fua k a n pipe en = writeFullyP ex fua k a pipe en := by
  induction n using Nat.strongRecOn with
  | _ n ih =>
    intro a pipe en hn
    unfold spliceOutP writeFullyP
    rw [hn, List.take_of_length_le (Nat.le_of_eq hn)]
    split
    · rfl
    · rename_i h0
      congr 1
      funext r en
      cases r with
      | none => rfl
      | some x =>
        obtain ⟨h, x⟩ := x
        cases x with
        | none => rfl
        | some m =>
          cases m with
          | zero => rfl
          | succ m =>
            have := fun en => ih (n - (m + 1)) (by omega) (a + (m + 1)) (pipe.drop (m + 1)) en
              (by rw [List.length_drop, hn])
            simp only [this]

theorem spliceOnce_same {ex : Export} (hg : GoodExport ex) {a len : Nat}
    (hr : a + len ≤ ex.exportsize) (h0 : 0 < len) {w w' : World} {r : Option Nat}
    (h : spliceOnce ex a len w = .val (w', r)) :
    SameContent w w' ∧ ∀ n, r = some n → n ≤ len := by
  have hspec := (rawexpread_spec ex hg w a len hr h0).2
  unfold spliceOnce at h
  split at h
  · cases h
  · cases h
  · rename_i w1 hq
    cases h
    exact ⟨(hspec _ _ hq).1, by simp⟩
  · rename_i w1 bs hq
    cases h
    exact ⟨(hspec _ _ hq).1, fun n hn => by cases hn; exact ((hspec _ _ hq).2 _ rfl).1⟩

theorem spliceInP_good {ex : Export} (hg : GoodExport ex) {P Q : List Act → Prop} {l : List Act}
    (hq : Q l) (a0 len : Nat) (hr : a0 + len ≤ ex.exportsize)
    (k : Bool → List Nat → Nat → Prog World)
    (hk : ∀ ok pipe en, (ok = true → pipe = List.range' a0 len) → (k ok pipe en).Good (view ex) P Q l)
    (n : Nat) : ∀ (d en : Nat), d + n = len →
      (spliceInP ex k (a0 + d) n (List.range' a0 d) en).Good (view ex) P Q l := by
  induction n using Nat.strongRecOn with
  | _ n ih =>
    intro d en hd
    unfold spliceInP
    split
    · rename_i h0
      exact hk _ _ _ (fun _ => by rw [← hd, h0, Nat.add_zero])
    · rename_i h0
      refine call_same hq ?_
      intro w w' r hf
      obtain ⟨h1, h2⟩ := spliceOnce_same hg (by omega) (by omega) hf
      refine ⟨h1, ?_⟩
      intro en'
      match r, h2 with
      | none, _ => exact hk _ _ _ (by simp)
      | some 0, _ => exact hk _ _ _ (by simp)
      | some (m + 1), h2 =>
        have := h2 _ rfl
        have := ih (n - (m + 1)) (by omega) (d + (m + 1)) en' (by omega)
        rw [← List.range'_append_1, ← Nat.add_assoc a0] at this
        exact this

theorem peekP_good {ex : Export} {P Q : List Act → Prop} (a0 len : Nat)
    (k : List Byte → Prog World)
    (hQ : ∀ d : List Byte, d.length ≤ len → Q (gets a0 d))
    (hk : ∀ d : List Byte, d.length = len → (k d).Good (view ex) P Q (gets a0 d)) (n : Nat) :
    ∀ d : List Byte, d.length + n = len →
      (peekP ex k (List.range' (a0 + d.length) n) d).Good (view ex) P Q (gets a0 d) := by
  induction n with
  | zero => intro d hd; exact hk d hd
  | succ n ih =>
    intro d hd
    rw [List.range'_succ]
    refine ⟨hQ d (by omega), ?_⟩
    intro s s' b hf
    cases hf
    refine ⟨[.get (a0 + d.length) (view ex s (a0 + d.length))], ?_, .get _ _ _ _ _ rfl (.nil _), ?_⟩
    · intro x hx m hm
      rw [List.mem_singleton] at hx
      subst hx
      cases hm
    · have := ih (d ++ [view ex s (a0 + d.length)]) (by simp; omega)
      rw [gets_append] at this
      simpa [gets, Nat.add_assoc] using this

theorem spliceReadP_good {e : Endian} {ro : Bool} {r : Req} {p : Payload} {cl : Client}
    (hg : GoodExport cl.ex) (hc : (cmdOf r p).code = 0)
    (hdf : has r.type CMD_FLAG_DF = false)
    (hr : r.start + r.len ≤ cl.ex.exportsize) (lg : Bool) (en : Nat) :
    (spliceReadP e cl lg r en).Good (view cl.ex)
      (Complete cl.ex.exportsize ro [cl.structured, false] (cmdOf r p))
      (Partial cl.ex.exportsize ro [cl.structured, false] (cmdOf r p)) [] := by
  have hsub : ∀ m ∈ [cl.structured], m ∈ [cl.structured, false] := by simp
  have hread : ∀ en, (readP e cl lg r en).Good (view cl.ex)
      (Complete cl.ex.exportsize ro [cl.structured, false] (cmdOf r p))
      (Partial cl.ex.exportsize ro [cl.structured, false] (cmdOf r p)) [] := fun en =>
    Prog.Good.mono (fun _ => Complete.framing hsub) (fun _ => Partial.framing hsub) _ _
      (readP_good hg hc hdf hr lg en)
  have hQ : ∀ d : List Byte, d.length ≤ r.len →
      Partial cl.ex.exportsize ro [cl.structured, false] (cmdOf r p) (gets r.start d) := by
    intro d hd
    refine ⟨[.msg ⟨simpleHdr e (nbdErrno e 0) r.cookie, []⟩], ?_⟩
    refine Complete.single (msgs_quiet (gets_quiet _ _)) (r := .simple (errnoWire 0).toNat r.cookie []) ?_ ?_
    · rw [nbdErrno_eq, simple_bytes]
    · rw [accesses_quiet (gets_quiet _ _)]
      exact .readFails d _ hc hr hd false (by simp) (.simple _ (errnoWire_toNat_mem _))
  have hq : Partial cl.ex.exportsize ro [cl.structured, false] (cmdOf r p) [] := hQ [] (by simp)
  unfold spliceReadP
  split
  · exact hread en
  · refine call_same hq ?_
    intro w w' piped hf
    have : w' = (mkpipe w r.len).1 := by
      have := congrArg (fun o : Out (World × Bool) => match o with | .val x => some x.1 | _ => none) hf
      simpa using this.symm
    refine ⟨by rw [this]; exact mkpipe_same w r.len, ?_⟩
    intro en'
    split
    · refine spliceInP_good hg hq r.start r.len hr _ ?_ r.len 0 _ (by omega)
      intro ok pipe en hpipe
      split
      · rename_i hok
        rw [hpipe hok]
        have := peekP_good (ex := cl.ex)
          (P := Complete cl.ex.exportsize ro [cl.structured, false] (cmdOf r p))
          (Q := Partial cl.ex.exportsize ro [cl.structured, false] (cmdOf r p)) r.start r.len
          (fun bs => sendReplyP lg ⟨simpleHdr e 0 r.cookie, bs⟩ (.done en)) hQ
          (by
            intro d hd
            refine sendReplyP_good (hQ d (by omega)) (Complete.single (msgs_quiet (gets_quiet _ _))
              (simple_bytes_zero e _ _) ?_)
            rw [accesses_quiet (gets_quiet _ _)]
            exact .read d _ hc hr hd false (by simp) .simple)
          r.len [] (by simp)
        exact this
      · exact hread en
    · exact hread en'

/-- A request as `fetch` hands it over, whether its data is in memory or in a pipe. -/
def Job.Fits (j : Job) : Prop := j.req.len < 2 ^ 32 ∧ j.payload.fits j.req

/-- An export of one or more plain files, with or without `splice = true`: neither copy-on-write
nor waiting, no tree. -/
structure Spliced (cl : Client) : Prop where
  plain : Plain cl
  tree : has cl.ex.flags F_TREEFILES = false
  wait : has cl.ex.flags F_WAIT = false

theorem requestS_good (e : Endian) (cl : Client) (hcl : Spliced cl) (lg : Bool) (en : Nat)
    (j : Job) (hj : j.Fits) :
    (requestS e cl lg en j.req j.payload).Good (view cl.ex)
      (Complete cl.ex.exportsize (badWrite cl) [cl.structured, false] (cmdOf j.req j.payload))
      (Partial cl.ex.exportsize (badWrite cl) [cl.structured, false] (cmdOf j.req j.payload)) [] := by
  obtain ⟨id, r, p⟩ := j
  obtain ⟨hlen, hfit⟩ := hj
  change r.len < 2 ^ 32 at hlen
  change p.fits r at hfit
  have hg := hcl.plain.good
  have hsub : ∀ m ∈ [cl.structured], m ∈ [cl.structured, false] := by simp
  -- the payload in memory
  have hmem : ∃ q : Payload, (⟨id, r, q⟩ : Job).Wf ∧ cmdOf r q = cmdOf r p ∧
      ((∀ bs, p ≠ .pipe bs) → q = p) ∧ (∀ bs, p = .pipe bs → q = .data bs) := by
    cases p with
    | nothing =>
      refine ⟨.nothing, ⟨hlen, fun h => absurd h hfit⟩, rfl, fun _ => rfl, by simp⟩
    | data bs => exact ⟨.data bs, ⟨hlen, fun _ => ⟨bs, rfl, hfit⟩⟩, rfl, fun _ => rfl, by simp⟩
    | pipe bs =>
      exact ⟨.data bs, ⟨hlen, fun _ => ⟨bs, rfl, hfit⟩⟩, rfl, fun h => absurd rfl (h bs),
        fun bs h => by cases h; rfl⟩
  obtain ⟨q, hq1, hq2, hq3, hq4⟩ := hmem
  have hP := Prog.Good.mono (fun _ => Complete.framing hsub) (fun _ => Partial.framing hsub) _ _
    (requestP_does e cl hcl.plain hcl.tree hcl.wait lg en ⟨id, r, q⟩ hq1)
  dsimp only at hP
  rw [hq2] at hP
  -- where the payload is does not matter to `requestP`, unless it is used
  have hsame : ((r.type - r.type % 65536) / 65536 / 4 = 0 → r.type % 65536 = CMD_WRITE →
      badWrite cl = true ∨ badRange cl r = true ∨ ∀ bs, p ≠ .pipe bs) →
      requestP e cl lg en r q = requestP e cl lg en r p := by
    intro h
    unfold requestP
    dsimp only
    by_cases h1 : (r.type - r.type % 65536) / 65536 / 4 = 0
    · by_cases h2 : r.type % 65536 = CMD_WRITE
      · rcases h h1 h2 with h3 | h3 | h3
        · simp only [h3, if_true]
        · simp only [h3, if_true]
        · rw [hq3 h3]
      · simp only [if_neg h2]
    · simp only [ne_eq, h1, not_false_eq_true, if_true]
  show (requestS e cl lg en r p).Good _ _ _ []
  unfold requestS
  dsimp only
  split
  · rename_i hf
    rw [← hsame (fun h => absurd h hf)]; exact hP
  · rename_i hf
    have hty : r.type < 262144 := by omega
    have hcode : (cmdOf r p).code = r.type % 65536 := by simp [cmdOf, hty]
    split
    · rename_i ht
      have hne : ¬ r.type % 65536 = CMD_WRITE := by rw [ht]; decide
      have hc0 : (cmdOf r p).code = 0 := by rw [hcode, ht]; rfl
      split
      · rw [← hsame (fun _ h => absurd h hne)]; exact hP
      · rename_i hb
        have hin := inRange hg hlen (by simpa using hb)
        split
        · exact spliceReadP_good hg hc0 (has_df_of_flags (by omega)) hin lg en
        · exact Prog.Good.mono (fun _ => Complete.framing hsub) (fun _ => Partial.framing hsub) _ _
            (readP_good hg hc0 (has_df_of_flags (by omega)) hin lg en)
    · split
      · rename_i ht
        split
        · rename_i hb
          rw [← hsame (fun _ _ => .inl hb)]; exact hP
        · rename_i hbw
          split
          · rename_i hb
            rw [← hsame (fun _ _ => .inr (.inl hb))]; exact hP
          · rename_i hbr
            split
            · rename_i bs
              change bs.length = r.len at hfit
              rw [← hfit, spliceOutP_eq _ _ _ _ _ _ _ rfl]
              have := hq4 bs rfl
              subst this
              unfold requestP at hP
              dsimp only at hP
              rw [if_neg hf, if_neg (by rw [ht]; decide), if_pos ht, if_neg hbw, if_neg hbr] at hP
              exact hP
            · rename_i hnp
              rw [← hsame (fun _ _ => .inr (.inr hnp))]; exact hP
      · rename_i ht
        rw [← hsame (fun _ h => absurd h ht)]; exact hP

/-- The server for a plain export that may use pipes meets its specification. -/
theorem spliceServer_meets (e : Endian) (cl : Client) (hcl : Spliced cl) (lg : Bool) :
    (spliceServer e cl lg).Meets (view cl.ex) Job.Fits
      (fun j => Complete cl.ex.exportsize (badWrite cl) [cl.structured, false] (cmdOf j.req j.payload))
      (fun j => Partial cl.ex.exportsize (badWrite cl) [cl.structured, false] (cmdOf j.req j.payload)) := by
  refine ⟨?_, fun en j hj => requestS_good e cl hcl lg en j hj, ?_, fun _ _ h => Partial.of h⟩
  · intro n r p st st' stream rest h
    exact (fetch_safe e cl st stream).2.2 _ _ _ _ h
  · intro st st' stream x h
    have := fetch_files e cl _ _ _ _ h
    unfold view content
    rw [this]

/-! ### Alone -/

theorem peekP_run (ex : Export) (k : List Byte → Prog World) (ms : List Msg) (w : World)
    (pipe : List Nat) : ∀ (acc : List Byte),
      (peekP ex k pipe acc).run ms w = (k (acc ++ pipe.map (view ex w))).run ms w := by
  induction pipe with
  | nil => intro acc; simp [peekP]
  | cons a pipe ih =>
    intro acc
    unfold peekP
    rw [Prog.run]
    dsimp only
    rw [ih, List.append_assoc]
    rfl

theorem Flat.read_plus (f : Flat) (a m n : Nat) :
    f.read a (m + n) = f.read a m ++ f.read (a + m) n := by
  simp [Flat.read, List.range_add, Function.comp_def, Nat.add_assoc]

theorem Flat.read_places (f : Flat) (a n : Nat) : (List.range' a n).map f = f.read a n := by
  rw [List.range'_eq_map_range, List.map_map]
  rfl

/-- Alone, what the pipe delivers is what `expspliceIn` put into it. -/
theorem spliceInP_run (ex : Export) (hg : GoodExport ex) (k : Bool → List Nat → Nat → Prog World)
    (ms : List Msg) (n : Nat) : ∀ (a : Nat) (w : World) (pipe : List Byte) (places : List Nat),
    a + n ≤ ex.exportsize →
    (∀ w' pipe' ok, expspliceIn ex w a n pipe = .val (w', pipe', ok) → SameContent w w' ∧
      (ok = true → pipe' = pipe ++ (view ex w).read a n)) ∧
    ∃ places', (spliceInP ex k a n places w.errno).run ms w =
      match expspliceIn ex w a n pipe with
      | .ub => .ub
      | .exit => .exit
      | .val (w', _, true) => (k true (places ++ List.range' a n) w'.errno).run ms w'
      | .val (w', _, false) => (k false places' w'.errno).run ms w' := by
  induction n using Nat.strongRecOn with
  | _ n ih =>
    intro a w pipe places hr
    unfold spliceInP expspliceIn
    by_cases h0 : n = 0
    · subst h0
      rw [if_pos rfl, if_pos rfl]
      refine ⟨?_, [], by simp⟩
      intro w' pipe' ok h
      cases h
      exact ⟨.refl _, fun _ => by simp [Flat.read]⟩
    · rw [if_neg h0, if_neg h0, call_run]
      unfold spliceOnce
      have hspec := (rawexpread_spec ex hg w a n hr (by omega)).2
      cases hq : rawexpread ex w a n with
      | ub => exact ⟨(by intro _ _ _ h; cases h), [], rfl⟩
      | exit => exact ⟨(by intro _ _ _ h; cases h), [], rfl⟩
      | val x =>
        obtain ⟨w1, x⟩ := x
        obtain ⟨hs, hb⟩ := hspec _ _ hq
        match x, hb with
        | none, _ => exact ⟨(by intro _ _ _ h; cases h; exact ⟨hs, by simp⟩), places, rfl⟩
        | some [], _ => exact ⟨(by intro _ _ _ h; cases h; exact ⟨hs, by simp⟩), places, rfl⟩
        | some (b :: bs), hb =>
          obtain ⟨h1, h2⟩ := hb _ rfl
          simp only [List.length_cons] at h1
          obtain ⟨g1, places', g2⟩ := ih (n - (bs.length + 1)) (by omega) (a + (bs.length + 1)) w1
            (pipe ++ b :: bs) (places ++ List.range' a (bs.length + 1)) (by omega)
          have hn : n = (bs.length + 1) + (n - (bs.length + 1)) := by omega
          refine ⟨?_, places', ?_⟩
          · intro w' pipe' ok h
            obtain ⟨g3, g4⟩ := g1 w' pipe' ok h
            refine ⟨hs.trans g3, ?_⟩
            intro hok
            rw [g4 hok, hs.view ex, List.append_assoc]
            congr 1
            conv => rhs; rw [hn]
            rw [Flat.read_plus]
            simp only [List.length_cons] at h2
            rw [← h2]
          · rw [List.append_assoc, List.range'_append_1, ← hn] at g2
            exact g2

theorem expspliceOut_eq (ex : Export) (fua : Bool) (n : Nat) :
    ∀ (w : World) (a : Nat) (pipe : List Byte), pipe.length = n →
      expspliceOut ex w a n pipe fua = rawexpwriteFully ex w a pipe fua := by
  induction n using Nat.strongRecOn with
  | _ n ih =>
    intro w a pipe hn
    unfold expspliceOut rawexpwriteFully
    rw [hn, List.take_of_length_le (Nat.le_of_eq hn)]
    split
    · rfl
    · rename_i h0
      cases rawexpwrite ex w a pipe fua with
      | ub => rfl
      | exit => rfl
      | val x =>
        obtain ⟨w1, x⟩ := x
        match x with
        | none => rfl
        | some 0 => rfl
        | some (m + 1) => exact ih (n - (m + 1)) (by omega) _ _ _ (by rw [List.length_drop, hn])

/-- Alone, the program of a request is `handleRequest`. -/
theorem requestS_run (e : Endian) (cl : Client) (hcl : Spliced cl) (lg : Bool) (w : World)
    (r : Req) (p : Payload) (hlen : r.len < 2 ^ 32) (hp : p.fits r) :
    (requestS e cl lg w.errno r p).run [] w =
      match handleRequest e cl w r p with
      | .ub => .ub
      | .exit => .exit
      | .val (_, w', msgs) => .val (w', msgs, w'.errno) := by
  have hg := hcl.plain.good
  have hpg := hcl.plain.paged
  unfold requestS
  dsimp only
  by_cases hf : (r.type - r.type % 65536) / 65536 / 4 = 0
  · rw [if_neg (by omega)]
    by_cases ht : r.type % 65536 = CMD_READ
    · rw [if_pos ht]
      by_cases hb : badRange cl r = true
      · rw [if_pos hb]
        exact requestP_alone e cl hcl.plain hcl.tree hcl.wait lg w r p
          (fun _ _ h => by rw [hb] at h; cases h)
          (fun _ h => by rw [ht] at h; cases h)
      · rw [if_neg hb]
        have hb' : badRange cl r = false := by simpa using hb
        have hin := inRange hg hlen hb'
        have hreq : handleRequest e cl w r p =
            match handleRead e cl w r with
            | .ub => .ub
            | .exit => .exit
            | .val (w, msgs) => .val (cl, w, msgs) := by
          unfold handleRequest
          dsimp only
          rw [if_neg (by omega), if_pos ht, if_neg hb]
          cases handleRead e cl w r <;> rfl
        rw [hreq]
        unfold handleRead
        by_cases hs : has cl.ex.flags F_SPLICE = true
        · rw [if_pos hs, if_pos hs]
          unfold spliceReadP handleSpliceRead
          by_cases htls : cl.tls = true
          · rw [if_pos htls, if_pos htls]
            dsimp only
            rw [readP_run e cl hpg]
            cases handleNormalRead e cl w r <;> rfl
          · rw [if_neg htls, if_neg htls, call_run]
            dsimp only
            generalize hmk : mkpipe w r.len = mk
            obtain ⟨w1, piped⟩ := mk
            cases piped with
            | false =>
              dsimp only
              rw [if_neg (by simp), readP_run e cl hpg]
              cases handleNormalRead e cl w1 r <;> rfl
            | true =>
              dsimp only
              rw [if_pos rfl]
              obtain ⟨g1, places', g2⟩ := spliceInP_run cl.ex hg (fun ok pipe en =>
                if ok then
                  peekP cl.ex (fun bs => sendReplyP lg ⟨simpleHdr e 0 r.cookie, bs⟩ (.done en))
                    pipe []
                else readP e cl lg r en) [] r.len r.start w1 [] [] hin
              rw [g2]
              cases hx : expspliceIn cl.ex w1 r.start r.len [] with
              | ub => rfl
              | exit => rfl
              | val x =>
                obtain ⟨w2, pipe, ok⟩ := x
                obtain ⟨g3, g4⟩ := g1 _ _ _ hx
                cases ok with
                | false =>
                  dsimp only
                  rw [if_neg (by simp), readP_run e cl hpg]
                  cases handleNormalRead e cl w2 r <;> rfl
                | true =>
                  dsimp only
                  rw [if_pos rfl, peekP_run, sendReplyP_run, g4 rfl, g3.view cl.ex]
                  simp only [List.nil_append, Flat.read_places]
        · rw [if_neg hs, if_neg hs, readP_run e cl hpg]
          cases handleNormalRead e cl w r <;> rfl
    · rw [if_neg ht]
      have hother : (r.type % 65536 = CMD_WRITE → badWrite cl = false → badRange cl r = false →
          ∃ bs, p = .data bs) → (requestP e cl lg w.errno r p).run [] w =
            match handleRequest e cl w r p with
            | .ub => .ub
            | .exit => .exit
            | .val (_, w', msgs) => .val (w', msgs, w'.errno) := fun h =>
        requestP_alone e cl hcl.plain hcl.tree hcl.wait lg w r p (fun _ h => absurd h ht)
          (fun _ => h)
      by_cases hw : r.type % 65536 = CMD_WRITE
      · rw [if_pos hw]
        by_cases hbw : badWrite cl = true
        · rw [if_pos hbw]
          exact hother (fun _ h => by rw [hbw] at h; cases h)
        · rw [if_neg hbw]
          by_cases hbr : badRange cl r = true
          · rw [if_pos hbr]
            exact hother (fun _ _ h => by rw [hbr] at h; cases h)
          · rw [if_neg hbr]
            cases p with
            | nothing => exact absurd hw hp
            | data bs => exact hother (fun _ _ _ => ⟨bs, rfl⟩)
            | pipe bs =>
              change bs.length = r.len at hp
              dsimp only
              rw [← hp, spliceOutP_eq _ _ _ _ _ _ _ rfl, writeFullyP_run _ _ _ _ _ _ _ _ rfl]
              unfold handleRequest
              dsimp only
              rw [if_neg (by omega), if_neg ht, if_pos hw, if_neg hbw, if_neg hbr]
              unfold handleWrite
              dsimp only
              rw [← hp, expspliceOut_eq _ _ _ _ _ _ rfl]
              cases rawexpwriteFully cl.ex w r.start bs (has r.type CMD_FLAG_FUA) with
              | ub => rfl
              | exit => rfl
              | val x => exact sendReplyP_run _ _ _ _ _
      · rw [if_neg hw]
        exact hother (fun h => absurd h hw)
  · rw [if_pos hf]
    exact requestP_alone e cl hcl.plain hcl.tree hcl.wait lg w r p (fun h => absurd h hf)
      (fun h => absurd h hf)

end Nbd
