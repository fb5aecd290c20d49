import Verif.CliSafe
/-!
# Properties of the client's negotiation

C27, C44, C51, C56. `cliRun e c errm errh B Bt` is nbd-client negotiating with a server that says `B` (and `Bt` inside
TLS); `session` is the server (`Verif.Props.Nego`).
-/

set_option autoImplicit false

namespace Nbd.Spec

/-- nbd-client and this server have talked to each other until nothing more was said: `A` and `B` are all the client
and the server said in the clear, `At` and `Bt` inside TLS; each is what that program says when it is told what the
other said. `ec`, `es` are the byte orders of the two machines. -/
structure Talk (ec es : Endian) (env : NEnv) (cf : NConf) (n : Nat) (svs : List SrvExport) (nz : Bool) (c : CliConf)
    (errm errh : List Byte) (A At B Bt : List Byte) : Prop where
  client : (cliRun ec c errm errh B Bt).2.plainOut = A
  clientTls : (cliRun ec c errm errh B Bt).2.tlsOut = At
  server : (session es env cf n svs nz A (some At)).2.plainOut = B
  serverTls : (session es env cf n svs nz A (some At)).2.tlsOut = Bt
  over : (session es env cf n svs nz A (some At)).1 ≠ .running

/-- The client is ready to use an export of `size` bytes with flags `fl`, the server is serving `sv` (as `ex`), and
each side takes exactly the bytes that follow (`X` from the server, `Y` from the client) for the transmission phase. -/
structure Agreed (ec es : Endian) (env : NEnv) (cf : NConf) (n : Nat) (svs : List SrvExport) (nz : Bool) (c : CliConf)
    (errm errh : List Byte) (A At B Bt : List Byte) (sv : SrvExport) (ex : Export) (fl : Nat) : Prop where
  mirrors : Mirrors ex.flags false fl
  client : ∀ X, ∃ s, cliRun ec c errm errh (if c.tls then B else B ++ X) (if c.tls then Bt ++ X else Bt)
    = (.ready ex.exportsize fl, s) ∧ s.inp = X
  server : ∀ Y, ∃ s, session es env cf n svs nz (if c.tls then A else A ++ Y) (some (if c.tls then At ++ Y else At))
    = (.serving, s) ∧ s.inp = Y ∧ s.tls = c.tls ∧ s.structured = false ∧
      s.exportsize = ex.exportsize ∧ s.server = some { sv with flags := ex.flags } ∧ s.ex = some ex

/-- `text` is `pre`, an escape standing for `t`, and `post`: the first "%m" (the text of `errno`), or, if there is none,
the first "%h" (that of `h_errno`). -/
inductive Escape (text errm errh pre t post : List Byte) : Prop
  | m : text = pre ++ [37, 109] ++ post → ¬ [37, 109] <:+: pre ++ [37] → t = errm → Escape text errm errh pre t post
  | h : ¬ [37, 109] <:+: text → text = pre ++ [37, 104] ++ post → ¬ [37, 104] <:+: pre ++ [37] → t = errh →
    Escape text errm errh pre t post

end Nbd.Spec

namespace Nbd.Props

open Nbd Nbd.Spec

/-! ### C27 -/

/-- The client on exactly the answer the server gives. -/
theorem cliAsk_answer (e : Endian) (c : CliConf) (hc : c.list = false) (hn : c.name.length < 2 ^ 31)
    (errm errh : List Byte) (s : CState) (size fl : Nat) (hs : size < 2 ^ 64) (hf : fl < 2 ^ 16) (X : List Byte)
    (h : s.inp = (if c.noOptgo then toBE 8 size ++ toBE 2 fl else infoAnswer 7 size fl []) ++ X) :
    cliAsk e c errm errh true s = .stop (.ready size fl) (((s.said (cliQuestion c)).heard X).sized size fl) := by
  rw [cliAsk_eq e c hn]
  unfold cliQuestion
  rw [hc]
  simp only [Bool.false_eq_true, if_false]
  split at h
  · rename_i hg
    rw [if_pos hg, if_pos hg, csendExportName_ok e c (by omega) size fl hs hf h]
  · rename_i hg
    rw [if_neg hg, if_neg hg]
    have hl : s.inp.length + 1 = (s.inp.length - 1) + 2 := by
      rw [h]
      unfold infoAnswer infoReplies optReply
      simp only [List.length_append, toBE_length]
      omega
    rw [hl, goLoop_ok (s := s.said _) (rest := X) e c true errm errh 7 size fl _ hs hf]
    rw [CState.said_inp, h]
    unfold infoAnswer infoReplies
    rfl

/-- The server's answer to the client's question. -/
theorem server_answer (e : Endian) (env : NEnv) (cf : NConf) (c : CliConf) (hc : c.list = false)
    (s : NState) (Y : List Byte) (hf : s.tls = true ∨ cf.forcedTls = false) (hn : c.name.length ≤ 4096)
    (h0 : (0 : Byte) ∉ c.name) (hm : env.malloc (c.name.length + 1) = true) (sv : SrvExport) (ex : Export)
    (hz : s.noZeroes = true) (hnm : Named s.tls s.servers c.name sv) (hin : LetsIn env cf sv s.commits ex)
    (h : s.inp = cliQuestion c ++ Y) :
    oneOption e env cf s = .stop .serving (((s.heard Y).took sv ex).said
      (if c.noOptgo then toBE 8 ex.exportsize ++ toBE 2 (exportFlags ex.flags s.structured)
        else infoAnswer 7 ex.exportsize (exportFlags ex.flags s.structured) [])) := by
  unfold cliQuestion at h
  rw [hc] at h
  simp only [Bool.false_eq_true, if_false] at h
  cases hg : c.noOptgo with
  | true =>
    rw [hg] at h
    rw [exportName_exact e env cf hf hn h0 (by simpa using h) sv ex (find_named hnm) hin, hz]
    simp
  | false =>
    rw [hg] at h
    rw [go_exact (requests := []) e env cf hf hn h0 hm (by decide) (by simp) (by simpa using h) sv ex (last_named hnm) hin]
    simp

/-- **C27.** nbd-client, by either negotiation method, with or without TLS, asking for the export of some name that it
may see and is let in to, ends up with exactly the size and the transmission flags of that export, and client and
server enter transmission at the same place of both streams. For all names the server accepts, all configurations,
all sizes and flags, whatever earlier clients of the server did (`nz`), and machines of any byte order. -/
theorem C27_agree (ec es : Endian) (env : NEnv) (cf : NConf) (n : Nat) (svs : List SrvExport) (nz : Bool) (c : CliConf)
    (errm errh A At B Bt : List Byte) (hT : Talk ec es env cf n svs nz c errm errh A At B Bt)
    (hc : c.list = false) (hn : c.name.length ≤ 4096) (h0 : (0 : Byte) ∉ c.name)
    (hm : env.malloc (c.name.length + 1) = true) (hf : c.tls = true ∨ cf.forcedTls = false)
    (hk : c.tls = true → cf.keyfile = true) (sv : SrvExport) (ex : Export) (hs : ex.exportsize < 2 ^ 64)
    (hnm : Named c.tls svs c.name sv) (hin : LetsIn env cf sv 0 ex) :
    ∃ fl, Agreed ec es env cf n svs nz c errm errh A At B Bt sv ex fl := by
  have hn31 : c.name.length < 2 ^ 31 := by omega
  have hfl := exportFlags_lt ex.flags false
  obtain ⟨B1, hB⟩ : greeting <+: B := by rw [← hT.server]; exact session_greets ..
  refine ⟨exportFlags ex.flags false, ?_⟩
  generalize hans : (if c.noOptgo then toBE 8 ex.exportsize ++ toBE 2 (exportFlags ex.flags false)
        else infoAnswer 7 ex.exportsize (exportFlags ex.flags false) []) = ans
  cases ht : c.tls with
  | false =>
    -- the client asks in the clear
    obtain ⟨A1, hA⟩ : toBE 4 3 ++ cliQuestion c <+: A := by
      rw [← hT.client, ← hB, cliRun_plain ec c errm errh B1 Bt ht, CRes.fin_state]
      exact (cliAsk_begin ec c hn31 errm errh (cstart B1 Bt)).plain
    rw [List.append_assoc] at hA
    cases n with
    | zero =>
      have := hT.over
      rw [← hA, session_begin] at this
      exact absurd rfl this
    | succ n =>
      have hsrv : ∀ Y, session es env cf (n + 1) svs nz (toBE 4 3 ++ (cliQuestion c ++ Y)) (some At) =
          (.serving, ((sstart svs Y (some At)).took sv ex).said ans) := by
        intro Y
        rw [session_begin, loop_stop (server_answer (s := sstart svs (cliQuestion c ++ Y) (some At)) es env cf c hc
          Y (.inr (hf.resolve_left (by rw [ht]; decide))) hn h0 hm sv ex rfl (by rw [ht] at hnm; exact hnm) hin rfl)]
        rw [show (sstart svs (cliQuestion c ++ Y) (some At)).structured = false from rfl, hans]
        rfl
      have hBv : B = greeting ++ ans := by
        rw [← hT.server, ← hA, hsrv]; rfl
      have hcli : ∀ X, cliRun ec c errm errh (B ++ X) Bt = (.ready ex.exportsize (exportFlags ex.flags false),
          (((cstart (ans ++ X) Bt).said (cliQuestion c)).heard X).sized ex.exportsize (exportFlags ex.flags false)) := by
        intro X
        rw [hBv, List.append_assoc, cliRun_plain ec c errm errh _ Bt ht,
          cliAsk_answer ec c hc hn31 errm errh _ ex.exportsize (exportFlags ex.flags false) hs (by omega) X (by rw [hans]; rfl)]
        rfl
      have hAv : A = toBE 4 3 ++ cliQuestion c := by
        have := hcli []
        rw [List.append_nil] at this
        rw [← hT.client, this]
        rfl
      refine ⟨exportFlags_mirrors _ _, fun X => ?_, fun Y => ?_⟩
      · simp only [ht, Bool.false_eq_true, if_false]
        exact ⟨_, hcli X, rfl⟩
      · simp only [ht, Bool.false_eq_true, if_false]
        rw [hAv, List.append_assoc]
        exact ⟨_, hsrv Y, rfl, rfl, rfl, rfl, rfl, rfl⟩
  | true =>
    obtain ⟨A1, hA⟩ : toBE 4 3 ++ optRequest 5 [] <+: A := by
      rw [← hT.client, ← hB]; exact cliRun_tls_grew ec c errm errh B1 Bt ht
    rw [List.append_assoc] at hA
    cases n with
    | zero =>
      have := hT.over
      rw [← hA, session_begin] at this
      exact absurd rfl this
    | succ n =>
      have htls : ∀ i, session es env cf (n + 1) svs nz (toBE 4 3 ++ (optRequest 5 [] ++ A1)) (some i) =
          (optionLoop es env cf n (ssecure svs i)).fin := by
        intro i
        rw [session_begin, loop_ok (starttls_exact (s := sstart svs (optRequest 5 [] ++ A1) (some i)) es env cf (hk ht) rfl rfl rfl)]
        rfl
      obtain ⟨B2, hB2⟩ : greeting ++ optReply 5 1 [] <+: B := by
        rw [← hT.server, ← hA, htls, NRes.fin_state]
        exact (optionLoop_grew es env cf n (ssecure svs At)).plain
      have hcs : ∀ bt, cliRun ec c errm errh B bt = (cliAsk ec c errm errh true (csecure bt)).fin := by
        intro bt; rw [← hB2]; exact cliRun_secure ec c errm errh B2 bt ht
      obtain ⟨At1, hAt⟩ : cliQuestion c <+: At := by
        rw [← hT.clientTls, hcs, CRes.fin_state]
        exact (cliAsk_begin ec c hn31 errm errh (csecure Bt)).tls
      cases n with
      | zero =>
        have := hT.over
        rw [← hA, htls] at this
        exact absurd rfl this
      | succ n =>
        have hsrv : ∀ Y, session es env cf (n + 2) svs nz A (some (cliQuestion c ++ Y)) =
            (.serving, ((ssecure svs Y).took sv ex).said ans) := by
          intro Y
          rw [← hA, htls, loop_stop (server_answer es env cf c hc (ssecure svs (cliQuestion c ++ Y)) Y (.inl rfl) hn h0 hm sv ex rfl
            (by rw [ht] at hnm; exact hnm) hin rfl)]
          rw [show (ssecure svs (cliQuestion c ++ Y)).structured = false from rfl, hans]
          rfl
        have hBt : Bt = ans := by
          rw [← hT.serverTls, ← hAt, hsrv]; rfl
        have hcli : ∀ X, cliRun ec c errm errh B (Bt ++ X) = (.ready ex.exportsize (exportFlags ex.flags false),
            (((csecure (ans ++ X)).said (cliQuestion c)).heard X).sized ex.exportsize (exportFlags ex.flags false)) := by
          intro X
          rw [hcs, hBt, cliAsk_answer ec c hc hn31 errm errh _ ex.exportsize (exportFlags ex.flags false) hs (by omega) X (by rw [hans]; rfl)]
          rfl
        have hAv : At = cliQuestion c := by
          have := hcli []
          rw [List.append_nil] at this
          rw [← hT.clientTls, this]
          rfl
        refine ⟨exportFlags_mirrors _ _, fun X => ?_, fun Y => ?_⟩
        · simp only [ht, if_true]
          exact ⟨_, hcli X, rfl⟩
        · simp only [ht, if_true]
          rw [hAv]
          exact ⟨_, hsrv Y, rfl, rfl, rfl, rfl, rfl, rfl⟩

/-- The server when it is asked `x`; the client when it has asked and is answered `z`. -/
def askedServer (tls : Bool) (svs : List SrvExport) (At x : List Byte) : NState :=
  if tls then ssecure svs x else sstart svs x (some At)

def askingClient (tls : Bool) (Bt z : List Byte) : CState := if tls then csecure z else cstart z Bt

/-- Both sides get as far as the client's question. -/
theorem talk_asks {ec es : Endian} {env : NEnv} {cf : NConf} {n : Nat} {svs : List SrvExport} {nz : Bool} {c : CliConf}
    {errm errh A At B Bt : List Byte} (hT : Talk ec es env cf n svs nz c errm errh A At B Bt)
    (hn : c.name.length ≤ 4096) (hk : c.tls = true → cf.keyfile = true) :
    ∃ m Y Z, session es env cf n svs nz A (some At)
        = (optionLoop es env cf (m + 1) (askedServer c.tls svs At (cliQuestion c ++ Y))).fin ∧
      cliRun ec c errm errh B Bt = (cliAsk ec c errm errh true (askingClient c.tls Bt Z)).fin ∧
      (if c.tls then (session es env cf n svs nz A (some At)).2.tlsOut = Z
        else (session es env cf n svs nz A (some At)).2.plainOut = greeting ++ Z) ∧
      (if c.tls then (cliRun ec c errm errh B Bt).2.tlsOut = cliQuestion c ++ Y
        else (cliRun ec c errm errh B Bt).2.plainOut = toBE 4 3 ++ (cliQuestion c ++ Y)) := by
  have hn31 : c.name.length < 2 ^ 31 := by omega
  obtain ⟨B1, hB⟩ : greeting <+: B := by rw [← hT.server]; exact session_greets ..
  have hover := hT.over
  cases ht : c.tls with
  | false =>
    have hcl := cliRun_plain ec c errm errh B1 Bt ht
    rw [hB] at hcl
    obtain ⟨A1, hA⟩ : toBE 4 3 ++ cliQuestion c <+: A := by
      rw [← hT.client, hcl, CRes.fin_state]
      exact (cliAsk_begin ec c hn31 errm errh (cstart B1 Bt)).plain
    rw [List.append_assoc] at hA
    have hse := session_begin es env cf n svs nz (cliQuestion c ++ A1) (some At)
    rw [hA] at hse
    cases n with
    | zero => rw [hse] at hover; exact absurd rfl hover
    | succ n => exact ⟨n, A1, B1, hse, hcl, by simp only [Bool.false_eq_true, if_false]; rw [hT.server, hB],
        by simp only [Bool.false_eq_true, if_false]; rw [hT.client, hA]⟩
  | true =>
    obtain ⟨A1, hA⟩ : toBE 4 3 ++ optRequest 5 [] <+: A := by
      rw [← hT.client, ← hB]; exact cliRun_tls_grew ec c errm errh B1 Bt ht
    rw [List.append_assoc] at hA
    cases n with
    | zero => rw [← hA, session_begin] at hover; exact absurd rfl hover
    | succ n =>
      have hse : session es env cf (n + 1) svs nz A (some At) = (optionLoop es env cf n (ssecure svs At)).fin := by
        rw [← hA, session_begin, loop_ok (starttls_exact (s := sstart svs (optRequest 5 [] ++ A1) (some At)) es env cf (hk ht) rfl rfl rfl)]
        rfl
      obtain ⟨B2, hB2⟩ : greeting ++ optReply 5 1 [] <+: B := by
        rw [← hT.server, hse, NRes.fin_state]
        exact (optionLoop_grew es env cf n (ssecure svs At)).plain
      have hcl := cliRun_secure ec c errm errh B2 Bt ht
      rw [hB2] at hcl
      obtain ⟨At1, hAt⟩ : cliQuestion c <+: At := by
        rw [← hT.clientTls, hcl, CRes.fin_state]
        exact (cliAsk_begin ec c hn31 errm errh (csecure Bt)).tls
      cases n with
      | zero => rw [hse] at hover; exact absurd rfl hover
      | succ n => exact ⟨n, At1, Bt, by rw [hse, hAt]; rfl, hcl, by simp only [if_true]; exact hT.serverTls,
          by simp only [if_true]; rw [hT.clientTls, hAt]⟩

/-- GO answered with an error the client can print: it fails. -/
theorem cliAsk_error (e : Endian) (c : CliConf) (hc : c.list = false) (hg : c.noOptgo = false) (hn : c.name.length ≤ 4096)
    (errm errh : List Byte) (s : CState) (type : Nat) (text X : List Byte) (ht : type < 2 ^ 32)
    (herr : has type 0x80000000 = true) (hu : type ≠ 0x80000001) (hl : text.length < 4096) (what : List Byte)
    (hwhat : what = if type = 0x80000002 then msgPolicy else msgUnknown)
    (hok : errNonfatal ((what ++ cstr (text.take (text.length - 1))).take 1023) errm errh ≠ .ub)
    (h : s.inp = optReply 7 type text ++ X) :
    cliAsk e c errm errh true s = .stop .failed ((s.said (cliQuestion c)).heard X) := by
  rw [cliAsk_eq e c (by omega)]
  unfold cliQuestion
  rw [hc, hg]
  simp only [Bool.false_eq_true, if_false]
  rw [goLoop_stop e c true errm errh _ (goStep_error (s := s.said _) (rest := X) e c true errm errh 7 type ht herr hu hl
    what hwhat hok (by rw [CState.said_inp, h]))]

/-- GO answered with an error: the client fails, says nothing more, and the server is left waiting. -/
theorem talk_error {ec es : Endian} {env : NEnv} {cf : NConf} {n : Nat} {svs : List SrvExport} {nz : Bool} {c : CliConf}
    {errm errh A At B Bt : List Byte} (hT : Talk ec es env cf n svs nz c errm errh A At B Bt)
    (hc : c.list = false) (hg : c.noOptgo = false)
    (hn : c.name.length ≤ 4096) (hk : c.tls = true → cf.keyfile = true) (type : Nat) (text : List Byte) (ht : type < 2 ^ 32)
    (herr : has type 0x80000000 = true) (hu : type ≠ 0x80000001) (hl : text.length < 4096) (what : List Byte)
    (hwhat : what = if type = 0x80000002 then msgPolicy else msgUnknown)
    (hok : errNonfatal ((what ++ cstr (text.take (text.length - 1))).take 1023) errm errh ≠ .ub)
    (hans : ∀ Y, ∃ s', oneOption es env cf (askedServer c.tls svs At (cliQuestion c ++ Y)) = .ok () s' ∧ s'.inp = Y ∧
      (if c.tls then s'.tlsOut = optReply 7 type text else s'.plainOut = greeting ++ optReply 7 type text)) :
    (cliRun ec c errm errh B Bt).1 = .failed ∧ (session es env cf n svs nz A (some At)).1 = .exited := by
  obtain ⟨m, Y, Z, hs, hcl, hso, hco⟩ := talk_asks hT hn hk
  obtain ⟨s', ho, hi, hout⟩ := hans Y
  have hs2 : session es env cf n svs nz A (some At) = (optionLoop es env cf m s').fin := by rw [hs, loop_ok ho]
  have hgr := optionLoop_grew es env cf m s'
  obtain ⟨Z', hZ⟩ : optReply 7 type text <+: Z := by
    rw [hs2, NRes.fin_state] at hso
    cases htl : c.tls with
    | true =>
      rw [htl] at hso hout
      simp only [if_true] at hso hout
      rw [← hso, ← hout]; exact hgr.tls
    | false =>
      rw [htl] at hso hout
      simp only [Bool.false_eq_true, if_false] at hso hout
      have := hgr.plain
      rw [hout, hso, List.prefix_append_right_inj] at this
      exact this
  have hcl2 := cliAsk_error ec c hc hg hn errm errh (askingClient c.tls Bt Z) type text Z' ht herr hu hl what hwhat hok
    (by rw [hZ]; unfold askingClient; split <;> rfl)
  rw [hcl2] at hcl
  refine ⟨by rw [hcl]; rfl, ?_⟩
  have hY : Y = [] := by
    rw [hcl] at hco
    cases htl : c.tls with
    | true =>
      rw [htl] at hco
      have h2 : cliQuestion c = cliQuestion c ++ Y := hco
      have := congrArg List.length h2
      rw [List.length_append] at this
      exact List.length_eq_zero_iff.mp (by omega)
    | false =>
      rw [htl] at hco
      have h2 : toBE 4 3 ++ cliQuestion c = toBE 4 3 ++ (cliQuestion c ++ Y) := hco
      have := congrArg List.length h2
      simp only [List.length_append] at this
      exact List.length_eq_zero_iff.mp (by omega)
  subst hY
  cases m with
  | zero => exact absurd (by rw [hs2]; rfl) hT.over
  | succ m =>
    rw [hs2, loop_stop (r := .exited) (s' := s')]
    · rfl
    · unfold oneOption
      rw [NM.bind_stop (r := .exited) (s' := s')]
      unfold recv
      rw [if_pos (by rw [hi]; decide)]

theorem errPlain_ne (text errm errh : List Byte) (h : (0 : Byte) ∉ text ∧ strstr2 109 text = none ∧ strstr2 104 text = none) :
    errNonfatal text errm errh ≠ .ub := by
  rw [errNonfatal_plain text errm errh h.1 h.2.1 h.2.2]; simp

/-- **C27, no such export** (GO, the method nbd-client uses unless told otherwise). If there is no export of that name
that the client may see, nbd-client fails and the server does not start serving. -/
theorem C27_unknown_partial (ec es : Endian) (env : NEnv) (cf : NConf) (n : Nat) (svs : List SrvExport) (nz : Bool) (c : CliConf)
    (errm errh A At B Bt : List Byte) (hT : Talk ec es env cf n svs nz c errm errh A At B Bt)
    (hc : c.list = false) (hg : c.noOptgo = false) (hn : c.name.length ≤ 4096) (h0 : (0 : Byte) ∉ c.name)
    (hm : env.malloc (c.name.length + 1) = true) (hf : c.tls = true ∨ cf.forcedTls = false)
    (hk : c.tls = true → cf.keyfile = true)
    (hno : ∀ sv ∈ svs, sv.name = c.name → c.tls = false ∧ TlsOnly sv) :
    (cliRun ec c errm errh B Bt).1 = .failed ∧ (session es env cf n svs nz A (some At)).1 = .exited := by
  have hvis : lastVisible c.tls c.name svs = none := by
    unfold lastVisible
    rw [List.find?_eq_none]
    intro sv hsv hb
    simp only [Bool.and_eq_true, beq_iff_eq] at hb
    obtain ⟨h1, h2⟩ := hno sv (by simpa using hsv) hb.2
    rcases (visible_iff _ _).mp hb.1 with h3 | h3
    · rw [h1] at h3; cases h3
    · exact h3 h2
  have hq : cliQuestion c = optRequest 7 (infoData c.name []) := by
    unfold cliQuestion; rw [hc, hg]; rfl
  have hans : ∀ Y, oneOption es env cf (askedServer c.tls svs At (cliQuestion c ++ Y)) =
      .ok () ((askedServer c.tls svs At Y).said (
        if svs.any (fun sv => !visible c.tls sv && sv.name == c.name) then
          optReply 7 0x80000005 (ascii "TLS is required for that export")
        else optReply 7 0x80000006 (ascii "Export unknown"))) := by
    intro Y
    cases htl : c.tls with
    | true =>
      rw [htl] at hvis
      rw [hq, info_unknown_text (s := askedServer true svs At _) (rest := Y) (requests := []) es env cf 7 (.inr rfl) (.inl rfl) hn h0 hm (by decide) rfl hvis]
      rfl
    | false =>
      rw [htl] at hvis
      rw [hq, info_unknown_text (s := askedServer false svs At _) (rest := Y) (requests := []) es env cf 7 (.inr rfl)
        (.inr (hf.resolve_left (by rw [htl]; decide))) hn h0 hm (by decide) rfl hvis]
      rfl
  have hsaid : ∀ (Y r : List Byte), ((askedServer c.tls svs At Y).said r).inp = Y ∧
      (if c.tls then ((askedServer c.tls svs At Y).said r).tlsOut = r
        else ((askedServer c.tls svs At Y).said r).plainOut = greeting ++ r) := by
    intro Y r
    cases c.tls <;> exact ⟨rfl, rfl⟩
  by_cases hany : svs.any (fun sv => !visible c.tls sv && sv.name == c.name) = true
  · refine talk_error hT hc hg hn hk 0x80000005 (ascii "TLS is required for that export") (by decide) (by decide) (by decide)
      (by decide) msgUnknown (by decide) (errPlain_ne _ _ _ (by decide +kernel)) fun Y => ⟨_, hans Y, ?_⟩
    rw [if_pos hany]
    exact hsaid _ _
  · refine talk_error hT hc hg hn hk 0x80000006 (ascii "Export unknown") (by decide) (by decide) (by decide)
      (by decide) msgUnknown (by decide) (errPlain_ne _ _ _ (by decide +kernel)) fun Y => ⟨_, hans Y, ?_⟩
    rw [if_neg hany]
    exact hsaid _ _

/-- **C27, no TLS where it is required.** nbd-client without TLS fails at a server that requires TLS. -/
theorem C27_tls_required_partial (ec es : Endian) (env : NEnv) (cf : NConf) (n : Nat) (svs : List SrvExport) (nz : Bool) (c : CliConf)
    (errm errh A At B Bt : List Byte) (hT : Talk ec es env cf n svs nz c errm errh A At B Bt)
    (hc : c.list = false) (hg : c.noOptgo = false) (hn : c.name.length ≤ 4096) (hf : c.tls = false) (hf2 : cf.forcedTls = true) :
    (cliRun ec c errm errh B Bt).1 = .failed ∧ (session es env cf n svs nz A (some At)).1 = .exited := by
  have hq : cliQuestion c = optRequest 7 (infoData c.name []) := by
    unfold cliQuestion; rw [hc, hg]; rfl
  refine talk_error hT hc hg hn (by rw [hf]; simp) 0x80000005 (ascii "TLS is required on this server") (by decide) (by decide) (by decide)
      (by decide) msgUnknown (by decide) (errPlain_ne _ _ _ (by decide +kernel)) fun Y => ?_
  rw [hf, hq]
  exact ⟨_, forced_exact (s := askedServer false svs At _) (rest := Y) es env cf 7 (by decide) (by decide)
    (by unfold infoData; simp; omega) rfl hf2 rfl, rfl, rfl⟩

namespace CDemo

/-- Asking for `a`, for `x` (which does not exist) and for `a` with TLS. -/
def a : CliConf := ⟨[97], false, false, false⟩
def x : CliConf := ⟨[120], false, false, false⟩
def ta : CliConf := ⟨[97], true, true, false⟩

/-- What these clients and the server say. -/
def A : List Byte := toBE 4 3 ++ optRequest 7 (infoData [97] [])
def B : List Byte := (session .big NDemo.env NDemo.cf 9 [NDemo.a, NDemo.s] false A (some [])).2.plainOut
def xA : List Byte := toBE 4 3 ++ optRequest 7 (infoData [120] [])
def xB : List Byte := (session .big NDemo.env NDemo.cf 9 [NDemo.a, NDemo.s] false xA (some [])).2.plainOut
def tA : List Byte := toBE 4 3 ++ optRequest 5 []
def tAt : List Byte := optRequest 1 [97]
def tB : List Byte := (session .big NDemo.env NDemo.cf 9 [NDemo.a, NDemo.s] false tA (some tAt)).2.plainOut
def tBt : List Byte := (session .big NDemo.env NDemo.cf 9 [NDemo.a, NDemo.s] false tA (some tAt)).2.tlsOut

end CDemo

/-- The hypotheses of `C27_agree` are met: with GO in the clear, and with EXPORT_NAME inside TLS. -/
example : Talk .little .big NDemo.env NDemo.cf 9 [NDemo.a, NDemo.s] false CDemo.a [] [] CDemo.A [] CDemo.B [] ∧
    (cliRun .little CDemo.a [] [] CDemo.B []).1 = .ready 4096 365 :=
  ⟨⟨by decide +kernel, by decide +kernel, by decide +kernel, by decide +kernel, by decide +kernel⟩, by decide +kernel⟩

example : Talk .little .big NDemo.env NDemo.cf 9 [NDemo.a, NDemo.s] false CDemo.ta [] [] CDemo.tA CDemo.tAt CDemo.tB CDemo.tBt ∧
    (cliRun .little CDemo.ta [] [] CDemo.tB CDemo.tBt).1 = .ready 4096 365 :=
  ⟨⟨by decide +kernel, by decide +kernel, by decide +kernel, by decide +kernel, by decide +kernel⟩, by decide +kernel⟩

/-- And those of `C27_unknown_partial`. -/
example : Talk .little .big NDemo.env NDemo.cf 9 [NDemo.a, NDemo.s] false CDemo.x [] [] CDemo.xA [] CDemo.xB [] ∧
    ∀ sv ∈ [NDemo.a, NDemo.s], sv.name = CDemo.x.name → CDemo.x.tls = false ∧ TlsOnly sv :=
  ⟨⟨by decide +kernel, by decide +kernel, by decide +kernel, by decide +kernel, by decide +kernel⟩, by decide⟩

/-- And those of `C27_tls_required_partial`. -/
example : Talk .little .big NDemo.env NDemo.tlsCf 9 [NDemo.a, NDemo.s] false CDemo.a [] [] CDemo.A []
    (session .big NDemo.env NDemo.tlsCf 9 [NDemo.a, NDemo.s] false CDemo.A (some [])).2.plainOut [] :=
  ⟨by decide +kernel, by decide +kernel, by decide +kernel, by decide +kernel, by decide +kernel⟩

/-- **C27 does not hold with `-g`**: asked for an export that does not exist, the server closes the connection, and
nbd-client goes on with whatever the memory it meant to read the size and the flags into contained. -/
theorem C27_false : ∃ (c : CliConf) (A B : List Byte),
    c.name = [120] ∧ (∀ sv ∈ [NDemo.a, NDemo.s], sv.name ≠ [120]) ∧
    Talk .little .little NDemo.env NDemo.cf 9 [NDemo.a, NDemo.s] false c [] [] A [] B [] ∧
    (cliRun .little c [] [] B []).1 = .garbage :=
  ⟨⟨[120], true, false, false⟩, toBE 4 3 ++ optRequest 1 [120], greeting, rfl, by decide,
    ⟨by decide +kernel, by decide +kernel, by decide +kernel, by decide +kernel, by decide +kernel⟩, by decide +kernel⟩

/-! ### C44 -/

/-- **C44, memory.** Listing exports, and connecting without GO (`-g`): whatever the server says, nbd-client stays
within its buffers. -/
theorem C44_memory (e : Endian) (c : CliConf) (errm errh inp tlsIn : List Byte) (hc : c.list = true ∨ c.noOptgo = true) :
    (cliRun e c errm errh inp tlsIn).1 ≠ .ub := by
  rw [cliRun_fin]
  have h : CM.Hoare (fun _ => True) (cliNegotiate e c errm errh) (fun _ _ => True) (fun r _ => r ≠ .ub) := by
    unfold cliNegotiate
    refine (CM.Hoare.cliGreet CStable.true (fun _ _ h _ => h) e c).bind fun gz => ?_
    exact CM.Hoare.ite
      (fun _ => (CM.Hoare.cliStarttls CStable.true (fun _ _ h _ => h) e).bind fun _ =>
        CM.Hoare.cliAsk' CStable.true (fun _ _ h _ => h) e c hc errm errh gz)
      fun _ => CM.Hoare.cliAsk' CStable.true (fun _ _ h _ => h) e c hc errm errh gz
  have := h.h ⟨inp, tlsIn, [], [], false, 0, 0, []⟩ trivial
  cases hq : cliNegotiate e c errm errh ⟨inp, tlsIn, [], [], false, 0, 0, []⟩ with
  | ok a s => show CEnd.running ≠ _; simp
  | stop r s => rw [hq] at this; exact this

/-- **C44, memory, with GO**: a server whose answers to GO are `Harmless` cannot make nbd-client leave its buffers;
`C44_false_memory` shows that the restrictions are needed. -/
theorem C44_memory_go_partial (e : Endian) (c : CliConf) (errm errh inp tlsIn : List Byte)
    (hplain : c.tls = false → Harmless (inp.drop 18)) (htls : c.tls = true → Harmless tlsIn) :
    (cliRun e c errm errh inp tlsIn).1 ≠ .ub := by
  by_cases hc : c.list = true ∨ c.noOptgo = true
  · exact C44_memory e c errm errh inp tlsIn hc
  rw [not_or] at hc
  have hask : ∀ gz s, Harmless s.inp → (cliAsk e c errm errh gz s).fin.1 ≠ .ub := by
    intro gz s hs
    unfold cliAsk
    rw [CM.bind_ok (CM.get_eq s), if_neg hc.1, if_neg hc.2]
    have hinfo : ∃ s', csendInfo e OPT_GO c.name s = .ok () s' ∧ s'.inp = s.inp := by
      unfold csendInfo csendRequest
      rw [CM.bind_ok (csend_eq _ _), CM.bind_ok (csend_eq _ _), CM.bind_ok (csend_eq _ _), csend_eq]
      exact ⟨_, rfl, by simp only [CState.said_inp]⟩
    obtain ⟨s', h1, h2⟩ := hinfo
    rw [CM.bind_ok h1]
    exact goLoop_safe e c gz errm errh _ s' (by rw [h2]; exact hs)
  rw [cliRun_fin]
  unfold cliNegotiate
  have hg := (cliGreet_where e c inp tlsIn).h _ rfl
  cases hq : cliGreet e c ⟨inp, tlsIn, [], [], false, 0, 0, []⟩ with
  | stop r s => rw [CM.bind_stop hq]; rw [hq] at hg; rcases hg with h | h <;> (rw [h]; simp [CRes.fin])
  | ok gz s =>
    rw [CM.bind_ok hq]
    rw [hq] at hg
    simp only [] at hg
    cases ht : c.tls with
    | false =>
      simp only [Bool.false_eq_true, if_false]
      exact hask gz s (by rw [hg.1]; exact hplain ht)
    | true =>
      simp only [if_true]
      have hs := (cliStarttls_where e tlsIn).h s hg.2.1
      cases hq2 : cliStarttls e s with
      | stop r s' => rw [CM.bind_stop hq2]; rw [hq2] at hs; rcases hs with h | h <;> (rw [h]; simp [CRes.fin])
      | ok u s' =>
        rw [CM.bind_ok hq2]
        rw [hq2] at hs
        exact hask gz s' (by simp only [] at hs; rw [hs]; exact htls ht)

/-- Harmless answers are among others the ones this server gives. -/
example : Harmless (optReply 7 3 (toBE 2 0 ++ toBE 8 4096 ++ toBE 2 1) ++ optReply 7 1 []) ∧
    Harmless (optReply 7 0x80000006 (ascii "Export unknown")) ∧ Harmless [1, 2, 3] := by
  refine ⟨?_, ?_, .short _ (by decide)⟩
  · have h1 := Harmless.reply 7 1 0 [] (by decide) (by decide) (by decide) (by decide) (by decide) (.short _ (by decide))
    have h2 := Harmless.reply 7 3 12 (toBE 2 0 ++ toBE 8 4096 ++ toBE 2 1 ++ optReply 7 1 []) (by decide) (by decide)
      (by decide) (by decide +kernel) (by decide)
      (by
        have : (toBE 2 0 ++ toBE 8 4096 ++ toBE 2 1 ++ optReply 7 1 []).drop (if 12 < 4096 then 12 else 0) =
          toBE 8 0x3e889045565a9 ++ toBE 4 7 ++ toBE 4 1 ++ toBE 4 0 ++ [] := by decide +kernel
        rw [this]; exact h1)
    have : optReply 7 3 (toBE 2 0 ++ toBE 8 4096 ++ toBE 2 1) ++ optReply 7 1 [] =
      toBE 8 0x3e889045565a9 ++ toBE 4 7 ++ toBE 4 3 ++ toBE 4 12 ++ (toBE 2 0 ++ toBE 8 4096 ++ toBE 2 1 ++ optReply 7 1 []) := by
      decide +kernel
    rw [this]; exact h2
  · have h := Harmless.reply 7 0x80000006 14 (ascii "Export unknown") (by decide) (by decide) (by decide) (by decide)
      (by decide +kernel) (.short _ (by decide +kernel))
    have : optReply 7 0x80000006 (ascii "Export unknown") =
      toBE 8 0x3e889045565a9 ++ toBE 4 7 ++ toBE 4 0x80000006 ++ toBE 4 14 ++ ascii "Export unknown" := by decide +kernel
    rw [this]; exact h

/-- **C44, identification** (partial: see `C44_false_identified`). Before nbd-client uses the device, or lists exports,
the server has said "NBDMAGIC", and has not said that it speaks the old protocol. -/
theorem C44_identified_partial (e : Endian) (c : CliConf) (errm errh inp tlsIn : List Byte) (size fl : Nat)
    (h : (cliRun e c errm errh inp tlsIn).1 = .ready size fl ∨ (cliRun e c errm errh inp tlsIn).1 = .listed) :
    inp.take 8 = ascii "NBDMAGIC" ∧ beVal ((inp.drop 8).take 8) ≠ 0x00420281861253 := by
  rw [cliRun_fin] at h
  unfold cliNegotiate at h
  have hg := (cliGreet_where e c inp tlsIn).h _ rfl
  cases hq : cliGreet e c ⟨inp, tlsIn, [], [], false, 0, 0, []⟩ with
  | stop r s =>
    rw [CM.bind_stop hq] at h
    rw [hq] at hg
    rcases hg with hg | hg <;> (rw [hg] at h; rcases h with h | h <;> simp [CRes.fin] at h)
  | ok gz s =>
    rw [hq] at hg
    exact hg.2.2

/-- **C44 does not hold**: a second magic number that is neither that of the new nor that of the old protocol is
accepted too. -/
theorem C44_false_identified : ∃ inp : List Byte, (inp.drop 8).take 8 ≠ ascii "IHAVEOPT" ∧
    (cliRun .little CDemo.a [] [] inp []).1 = .ready 4096 1 :=
  ⟨ascii "NBDMAGIC" ++ ascii "whatever" ++ toBE 2 3 ++ optReply 7 3 (toBE 2 0 ++ toBE 8 4096 ++ toBE 2 1) ++ optReply 7 1 [],
    by decide +kernel, by decide +kernel⟩

/-- **C44 does not hold**: a server that answers GO with export information shorter than 12 bytes, with an error of 4096
bytes, or with an error text that contains "%m" far enough along makes nbd-client leave its buffers. -/
theorem C44_false_memory (e : Endian) :
    (cliRun e CDemo.a [] [] (greeting ++ optReply 7 3 (toBE 2 0)) []).1 = .ub ∧
    (cliRun e CDemo.a [] [] (greeting ++ (toBE 8 0x3e889045565a9 ++ toBE 4 7 ++ toBE 4 0x80000006 ++ toBE 4 4096)) []).1 = .ub ∧
    (cliRun e CDemo.a (ascii "Success") [] (greeting ++ optReply 7 0x80000006 (List.replicate 100 120 ++ [37, 109, 0])) []).1 = .ub := by
  cases e <;> exact ⟨by decide +kernel, by decide +kernel, by decide +kernel⟩

/-- **C44, no hang.** Whatever the server says, when it has said everything (closed the connection) the negotiation of
nbd-client comes to an end. -/
theorem C44_ends (e : Endian) (c : CliConf) (errm errh inp tlsIn : List Byte) :
    (cliRun e c errm errh inp tlsIn).1 ≠ .running := by
  rw [cliRun_fin]
  unfold cliNegotiate
  have hask : ∀ gz s, (cliAsk e c errm errh gz s).fin.1 ≠ .running := by
    intro gz s
    unfold cliAsk
    rw [CM.bind_ok (CM.get_eq s)]
    by_cases h1 : c.list = true
    · rw [if_pos h1]
      unfold csendRequest
      rw [CM.bind_ok (csend_eq _ _)]
      exact listLoop_ends e _ _ (by rw [CState.said_inp]; omega)
    · rw [if_neg h1]
      by_cases h2 : c.noOptgo = true
      · rw [if_pos h2]
        obtain ⟨r, s', hr⟩ : ∃ r s', csendExportName e c gz s = .stop r s' := by
          unfold csendExportName csendRequest
          rw [CM.bind_ok (csend_eq _ _), CM.bind_ok (cread_eq _ _)]
          by_cases h3 : (((s.said (store64 e (ntohll e OPTS_MAGIC) ++ store32 e (ntohl e (UInt32.ofNat OPT_EXPORT_NAME)) ++
              store32 e (ntohl e (UInt32.ofNat c.name.length)) ++ c.name)).inp.take 10)).length < 10
          · simp only [if_pos h3]; exact ⟨_, _, rfl⟩
          · simp only [if_neg h3]
            cases gz <;> exact ⟨_, _, rfl⟩
        have := (CEats.csendExportName (j := s.inp.length) e c gz).h.h s (Nat.le_refl _)
        rw [hr] at this ⊢
        exact this
      · rw [if_neg h2]
        have hinfo : ∃ s', csendInfo e OPT_GO c.name s = .ok () s' ∧ s'.inp = s.inp := by
          unfold csendInfo csendRequest
          rw [CM.bind_ok (csend_eq _ _), CM.bind_ok (csend_eq _ _), CM.bind_ok (csend_eq _ _), csend_eq]
          exact ⟨_, rfl, by simp only [CState.said_inp]⟩
        obtain ⟨s', h3, h4⟩ := hinfo
        rw [CM.bind_ok h3]
        exact goLoop_ends e c gz errm errh _ s' (by rw [h4]; omega)
  have hg := (cliGreet_where e c inp tlsIn).h _ rfl
  cases hq : cliGreet e c ⟨inp, tlsIn, [], [], false, 0, 0, []⟩ with
  | stop r s => rw [CM.bind_stop hq]; rw [hq] at hg; rcases hg with h | h <;> (rw [h]; simp [CRes.fin])
  | ok gz s =>
    rw [CM.bind_ok hq]
    rw [hq] at hg
    simp only [] at hg
    cases ht : c.tls with
    | false =>
      simp only [Bool.false_eq_true, if_false]
      exact hask gz s
    | true =>
      simp only [if_true]
      have hs := (cliStarttls_where e tlsIn).h s hg.2.1
      cases hq2 : cliStarttls e s with
      | stop r s' => rw [CM.bind_stop hq2]; rw [hq2] at hs; rcases hs with h | h <;> (rw [h]; simp [CRes.fin])
      | ok u s' =>
        rw [CM.bind_ok hq2]
        exact hask gz s'

/-! ### C51 -/

theorem infix_cons {a : Byte} {l x : List Byte} : x <:+: a :: l ↔ x <+: a :: l ∨ x <:+: l := List.infix_cons_iff

theorem strstr2_not (c : Byte) (text : List Byte) (h : ¬ [37, c] <:+: text) : strstr2 c text = none := by
  induction text with
  | nil => rfl
  | cons a l ih =>
    rw [infix_cons, not_or] at h
    cases l with
    | nil => rfl
    | cons b l =>
      unfold strstr2
      rw [if_neg, ih h.2]
      · rfl
      · rintro ⟨rfl, rfl⟩
        exact h.1 ⟨l, rfl⟩

theorem strstr2_first (c : Byte) (pre post : List Byte) (hc : c ≠ 37) (h : ¬ [37, c] <:+: pre ++ [37]) :
    strstr2 c (pre ++ [37, c] ++ post) = some pre.length := by
  induction pre with
  | nil => simp [strstr2]
  | cons a l ih =>
    rw [List.cons_append, infix_cons, not_or] at h
    have h2 := ih h.2
    rw [List.cons_append, List.cons_append]
    cases l with
    | nil =>
      simp only [List.nil_append, List.cons_append] at h2 ⊢
      unfold strstr2
      rw [if_neg (fun hh => hc hh.2.symm), h2]
      rfl
    | cons b l =>
      simp only [List.cons_append] at h2 ⊢
      unfold strstr2
      rw [if_neg, h2]
      · rfl
      · rintro ⟨rfl, rfl⟩
        exact h.1 ⟨l ++ [37], rfl⟩

theorem escape_pos {text errm errh pre t post : List Byte} (h : Escape text errm errh pre t post) :
    ((strstr2 109 text = some pre.length ∧ t = errm) ∨
      (strstr2 109 text = none ∧ strstr2 104 text = some pre.length ∧ t = errh)) ∧
    text.take pre.length = pre ∧ text.drop (pre.length + 2) = post := by
  rcases h with ⟨h1, h2, h3⟩ | ⟨h0, h1, h2, h3⟩
  · subst h1
    refine ⟨.inl ⟨strstr2_first _ _ _ (by decide) h2, h3⟩, ?_, ?_⟩
    · rw [List.append_assoc, List.take_left]
    · exact List.drop_left' (by simp)
  · subst h1
    refine ⟨.inr ⟨strstr2_not _ _ h0, strstr2_first _ _ _ (by decide) h2, h3⟩, ?_, ?_⟩
    · rw [List.append_assoc, List.take_left]
    · exact List.drop_left' (by simp)

/-- **C51, without escapes**: a message of any length that contains neither "%m" nor "%h" is cut to 149 bytes and
stays within the buffers. -/
theorem C51_plain (text errm errh : List Byte) (h0 : (0 : Byte) ∉ text)
    (hm : ¬ [37, 109] <:+: text) (hh : ¬ [37, 104] <:+: text) :
    errNonfatal text errm errh = .val (text.take 149) :=
  errNonfatal_plain text errm errh h0 (strstr2_not _ _ hm) (strstr2_not _ _ hh)

example : ¬ [37, 109] <:+: ascii "Could not open file" ∧ ¬ [37, 104] <:+: ascii "Could not open file" := by decide +kernel

/-- **C51, with an escape** (partial: the text up to the escape and the text it stands for must fit). The message, with
the text of the error in the place of the escape, is cut to 149 bytes and stays within the buffers. -/
theorem C51_escape_partial (text errm errh pre t post : List Byte) (h0 : (0 : Byte) ∉ text) (ht : (0 : Byte) ∉ t)
    (he : Escape text errm errh pre t post) (hfit : pre.length + t.length < 150) :
    errNonfatal text errm errh = .val ((pre ++ t ++ post).take 149) := by
  obtain ⟨h1, h2, h3⟩ := escape_pos he
  rw [errNonfatal_replace text errm errh t pre.length h0 ht h1 hfit, h2, h3]

example : Escape (ascii "Could not open: %m!") (ascii "No such file") [] (ascii "Could not open: ") (ascii "No such file")
    (ascii "!") := .m (by decide +kernel) (by decide +kernel) rfl

/-- **C51 does not hold**: whenever the text up to the escape and the text it stands for do not fit, memory outside the
buffer is used. -/
theorem C51_false (text errm errh pre t post : List Byte) (h0 : (0 : Byte) ∉ text) (ht : (0 : Byte) ∉ t)
    (hl : text.length < 2 ^ 64) (he : Escape text errm errh pre t post) (hfit : 150 ≤ pre.length + t.length) :
    errNonfatal text errm errh = .ub := by
  obtain ⟨h1, h2, h3⟩ := escape_pos he
  exact errNonfatal_overflow text errm errh t pre.length h0 ht hl h1 hfit

/-- The server's message about a file it cannot open, for a path of 140 bytes. -/
example : Escape (ascii "Could not open exported file " ++ List.replicate 140 97 ++ ascii ": %m") (ascii "No such file or directory") []
    (ascii "Could not open exported file " ++ List.replicate 140 97 ++ ascii ": ") (ascii "No such file or directory") [] ∧
    150 ≤ (ascii "Could not open exported file " ++ List.replicate 140 97 ++ ascii ": ").length + (ascii "No such file or directory").length :=
  ⟨.m (by decide +kernel) (by decide +kernel) rfl, by decide +kernel⟩

/-! ### C56 -/

/-- The client hears the server's answer to its question. -/
theorem talk_hears {ec es : Endian} {env : NEnv} {cf : NConf} {n : Nat} {svs : List SrvExport} {nz : Bool} {c : CliConf}
    {errm errh A At B Bt : List Byte} (hT : Talk ec es env cf n svs nz c errm errh A At B Bt)
    (hn : c.name.length ≤ 4096) (hk : c.tls = true → cf.keyfile = true) (R : List Byte)
    (hans : ∀ Y, ∃ s', oneOption es env cf (askedServer c.tls svs At (cliQuestion c ++ Y)) = .ok () s' ∧
      (if c.tls then s'.tlsOut = R else s'.plainOut = greeting ++ R)) :
    ∃ Z', cliRun ec c errm errh B Bt = (cliAsk ec c errm errh true (askingClient c.tls Bt (R ++ Z'))).fin := by
  obtain ⟨m, Y, Z, hs, hcl, hso, hco⟩ := talk_asks hT hn hk
  obtain ⟨s', ho, hout⟩ := hans Y
  have hs2 : session es env cf n svs nz A (some At) = (optionLoop es env cf m s').fin := by rw [hs, loop_ok ho]
  have hgr := optionLoop_grew es env cf m s'
  obtain ⟨Z', hZ⟩ : R <+: Z := by
    rw [hs2, NRes.fin_state] at hso
    cases htl : c.tls with
    | true =>
      rw [htl] at hso hout
      simp only [if_true] at hso hout
      rw [← hso, ← hout]; exact hgr.tls
    | false =>
      rw [htl] at hso hout
      simp only [Bool.false_eq_true, if_false] at hso hout
      have := hgr.plain
      rw [hout, hso, List.prefix_append_right_inj] at this
      exact this
  exact ⟨Z', by rw [hcl, hZ]⟩

/-- The client after printing a name. -/
def CState.shown (s : CState) (name rest : List Byte) : CState := { s with printed := s.printed ++ [name], inp := rest }

/-- The name of an export. -/
theorem listStep_server {s : CState} {rest : List Byte} (e : Endian) (name : List Byte) (hn : name.length ≤ 1020)
    (h0 : (0 : Byte) ∉ name) (h : s.inp = optReply 3 2 (listRecord name) ++ rest) :
    listStep e s = .ok false (CState.shown s name rest) := by
  have hlen : (listRecord name).length = 4 + name.length := by unfold listRecord; simp
  have h' : s.inp = toBE 8 0x3e889045565a9 ++ (toBE 4 3 ++ (toBE 4 2 ++ (toBE 4 (4 + name.length) ++
      (toBE 4 name.length ++ (name ++ rest))))) := by
    rw [h]; unfold optReply; rw [hlen]; unfold listRecord; simp only [List.append_assoc]
  unfold listStep
  rw [CM.bind_ok (creadFull_ok 8 h' (by simp))]
  rw [CM.bind_ok (creadFull_ok (s := s.heard _) (a := toBE 4 3) 4 rfl (by simp))]
  rw [CM.bind_ok (creadFull_ok (s := (s.heard _).heard _) (a := toBE 4 2) 4 rfl (by simp))]
  rw [CM.bind_ok (creadFull_ok (s := ((s.heard _).heard _).heard _) (a := toBE 4 (4 + name.length)) 4 rfl (by simp))]
  rw [ntohl_toBE e 2 (by decide), ntohl_toBE e (4 + name.length) (by omega), repMagic]
  simp only []
  rw [if_neg (by simp), if_neg (by decide), if_neg (by decide), if_neg (by decide)]
  unfold listEntry
  rw [CM.bind_eq, CM.bind_ok (creadFull_ok (s := (((s.heard _).heard _).heard _).heard _) (a := toBE 4 name.length) 4 rfl (by simp)),
    ntohl_toBE e name.length (by omega)]
  unfold listName creadStr
  rw [if_neg (by omega), if_neg (by omega), CM.bind_ok (cread_ok (s := ((((s.heard _).heard _).heard _).heard _).heard _) (a := name) (rest := rest) _ rfl rfl),
    CM.bind_ok (CM.modify_eq _ _), if_neg (by omega), CM.pure_eq]
  simp only []
  rw [CM.pure_eq, cstr_eq h0]
  rfl

/-- The end of the list. -/
theorem listStep_ack {s : CState} {rest : List Byte} (e : Endian) (h : s.inp = optReply 3 1 [] ++ rest) :
    listStep e s = .ok true (s.heard rest) := by
  have h' : s.inp = toBE 8 0x3e889045565a9 ++ (toBE 4 3 ++ (toBE 4 1 ++ (toBE 4 0 ++ rest))) := by
    rw [h]; unfold optReply; simp only [List.append_assoc, List.nil_append, List.length_nil]
  unfold listStep
  rw [CM.bind_ok (creadFull_ok 8 h' (by simp))]
  rw [CM.bind_ok (creadFull_ok (s := s.heard _) (a := toBE 4 3) 4 rfl (by simp))]
  rw [CM.bind_ok (creadFull_ok (s := (s.heard _).heard _) (a := toBE 4 1) 4 rfl (by simp))]
  rw [CM.bind_ok (creadFull_ok (s := ((s.heard _).heard _).heard _) (a := toBE 4 0) 4 rfl (by simp))]
  rw [ntohl_toBE e 1 (by decide), repMagic]
  simp only []
  rw [if_neg (by simp), if_neg (by decide), if_pos (by decide)]
  rfl

theorem listLoop_prints (e : Endian) (names : List (List Byte)) (s : CState) (rest : List Byte) (n : Nat)
    (hn : ∀ x ∈ names, x.length ≤ 1020 ∧ (0 : Byte) ∉ x) (hl : names.length < n)
    (h : s.inp = (names.map fun x => optReply 3 2 (listRecord x)).flatten ++ optReply 3 1 [] ++ rest) :
    ∃ s', listLoop e n s = .stop .listed s' ∧ s'.printed = s.printed ++ names := by
  induction names generalizing s n with
  | nil =>
    obtain ⟨n, rfl⟩ : ∃ k, n = k + 1 := ⟨n - 1, by simp at hl; omega⟩
    rw [listLoop, CM.bind_ok (listStep_ack (rest := rest) e (by rw [h]; rfl))]
    simp only [if_true]
    unfold csendRequest
    rw [CM.bind_ok (csend_eq _ _)]
    refine ⟨_, rfl, ?_⟩
    unfold CState.said CState.heard
    split <;> simp
  | cons x names ih =>
    obtain ⟨n, rfl⟩ : ∃ k, n = k + 1 := ⟨n - 1, by simp at hl; omega⟩
    have hx := hn x (by simp)
    rw [listLoop, CM.bind_ok (listStep_server (rest := (names.map fun x => optReply 3 2 (listRecord x)).flatten ++
      optReply 3 1 [] ++ rest) e x hx.1 hx.2 (by rw [h]; simp))]
    simp only [Bool.false_eq_true, if_false]
    obtain ⟨s', h1, h2⟩ := ih (CState.shown s x _) n (fun y hy => hn y (by simp [hy])) (by simp at hl; omega) rfl
    refine ⟨s', h1, ?_⟩
    rw [h2]
    unfold CState.shown
    simp

/-- **C56.** `nbd-client -l`, with or without TLS, prints exactly the names of the exports it may see, in the order of
the configuration, when listing is allowed. (Names of at most 1020 bytes; a server with longer ones closes the
connection, `C30`.) -/
theorem C56_list (ec es : Endian) (env : NEnv) (cf : NConf) (n : Nat) (svs : List SrvExport) (nz : Bool) (c : CliConf)
    (errm errh A At B Bt : List Byte) (hT : Talk ec es env cf n svs nz c errm errh A At B Bt)
    (hc : c.list = true) (hn : c.name.length ≤ 4096) (hl : cf.list = true) (hf : c.tls = true ∨ cf.forcedTls = false)
    (hk : c.tls = true → cf.keyfile = true)
    (hnames : ∀ sv ∈ svs, sv.name.length ≤ 1020 ∧ (0 : Byte) ∉ sv.name) :
    (cliRun ec c errm errh B Bt).1 = .listed ∧
    (cliRun ec c errm errh B Bt).2.printed =
      (svs.filter (fun sv => c.tls = true ∨ ¬ TlsOnly sv)).map (·.name) := by
  have hfil : svs.filter (visible c.tls) = svs.filter (fun sv => c.tls = true ∨ ¬ TlsOnly sv) := by
    apply List.filter_congr
    intro sv _
    rw [Bool.eq_iff_iff, visible_iff, decide_eq_true_iff]
  have hq : cliQuestion c = optRequest 3 [] := by unfold cliQuestion; rw [hc]; rfl
  generalize hvs : svs.filter (fun sv => c.tls = true ∨ ¬ TlsOnly sv) = vs at hfil
  have hmem : ∀ sv ∈ vs, sv.name.length ≤ 1020 ∧ (0 : Byte) ∉ sv.name := by
    intro sv hsv
    rw [← hvs] at hsv
    exact hnames sv (List.mem_filter.mp hsv).1
  obtain ⟨Z', hZ⟩ := talk_hears hT hn hk ((vs.map fun sv => optReply 3 2 (listRecord sv.name)).flatten ++ optReply 3 1 []) (by
    intro Y
    rw [hq]
    cases htl : c.tls with
    | true =>
      rw [htl] at hfil
      refine ⟨_, list_exact (s := askedServer true svs At _) (rest := Y) es env cf (.inl rfl) rfl
        (fun sv hsv _ => (hnames sv hsv).1), ?_⟩
      rw [hl, show (askedServer true svs At (optRequest 3 [] ++ Y)).servers = svs from rfl,
        show (askedServer true svs At (optRequest 3 [] ++ Y)).tls = true from rfl, hfil]
      rfl
    | false =>
      rw [htl] at hfil
      refine ⟨_, list_exact (s := askedServer false svs At _) (rest := Y) es env cf
        (.inr (hf.resolve_left (by rw [htl]; decide))) rfl (fun sv hsv _ => (hnames sv hsv).1), ?_⟩
      rw [hl, show (askedServer false svs At (optRequest 3 [] ++ Y)).servers = svs from rfl,
        show (askedServer false svs At (optRequest 3 [] ++ Y)).tls = false from rfl, hfil]
      rfl)
  rw [cliAsk_eq ec c (by omega), if_pos hc] at hZ
  have hlen : ∀ l : List SrvExport, l.length ≤ ((l.map fun sv => optReply 3 2 (listRecord sv.name)).flatten).length := by
    intro l
    induction l with
    | nil => simp
    | cons a l ih =>
      simp only [List.map_cons, List.flatten_cons, List.length_append, List.length_cons]
      have : 0 < (optReply 3 2 (listRecord a.name)).length := by unfold optReply; simp; omega
      omega
  have hinp : ∀ z, (askingClient c.tls Bt z).inp = z := by intro z; unfold askingClient; split <;> rfl
  obtain ⟨s', h1, h2⟩ := listLoop_prints ec (vs.map (·.name)) ((askingClient c.tls Bt
      ((vs.map fun sv => optReply 3 2 (listRecord sv.name)).flatten ++ optReply 3 1 [] ++ Z')).said (optRequest 3 [])) Z'
    ((askingClient c.tls Bt ((vs.map fun sv => optReply 3 2 (listRecord sv.name)).flatten ++ optReply 3 1 [] ++ Z')).inp.length + 1)
    (by
      intro x hx
      obtain ⟨sv, hsv, rfl⟩ := List.mem_map.mp hx
      exact hmem sv hsv)
    (by
      rw [hinp, List.length_map]
      have := hlen vs
      simp only [List.length_append]
      omega)
    (by rw [CState.said_inp, hinp, List.map_map]; rfl)
  rw [hZ, h1]
  refine ⟨rfl, ?_⟩
  show s'.printed = _
  rw [h2]
  have : ∀ z, ((askingClient c.tls Bt z).said (optRequest 3 [])).printed = [] := by
    intro z; unfold CState.said askingClient; cases c.tls <;> rfl
  rw [this, List.nil_append]

example : Talk .little .big NDemo.env NDemo.cf 9 [NDemo.a, NDemo.s] false ⟨[], false, false, true⟩ [] []
    (toBE 4 3 ++ optRequest 3 [] ++ optRequest 2 []) []
    (greeting ++ (optReply 3 2 (listRecord [97]) ++ optReply 3 1 [])) [] :=
  ⟨by decide +kernel, by decide +kernel, by decide +kernel, by decide +kernel, by decide +kernel⟩

/-- **C56, listing not allowed**: nbd-client fails and prints nothing. -/
theorem C56_denied (ec es : Endian) (env : NEnv) (cf : NConf) (n : Nat) (svs : List SrvExport) (nz : Bool) (c : CliConf)
    (errm errh A At B Bt : List Byte) (hT : Talk ec es env cf n svs nz c errm errh A At B Bt)
    (hc : c.list = true) (hn : c.name.length ≤ 4096) (hl : cf.list = false) (hf : c.tls = true ∨ cf.forcedTls = false)
    (hk : c.tls = true → cf.keyfile = true) (hnames : ∀ sv ∈ svs, sv.name.length ≤ 1020) :
    (cliRun ec c errm errh B Bt).1 = .failed ∧ (cliRun ec c errm errh B Bt).2.printed = [] := by
  have hq : cliQuestion c = optRequest 3 [] := by unfold cliQuestion; rw [hc]; rfl
  generalize htext : ascii "Listing of exports denied by server configuration" = text
  have htl : text.length < 100 := by rw [← htext]; decide +kernel
  obtain ⟨Z', hZ⟩ := talk_hears hT hn hk (optReply 3 0x80000002 text) (by
    intro Y
    rw [hq]
    cases htl : c.tls with
    | true =>
      refine ⟨_, list_exact (s := askedServer true svs At _) (rest := Y) es env cf (.inl rfl) rfl
        (fun sv hsv _ => hnames sv hsv), ?_⟩
      rw [hl, htext]
      rfl
    | false =>
      refine ⟨_, list_exact (s := askedServer false svs At _) (rest := Y) es env cf
        (.inr (hf.resolve_left (by rw [htl]; decide))) rfl (fun sv hsv _ => hnames sv hsv), ?_⟩
      rw [hl, htext]
      rfl)
  rw [cliAsk_eq ec c (by omega), if_pos hc] at hZ
  have hinp : ∀ z, (askingClient c.tls Bt z).inp = z := by intro z; unfold askingClient; split <;> rfl
  generalize hs : (askingClient c.tls Bt (optReply 3 0x80000002 text ++ Z')).said (optRequest 3 []) = s at hZ
  have hp : s.printed = [] := by rw [← hs]; unfold CState.said askingClient; cases c.tls <;> rfl
  have h' : s.inp = toBE 8 0x3e889045565a9 ++ (toBE 4 3 ++ (toBE 4 0x80000002 ++ (toBE 4 text.length ++ (text ++ Z')))) := by
    rw [← hs, CState.said_inp, hinp]; unfold optReply; simp only [List.append_assoc]
  rw [hZ, listLoop]
  have herr : ∃ s', listError text.length (s.heard (text ++ Z')) = .stop .failed s' ∧ s'.printed = s.printed := by
    unfold listError
    split
    · rename_i h
      unfold creadStr
      rw [if_neg (by omega), CM.bind_ok (cread_ok (s := s.heard _) (a := text) (rest := Z') _ rfl rfl)]
      exact ⟨_, rfl, rfl⟩
    · exact ⟨_, rfl, rfl⟩
  obtain ⟨s', herr, hp'⟩ := herr
  have hstep : listStep ec s = .stop .failed s' := by
    unfold listStep
    rw [CM.bind_ok (creadFull_ok 8 h' (by simp))]
    rw [CM.bind_ok (creadFull_ok (s := s.heard _) (a := toBE 4 3) 4 rfl (by simp))]
    rw [CM.bind_ok (creadFull_ok (s := (s.heard _).heard _) (a := toBE 4 0x80000002) 4 rfl (by simp))]
    rw [CM.bind_ok (creadFull_ok (s := ((s.heard _).heard _).heard _) (a := toBE 4 text.length) 4 rfl (by simp))]
    rw [ntohl_toBE ec 0x80000002 (by decide), ntohl_toBE ec text.length (by omega), repMagic]
    simp only []
    rw [if_neg (by simp), if_pos (by decide)]
    exact CM.bind_stop herr
  rw [CM.bind_stop hstep]
  exact ⟨rfl, hp'.trans hp⟩

end Nbd.Props
