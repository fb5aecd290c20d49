import Verif.NegoLoop
/-!
# What each option does, exactly
-/

set_option autoImplicit false

namespace Nbd

open NM

/-- Start of an option: its number is read, and the option is refused if TLS is required first. -/
theorem oneOption_begin {s : NState} {rest : List Byte} (e : Endian) (env : NEnv) (cf : NConf) (opt : Nat)
    (ho : opt < 2 ^ 32) (hf : s.tls = true ∨ cf.forcedTls = false ∨ opt = OPT_STARTTLS)
    (h : s.inp = toBE 8 0x49484156454F5054 ++ toBE 4 opt ++ rest) :
    oneOption e env cf s = dispatch e env cf opt (s.heard rest) := by
  unfold oneOption
  rw [List.append_assoc] at h
  rw [bind_ok (recv_ok 8 h (toBE_length 8 _))]
  have hm : ntohll e (load64 e (toBE 8 0x49484156454F5054)) = OPTS_MAGIC := by
    apply UInt64.toNat_inj.mp
    rw [ntohll_load64 e _ (toBE_length 8 _), beVal_toBE]
    rfl
  simp only []
  rw [if_neg (by rw [hm]; exact fun h => h rfl), bind_ok (recv32_ok (s := s.heard _) e opt ho rfl), bind_ok (get_eq _)]
  rw [if_neg]
  · rfl
  · rcases hf with hf | hf | hf
    · simp [hf]
    · simp [hf]
    · simp [hf]

theorem optRequest_eq (opt : Nat) (data rest : List Byte) :
    Spec.optRequest opt data ++ rest = toBE 8 0x49484156454F5054 ++ toBE 4 opt ++ (toBE 4 data.length ++ data ++ rest) := by
  unfold Spec.optRequest; simp only [List.append_assoc]

theorem ascii_length (t : String) : (ascii t).length = t.toList.length := by
  unfold ascii; exact List.length_map ..

theorem consumeReply {s : NState} {data rest : List Byte} (e : Endian) (opt : Nat) (type : UInt32) (text : List Byte)
    (ho : opt < 2 ^ 32) (hv : data.length < 2 ^ 32) (ht : text.length < 2 ^ 32)
    (h : s.inp = toBE 4 data.length ++ data ++ rest) :
    (do consumeLen e; sendReply e opt type text) s
      = .ok () ((s.heard rest).said (Spec.optReply opt type.toNat text)) := by
  rw [bind_ok (consumeLen_ok e hv h), sendReply_eq e opt type _ _ ho ht]

theorem unknown_exact {s : NState} {data rest : List Byte} (e : Endian) (env : NEnv) (cf : NConf) (opt : Nat)
    (ho : opt < 2 ^ 32) (hu : opt ∉ [1, 2, 3, 5, 6, 7, 8]) (hd : data.length < 2 ^ 32)
    (hf : s.tls = true ∨ cf.forcedTls = false) (h : s.inp = Spec.optRequest opt data ++ rest) :
    oneOption e env cf s = .ok () ((s.heard rest).said (Spec.optReply opt 0x80000001
      (ascii "The given option is unknown to this server implementation"))) := by
  rw [optRequest_eq] at h
  rw [oneOption_begin e env cf opt ho (hf.imp_right .inl) h]
  simp only [List.mem_cons, List.not_mem_nil, or_false, not_or] at hu
  unfold dispatch
  rw [if_neg (show ¬ opt = OPT_EXPORT_NAME from hu.1), if_neg (show ¬ opt = OPT_LIST from hu.2.2.1),
    if_neg (show ¬ opt = OPT_ABORT from hu.2.1), if_neg (show ¬ opt = OPT_STARTTLS from hu.2.2.2.1),
    if_neg (show ¬ (opt = OPT_GO ∨ opt = OPT_INFO) from fun h => h.elim hu.2.2.2.2.2.1 hu.2.2.2.2.1),
    if_neg (show ¬ opt = OPT_STRUCTURED_REPLY from hu.2.2.2.2.2.2)]
  rw [consumeReply (data := data) (rest := rest) e opt REP_ERR_UNSUP _ ho hd (by rw [ascii_length]; decide) rfl]
  rfl

theorem forced_exact {s : NState} {data rest : List Byte} (e : Endian) (env : NEnv) (cf : NConf) (opt : Nat)
    (ho : opt < 2 ^ 32) (hu : opt ∉ [1, 2, 5]) (hd : data.length < 2 ^ 32)
    (hs : s.tls = false) (hf : cf.forcedTls = true) (h : s.inp = Spec.optRequest opt data ++ rest) :
    oneOption e env cf s = .ok () ((s.heard rest).said (Spec.optReply opt 0x80000005
      (ascii "TLS is required on this server"))) := by
  rw [optRequest_eq, List.append_assoc] at h
  rw [oneOption_forced e env cf hf s hs]
  unfold forcedOption
  rw [bind_ok (recv_ok 8 h (toBE_length 8 _))]
  have hm : ntohll e (load64 e (toBE 8 0x49484156454F5054)) = OPTS_MAGIC := by
    apply UInt64.toNat_inj.mp
    rw [ntohll_load64 e _ (toBE_length 8 _), beVal_toBE]
    rfl
  simp only [List.mem_cons, List.not_mem_nil, or_false, not_or] at hu
  rw [if_neg (by rw [hm]; exact fun h => h rfl), bind_ok (recv32_ok (s := s.heard _) e opt ho rfl),
    if_pos (show opt ≠ OPT_STARTTLS from hu.2.2),
    if_neg (show ¬ (opt = OPT_EXPORT_NAME ∨ opt = OPT_ABORT) from fun h => h.elim hu.1 hu.2.1)]
  rw [consumeReply (data := data) (rest := rest) e opt REP_ERR_TLS_REQD _ ho hd (by rw [ascii_length]; decide) rfl]
  rfl

theorem sendList_exact (e : Endian) (tls : Bool) (svs : List SrvExport)
    (hn : ∀ sv ∈ svs, visible tls sv = true → sv.name.length ≤ 1020) (s : NState) :
    sendList e tls svs s = .ok () (s.said (((svs.filter (visible tls)).map
      fun sv => Spec.optReply 3 2 (Spec.listRecord sv.name)).flatten)) := by
  induction svs generalizing s with
  | nil => rw [List.filter_nil, List.map_nil, List.flatten_nil, NState.said_nil]; rfl
  | cons sv svs ih =>
    have ih := ih fun sv' h => hn sv' (List.mem_cons_of_mem _ h)
    unfold sendList
    simp only []
    by_cases hv : visible tls sv = true
    · have hl := hn sv List.mem_cons_self hv
      have hrec : store32 e (ntohl e (UInt32.ofNat sv.name.length)) ++ sv.name = Spec.listRecord sv.name := by
        unfold Spec.listRecord
        rw [store32_htonl, UInt32.toNat_ofNat', Nat.mod_eq_of_lt (by omega)]
      rw [if_pos hv, if_neg (by omega), hrec, bind_ok (sendReply_eq e OPT_LIST REP_SERVER _ s (by decide) (by
        unfold Spec.listRecord; rw [List.length_append, toBE_length]; omega)), ih, NState.said_said,
        List.filter_cons_of_pos hv, List.map_cons, List.flatten_cons]
      rfl
    · rw [if_neg hv, ih, List.filter_cons_of_neg hv]

theorem list_exact {s : NState} {rest : List Byte} (e : Endian) (env : NEnv) (cf : NConf)
    (hf : s.tls = true ∨ cf.forcedTls = false) (h : s.inp = Spec.optRequest 3 [] ++ rest)
    (hn : ∀ sv ∈ s.servers, visible s.tls sv = true → sv.name.length ≤ 1020) :
    oneOption e env cf s = .ok () ((s.heard rest).said (
      if cf.list then ((s.servers.filter (visible s.tls)).map
        fun sv => Spec.optReply 3 2 (Spec.listRecord sv.name)).flatten ++ Spec.optReply 3 1 []
      else Spec.optReply 3 0x80000002 (ascii "Listing of exports denied by server configuration"))) := by
  rw [optRequest_eq] at h
  rw [oneOption_begin e env cf 3 (by decide) (hf.imp_right .inl) h]
  unfold dispatch
  rw [if_neg (by decide), if_pos (by decide)]
  unfold handleList
  rw [bind_ok (recv32_ok (s := s.heard _) (rest := rest) e 0 (by decide) (by rfl))]
  simp only []
  rw [if_neg (by decide)]
  cases hl : cf.list with
  | false =>
    rw [if_pos (by decide), sendReply_eq e OPT_LIST REP_ERR_POLICY _ _ (by decide) (by rw [ascii_length]; decide),
      if_neg (by decide)]
    rfl
  | true =>
    rw [if_neg (by decide), if_pos rfl, bind_ok (get_eq _)]
    simp only [NState.heard_tls, NState.heard_servers]
    rw [bind_ok (sendList_exact e s.tls s.servers hn _),
      sendReply_eq e OPT_LIST REP_ACK _ _ (by decide) (by decide), NState.said_said]
    rfl

theorem structured_exact {s : NState} {rest : List Byte} (e : Endian) (env : NEnv) (cf : NConf)
    (hf : s.tls = true ∨ cf.forcedTls = false) (data : List Byte) (hd : data.length < 2 ^ 32)
    (h : s.inp = Spec.optRequest 8 data ++ rest) :
    oneOption e env cf s = .ok () (
      if data ≠ [] then (s.heard rest).said (Spec.optReply 8 0x80000003
        (ascii "NBD_OPT_STRUCTURED_REPLY with nonzero data length is not a valid request"))
      else if s.structured then (s.heard rest).said (Spec.optReply 8 0x80000003
        (ascii "NBD_OPT_STRUCTURED_REPLY has already been called"))
      else ({ s.heard rest with structured := true } : NState).said (Spec.optReply 8 1 [])) := by
  rw [optRequest_eq] at h
  rw [oneOption_begin e env cf 8 (by decide) (hf.imp_right .inl) h]
  unfold dispatch
  rw [if_neg (by decide), if_neg (by decide), if_neg (by decide), if_neg (by decide), if_neg (by decide), if_pos (by decide)]
  unfold handleStructuredReply
  rw [bind_ok (recv32_ok (s := s.heard _) (rest := data ++ rest) e data.length hd
    (by rw [NState.heard_inp, List.append_assoc]))]
  cases data with
  | nil =>
    rw [if_neg (by decide), if_neg (by decide), bind_ok (get_eq _)]
    cases hs : s.structured with
    | true =>
      rw [if_pos (by simpa using hs), sendReply_eq e OPT_STRUCTURED_REPLY REP_ERR_INVALID _ _ (by decide)
        (by rw [ascii_length]; decide), if_pos rfl]
      rfl
    | false =>
      rw [if_neg (by simp [hs]), bind_ok (modify_eq _ _), sendReply_eq e OPT_STRUCTURED_REPLY REP_ACK _ _ (by decide)
        (by decide), if_neg (by decide)]
      rfl
  | cons b bs =>
    rw [if_pos (by simp), if_pos (by simp), bind_ok (sendReply_eq e OPT_STRUCTURED_REPLY REP_ERR_INVALID _ _ (by decide)
        (by rw [ascii_length]; decide))]
    rw [skip_ok (b :: bs).length (a := b :: bs) (rest := rest) (by simp) rfl]
    rw [← NState.heard_said]; rfl

/-! ### Committing -/

/-- Everything the server asks about answers in favour of this client, and the export can be set up. -/
structure LetsIn (env : NEnv) (cf : NConf) (sv : SrvExport) (k : Nat) (ex : Export) : Prop where
  acl : cf.dontfork = true ∨ (k = 0 ∧ ∃ b, (env.attempt k sv).acl = some b ∧ b ≠ 78 ∧ b ≠ 88)
  peer : (env.attempt k sv).peerOk = true
  authorized : (env.attempt k sv).authorized = true
  prerun : (env.attempt k sv).prerunOk = true
  thread : (env.attempt k sv).threadOk = true
  diff : (env.attempt k sv).diffOk = true
  setup : setupExport sv.flags sv.expected (env.attempt k sv).exportname (env.attempt k sv).probes = some ex

/-- The state after committing. -/
def NState.took (s : NState) (sv : SrvExport) (ex : Export) : NState :=
  { s with
    server := some { sv with flags := ex.flags }, exportsize := ex.exportsize, ex := some ex,
    servers := if ex.flags ≠ sv.flags then markRo sv.id s.servers else s.servers, commits := s.commits + 1 }

theorem commitClient_exact (env : NEnv) (cf : NConf) (sv : SrvExport) (s : NState) (ex : Export)
    (h : LetsIn env cf sv s.commits ex) :
    commitClient env cf sv s = .ok (some { sv with flags := ex.flags }) (s.took sv ex) := by
  unfold commitClient
  rw [bind_ok (get_eq _)]
  obtain ⟨h1, h2, h3, h4, h5, h6, h7⟩ := h
  generalize hat : env.attempt s.commits sv = a at *
  simp only []
  rw [bind_ok (modify_eq _ _), if_neg, if_neg, if_neg (by simp [h2]), if_neg (by simp [h3]), if_neg (by simp [h4]),
    if_neg (by simp [h5]), h7]
  · simp only []
    rw [bind_ok (modify_eq _ _), if_neg (by simp [h6])]
    rfl
  · rcases h1 with h1 | ⟨h1, b, h8, h9, h10⟩
    · simp [h1]
    · simp [h8, h9, h10]
  · rcases h1 with h1 | ⟨h1, b, h8, h9, h10⟩
    · simp [h1]
    · simp [h8, h1]

/-- Export information, as specified. -/
theorem sendExportInfo_exact (e : Endian) (sv : SrvExport) (z : Bool) (s : NState)
    (hfl : exportFlags sv.flags s.structured < 2 ^ 16) :
    sendExportInfo e sv z s = .ok () (s.said (toBE 8 s.exportsize ++ toBE 2 (exportFlags sv.flags s.structured) ++
      if s.noZeroes = false ∧ z = true then List.replicate 124 0 else [])) := by
  unfold sendExportInfo
  rw [bind_ok (get_eq _), bind_ok (send_eq _ _), bind_ok (send_eq _ _), NState.said_said, store64_htonll, store16_htons,
    UInt64.toNat_ofNat', UInt16.toNat_ofNat', Nat.mod_eq_of_lt hfl,
    show toBE 8 (s.exportsize % 2 ^ 64) = toBE 8 s.exportsize from toBE_mod 8 _ 8 (Nat.le_refl _)]
  by_cases hz : s.noZeroes = false ∧ z = true
  · rw [if_pos (by simp [hz]), if_pos hz, send_eq, NState.said_said]
  · rw [if_neg (by simpa using hz), if_neg hz, List.append_nil]; rfl

theorem exportFlags_lt (flags : Nat) (st : Bool) : exportFlags flags st < 2 ^ 9 := by
  unfold exportFlags
  repeat' apply Nat.or_lt_two_pow
  all_goals first
    | decide
    | (split <;> decide)

theorem cstr_eq {name : List Byte} (h : (0 : Byte) ∉ name) : cstr name = name := by
  unfold cstr
  induction name with
  | nil => rfl
  | cons b bs ih =>
    simp only [List.mem_cons, not_or] at h
    rw [List.takeWhile_cons, if_pos (by simpa using fun hb : b = 0 => h.1 hb.symm), ih h.2]

theorem exportName_exact {s : NState} {name rest : List Byte} (e : Endian) (env : NEnv) (cf : NConf)
    (hf : s.tls = true ∨ cf.forcedTls = false) (hn : name.length ≤ 4096) (h0 : (0 : Byte) ∉ name)
    (h : s.inp = Spec.optRequest 1 name ++ rest) (sv : SrvExport) (ex : Export)
    (hfind : s.servers.find? (fun sv => visible s.tls sv && sv.name == name) = some sv)
    (hin : LetsIn env cf sv s.commits ex) :
    oneOption e env cf s = .stop .serving (((s.heard rest).took sv ex).said
      (toBE 8 ex.exportsize ++ toBE 2 (exportFlags ex.flags s.structured) ++
        if s.noZeroes = false then List.replicate 124 0 else [])) := by
  rw [optRequest_eq] at h
  rw [oneOption_begin e env cf 1 (by decide) (hf.imp_right .inl) h]
  unfold dispatch
  rw [if_pos (by decide)]
  unfold handleExportName
  rw [bind_ok (recv32_ok (s := s.heard _) (rest := name ++ rest) e name.length (by omega)
    (by rw [NState.heard_inp, List.append_assoc]))]
  simp only []
  rw [if_neg (by omega), bind_ok (recv_ok (rest := rest) name.length rfl rfl), bind_ok (get_eq _), cstr_eq h0]
  simp only [NState.heard_servers, NState.heard_tls, hfind]
  rw [NState.heard_heard, NState.heard_heard, bind_ok (commitClient_exact env cf sv (s.heard rest) ex hin)]
  have hfl := exportFlags_lt ex.flags s.structured
  simp only []
  rw [bind_ok (sendExportInfo_exact e _ true _ (by
    show exportFlags ex.flags s.structured < 2 ^ 16
    omega)), stop_eq]
  simp only [NState.heard_heard, and_true]
  rfl

theorem exportName_unknown {s : NState} {name rest : List Byte} (e : Endian) (env : NEnv) (cf : NConf)
    (hf : s.tls = true ∨ cf.forcedTls = false) (hn : name.length ≤ 4096) (h0 : (0 : Byte) ∉ name)
    (h : s.inp = Spec.optRequest 1 name ++ rest)
    (hfind : s.servers.find? (fun sv => visible s.tls sv && sv.name == name) = none) :
    oneOption e env cf s = .stop .exited (s.heard rest) := by
  rw [optRequest_eq] at h
  rw [oneOption_begin e env cf 1 (by decide) (hf.imp_right .inl) h]
  unfold dispatch
  rw [if_pos (by decide)]
  unfold handleExportName
  rw [bind_ok (recv32_ok (s := s.heard _) (rest := name ++ rest) e name.length (by omega)
    (by rw [NState.heard_inp, List.append_assoc]))]
  simp only []
  rw [if_neg (by omega), bind_ok (recv_ok (rest := rest) name.length rfl rfl), bind_ok (get_eq _), cstr_eq h0]
  simp only [NState.heard_servers, NState.heard_tls, hfind]
  rfl

/-! ### INFO and GO -/

theorem sendInfo_exact (e : Endian) (opt : Nat) (ho : opt < 2 ^ 32) (sv : SrvExport) (s : NState) :
    sendInfo e opt sv (toBE 2 0) s = .ok () (s.said (Spec.optReply opt 3
      (Spec.infoExport s.exportsize (exportFlags sv.flags s.structured)))) := by
  unfold sendInfo
  have hfl := exportFlags_lt sv.flags s.structured
  rw [bind_ok (sendReplyN_eq e opt REP_INFO 12 s ho (by decide)), bind_ok (send_eq _ _),
    sendExportInfo_exact e sv false _ (by simp only [NState.said_structured]; omega), NState.said_said, NState.said_said]
  congr 2
  unfold Spec.optReply Spec.infoExport
  simp only [List.append_assoc, List.length_append, toBE_length, NState.said_exportsize, NState.said_structured]
  simp
  rfl

/-- The information replies: one per request for export information. -/
def infoReplies (opt : Nat) (size flags : Nat) (requests : List Nat) : List Byte :=
  ((requests.filter (· = 0)).map fun _ => Spec.optReply opt 3 (Spec.infoExport size flags)).flatten

theorem infoRequests_exact (e : Endian) (opt : Nat) (ho : opt < 2 ^ 32) (sv : SrvExport) (requests : List Nat)
    (hr : ∀ r ∈ requests, r < 2 ^ 16) (rest : List Byte) :
    ∀ (s : NState) (sent : Bool), s.inp = requests.flatMap (toBE 2) ++ rest →
      infoRequests e opt sv requests.length sent s
        = .ok (sent || requests.any (· = 0)) ((s.heard rest).said
            (infoReplies opt s.exportsize (exportFlags sv.flags s.structured) requests)) := by
  induction requests with
  | nil =>
    intro s sent h
    simp only [List.flatMap_nil, List.nil_append] at h
    rw [infoReplies]
    simp only [List.filter_nil, List.map_nil, List.flatten_nil, NState.said_nil, List.any_nil, Bool.or_false]
    rw [← h]; rfl
  | cons r rs ih =>
    intro s sent h
    have hr0 := hr r List.mem_cons_self
    have ih := ih fun x hx => hr x (List.mem_cons_of_mem _ hx)
    rw [List.flatMap_cons, List.append_assoc] at h
    show infoRequests e opt sv (rs.length + 1) sent s = _
    rw [infoRequests, bind_ok (recv_ok 2 h (toBE_length 2 r)), ntohs_toBE e r hr0]
    by_cases hz : r = 0
    · subst hz
      rw [if_pos (by decide), bind_ok (sendInfo_exact e opt ho sv (s.heard (List.flatMap (toBE 2) rs ++ rest))), ih _ _ (by simp)]
      rw [← NState.heard_said, NState.heard_heard, NState.said_said]
      simp [infoReplies]
    · rw [if_neg (show ¬ r = INFO_EXPORT from hz), ih _ _ (by simp)]
      simp [infoReplies, hz, NState.heard_heard]

/-- The export INFO and GO choose: the last visible one of that name. -/
def lastVisible (tls : Bool) (name : List Byte) (svs : List SrvExport) : Option SrvExport :=
  svs.reverse.find? (fun sv => visible tls sv && sv.name == name)

theorem infoLookup_last (tls : Bool) (name : List Byte) (svs : List SrvExport) (found : Option SrvExport)
    (err : UInt32 × List Byte) : (infoLookup tls name svs found err).1 = (lastVisible tls name svs).or found := by
  induction svs generalizing found err with
  | nil => simp [infoLookup, lastVisible]
  | cons sv svs ih =>
    have hl : lastVisible tls name (sv :: svs) = (lastVisible tls name svs).or
        (if visible tls sv && sv.name == name then some sv else none) := by
      unfold lastVisible
      rw [List.reverse_cons, List.find?_append]
      congr 1
      by_cases hp : (visible tls sv && sv.name == name) = true
      · rw [if_pos hp, List.find?_cons, hp]
      · rw [if_neg hp, List.find?_cons]
        simp only [Bool.not_eq_true] at hp
        rw [hp]; rfl
    rw [infoLookup, hl]
    by_cases hn : (sv.name == name) = true
    · rw [if_pos hn]
      by_cases hv : visible tls sv = true
      · rw [if_pos hv, ih, hn, hv]
        cases lastVisible tls name svs <;> simp
      · rw [if_neg hv, ih]
        simp only [Bool.not_eq_true] at hv
        rw [hv]
        cases lastVisible tls name svs <;> simp
    · rw [if_neg hn, ih]
      simp only [Bool.not_eq_true] at hn
      rw [hn]
      cases lastVisible tls name svs <;> simp

theorem optInfo_inp (opt : Nat) (name : List Byte) (requests : List Nat) (rest : List Byte) :
    Spec.optRequest opt (Spec.infoData name requests) ++ rest = toBE 8 0x49484156454F5054 ++ toBE 4 opt ++
      (toBE 4 (name.length + 6 + 2 * requests.length) ++ (toBE 4 name.length ++ (name ++ (toBE 2 requests.length ++
        (requests.flatMap (toBE 2) ++ rest))))) := by
  rw [optRequest_eq]
  have hl : ∀ l : List Nat, (l.flatMap (toBE 2)).length = 2 * l.length := by
    intro l
    induction l with
    | nil => rfl
    | cons a l ih => rw [List.flatMap_cons, List.length_append, ih, toBE_length, List.length_cons]; omega
  have h1 : (Spec.infoData name requests).length = name.length + 6 + 2 * requests.length := by
    unfold Spec.infoData
    simp only [List.length_append, toBE_length, hl]
    omega
  rw [h1]
  unfold Spec.infoData
  simp only [List.append_assoc]

/-- The common start of INFO and GO on a well-formed request. -/
theorem handleInfo_begin {s : NState} {name rest : List Byte} {requests : List Nat} (e : Endian) (env : NEnv)
    (cf : NConf) (opt : Nat) (ho : opt < 2 ^ 32) (ho2 : opt = 6 ∨ opt = 7)
    (hf : s.tls = true ∨ cf.forcedTls = false) (hn : name.length ≤ 4096)
    (hm : env.malloc (name.length + 1) = true) (hr : requests.length < 2 ^ 16)
    (h : s.inp = Spec.optRequest opt (Spec.infoData name requests) ++ rest) :
    oneOption e env cf s = (match infoLookup s.tls (cstr name) s.servers none (REP_ERR_UNKNOWN, ascii "Export unknown") with
    | (none, type, text) => (do
      skip (2 * requests.length)
      sendReply e opt type text : NM Unit)
    | (some sv, _) =>
      if opt = OPT_GO then do
        match ← commitClient env cf sv with
        | none =>
          skip (2 * requests.length)
          sendReply e opt REP_ERR_POLICY (ascii "Access denied by server configuration")
        | some sv =>
          if !(← infoRequests e opt sv requests.length false) then
            sendInfo e opt sv (store16 e (ntohs e (UInt16.ofNat INFO_EXPORT)))
          sendReply e opt REP_ACK []
          NM.stop .serving
      else do
        if !(← infoRequests e opt sv requests.length false) then
          sendInfo e opt sv (store16 e (ntohs e (UInt16.ofNat INFO_EXPORT)))
        sendReply e opt REP_ACK []) (s.heard (requests.flatMap (toBE 2) ++ rest)) := by
  rw [optInfo_inp] at h
  rw [oneOption_begin e env cf opt ho (hf.imp_right .inl) h]
  have hd : dispatch e env cf opt = handleInfo e env cf opt := by
    unfold dispatch
    rcases ho2 with rfl | rfl <;>
      rw [if_neg (by decide), if_neg (by decide), if_neg (by decide), if_neg (by decide), if_pos (by decide)]
  rw [hd]
  unfold handleInfo
  rw [bind_ok (recv32_ok (s := s.heard _) e _ (by omega) rfl), bind_ok (recv32_ok (s := NState.heard _ _) e _ (by omega) rfl)]
  have h1 : ∀ t : NState, infoCheckLen e opt (name.length + 6 + 2 * requests.length) name.length t = .ok () t := by
    intro t
    unfold infoCheckLen
    rw [if_neg (by omega)]; rfl
  have h2 : ∀ t : NState, infoCheckName e opt name.length t = .ok () t := by
    intro t
    unfold infoCheckName
    rw [if_neg (by omega)]; rfl
  have h3 : ∀ (t : NState) (r : List Byte), t.inp = name ++ r → infoName e env opt name.length t = .ok (some (cstr name)) (t.heard r) := by
    intro t r ht
    unfold infoName
    by_cases hz : name.length > 0
    · rw [if_pos hz, Nat.mod_eq_of_lt (by omega), if_pos hm, if_neg (by omega), bind_ok (recv_ok _ ht rfl)]
      rfl
    · have : name = [] := List.eq_nil_of_length_eq_zero (by omega)
      subst this
      rw [if_neg (by simp)]
      simp only [List.nil_append] at ht
      rw [← ht]; rfl
  rw [bind_ok (h1 _), bind_ok (h2 _), bind_ok (h3 _ _ rfl)]
  simp only []
  rw [bind_ok (get_eq _), bind_ok (recv16_ok (s := NState.heard _ _) e _ hr rfl)]
  rfl

theorem store16_zero (e : Endian) : store16 e (ntohs e (UInt16.ofNat INFO_EXPORT)) = toBE 2 0 := by
  rw [store16_htons]; rfl

/-- The replies to a successful INFO or GO: information (at least once), then acknowledgement. -/
def infoAnswer (opt size flags : Nat) (requests : List Nat) : List Byte :=
  infoReplies opt size flags requests ++
    (if requests.any (· = 0) then [] else Spec.optReply opt 3 (Spec.infoExport size flags)) ++ Spec.optReply opt 1 []

theorem infoTail_exact {α : Type} (e : Endian) (opt : Nat) (ho : opt < 2 ^ 32) (sv : SrvExport) (requests : List Nat)
    (hr : ∀ r ∈ requests, r < 2 ^ 16) (rest : List Byte) (s : NState)
    (h : s.inp = requests.flatMap (toBE 2) ++ rest) (k : NM α) :
    (do
      if !(← infoRequests e opt sv requests.length false) then
        sendInfo e opt sv (store16 e (ntohs e (UInt16.ofNat INFO_EXPORT)))
      sendReply e opt REP_ACK []
      k) s = k ((s.heard rest).said (infoAnswer opt s.exportsize (exportFlags sv.flags s.structured) requests)) := by
  rw [bind_ok (infoRequests_exact e opt ho sv requests hr rest s false h), store16_zero]
  simp only [Bool.false_or]
  unfold infoAnswer
  by_cases hany : requests.any (· = 0) = true
  · rw [if_neg (by simpa using hany), if_pos hany, bind_ok (sendReply_eq e opt REP_ACK [] _ ho (by decide)), NState.said_said,
      List.append_nil]
    rfl
  · rw [if_pos (by simp only [Bool.not_eq_true] at hany; rw [hany]; rfl), if_neg hany, bind_ok (sendInfo_exact e opt ho sv _),
      bind_ok (sendReply_eq e opt REP_ACK [] _ ho (by decide)), NState.said_said, NState.said_said]
    simp only [NState.said_exportsize, NState.said_structured, NState.heard_exportsize, NState.heard_structured,
      List.append_assoc]
    rfl

theorem go_exact {s : NState} {name rest : List Byte} {requests : List Nat} (e : Endian) (env : NEnv)
    (cf : NConf) (hf : s.tls = true ∨ cf.forcedTls = false) (hn : name.length ≤ 4096) (h0 : (0 : Byte) ∉ name)
    (hm : env.malloc (name.length + 1) = true) (hl : requests.length < 2 ^ 16) (hr : ∀ r ∈ requests, r < 2 ^ 16)
    (h : s.inp = Spec.optRequest 7 (Spec.infoData name requests) ++ rest)
    (sv : SrvExport) (ex : Export) (hfind : lastVisible s.tls name s.servers = some sv)
    (hin : LetsIn env cf sv s.commits ex) :
    oneOption e env cf s = .stop .serving (((s.heard rest).took sv ex).said
      (infoAnswer 7 ex.exportsize (exportFlags ex.flags s.structured) requests)) := by
  rw [handleInfo_begin e env cf 7 (by decide) (.inr rfl) hf hn hm hl h, cstr_eq h0]
  have hlk := infoLookup_last s.tls name s.servers none (REP_ERR_UNKNOWN, ascii "Export unknown")
  rw [hfind] at hlk
  generalize infoLookup s.tls name s.servers none (REP_ERR_UNKNOWN, ascii "Export unknown") = q at hlk
  obtain ⟨q1, q2, q3⟩ := q
  cases hlk
  simp only [Option.some_or]
  rw [if_pos (by decide), bind_ok (commitClient_exact env cf sv (s.heard (requests.flatMap (toBE 2) ++ rest)) ex hin)]
  simp only []
  rw [infoTail_exact e 7 (by decide) { sv with flags := ex.flags } requests hr rest _ rfl]
  rfl

theorem info_exact {s : NState} {name rest : List Byte} {requests : List Nat} (e : Endian) (env : NEnv)
    (cf : NConf) (hf : s.tls = true ∨ cf.forcedTls = false) (hn : name.length ≤ 4096) (h0 : (0 : Byte) ∉ name)
    (hm : env.malloc (name.length + 1) = true) (hl : requests.length < 2 ^ 16) (hr : ∀ r ∈ requests, r < 2 ^ 16)
    (h : s.inp = Spec.optRequest 6 (Spec.infoData name requests) ++ rest)
    (sv : SrvExport) (hfind : lastVisible s.tls name s.servers = some sv) :
    oneOption e env cf s = .ok () ((s.heard rest).said
      (infoAnswer 6 s.exportsize (exportFlags sv.flags s.structured) requests)) := by
  rw [handleInfo_begin e env cf 6 (by decide) (.inl rfl) hf hn hm hl h, cstr_eq h0]
  have hlk := infoLookup_last s.tls name s.servers none (REP_ERR_UNKNOWN, ascii "Export unknown")
  rw [hfind] at hlk
  generalize infoLookup s.tls name s.servers none (REP_ERR_UNKNOWN, ascii "Export unknown") = q at hlk
  obtain ⟨q1, q2, q3⟩ := q
  cases hlk
  simp only [Option.some_or]
  rw [if_neg (by decide)]
  have := infoTail_exact e 6 (by decide) sv requests hr rest (s.heard (requests.flatMap (toBE 2) ++ rest)) rfl
    (Pure.pure ())
  exact this

/-- A name no visible export has: one error reply. -/
theorem info_unknown_text {s : NState} {name rest : List Byte} {requests : List Nat} (e : Endian) (env : NEnv)
    (cf : NConf) (opt : Nat) (ho2 : opt = 6 ∨ opt = 7)
    (hf : s.tls = true ∨ cf.forcedTls = false) (hn : name.length ≤ 4096) (h0 : (0 : Byte) ∉ name)
    (hm : env.malloc (name.length + 1) = true) (hl : requests.length < 2 ^ 16)
    (h : s.inp = Spec.optRequest opt (Spec.infoData name requests) ++ rest)
    (hfind : lastVisible s.tls name s.servers = none) :
    oneOption e env cf s = .ok () ((s.heard rest).said (
      if s.servers.any (fun sv => !visible s.tls sv && sv.name == name) then
        Spec.optReply opt 0x80000005 (ascii "TLS is required for that export")
      else Spec.optReply opt 0x80000006 (ascii "Export unknown"))) := by
  have ho : opt < 2 ^ 32 := by rcases ho2 with rfl | rfl <;> decide
  rw [handleInfo_begin e env cf opt ho ho2 hf hn hm hl h, cstr_eq h0]
  have hlk := infoLookup_last s.tls name s.servers none (REP_ERR_UNKNOWN, ascii "Export unknown")
  have hlk2 := infoLookup_eq s.tls name s.servers none (REP_ERR_UNKNOWN, ascii "Export unknown")
  rw [hfind] at hlk
  generalize infoLookup s.tls name s.servers none (REP_ERR_UNKNOWN, ascii "Export unknown") = q at hlk hlk2
  obtain ⟨q1, q2, q3⟩ := q
  cases hlk
  simp only [Option.none_or]
  have hlen : ∀ l : List Nat, (l.flatMap (toBE 2)).length = 2 * l.length := by
    intro l
    induction l with
    | nil => rfl
    | cons a l ih => rw [List.flatMap_cons, List.length_append, ih, toBE_length, List.length_cons]; omega
  rw [bind_ok (skip_ok (s := s.heard _) (a := requests.flatMap (toBE 2)) (rest := rest) _ rfl (hlen _))]
  by_cases hany : s.servers.any (fun sv => !visible s.tls sv && sv.name == name) = true
  · rw [if_pos hany] at hlk2 ⊢
    simp only [Prod.mk.injEq] at hlk2
    obtain ⟨_, rfl, rfl⟩ := hlk2
    exact sendReply_eq e opt REP_ERR_TLS_REQD _ _ ho (by rw [ascii_length]; decide)
  · rw [if_neg hany] at hlk2 ⊢
    simp only [Prod.mk.injEq] at hlk2
    obtain ⟨_, rfl, rfl⟩ := hlk2
    exact sendReply_eq e opt REP_ERR_UNKNOWN _ _ ho (by rw [ascii_length]; decide)

theorem info_unknown {s : NState} {name rest : List Byte} {requests : List Nat} (e : Endian) (env : NEnv)
    (cf : NConf) (opt : Nat) (ho2 : opt = 6 ∨ opt = 7)
    (hf : s.tls = true ∨ cf.forcedTls = false) (hn : name.length ≤ 4096) (h0 : (0 : Byte) ∉ name)
    (hm : env.malloc (name.length + 1) = true) (hl : requests.length < 2 ^ 16)
    (h : s.inp = Spec.optRequest opt (Spec.infoData name requests) ++ rest)
    (hfind : lastVisible s.tls name s.servers = none) :
    ∃ text, oneOption e env cf s = .ok () ((s.heard rest).said (Spec.optReply opt
      (if s.servers.any (fun sv => !visible s.tls sv && sv.name == name) then 0x80000005 else 0x80000006) text)) := by
  rw [info_unknown_text e env cf opt ho2 hf hn h0 hm hl h hfind]
  split
  · exact ⟨_, rfl⟩
  · exact ⟨_, rfl⟩

/-- The greeting. -/
theorem greet_exact {s : NState} {rest : List Byte} (e : Endian) (cflags : Nat) (hc : cflags < 2 ^ 32)
    (h : s.inp = toBE 4 cflags ++ rest) :
    greet e s = .ok () (({ s.heard rest with noZeroes := s.noZeroes || has cflags 2 } : NState).said
      (INIT_PASSWD ++ toBE 8 0x49484156454F5054 ++ toBE 2 3)) := by
  unfold greet
  have h1 : store64 e (ntohll e OPTS_MAGIC) = toBE 8 0x49484156454F5054 := by rw [store64_htonll]; rfl
  have h2 : store16 e (ntohs e (GFLAG_FIXED_NEWSTYLE ||| GFLAG_NO_ZEROES)) = toBE 2 3 := by rw [store16_htons]; rfl
  rw [h1, h2, bind_ok (send_eq _ _), bind_ok (send_eq _ _), bind_ok (send_eq _ _), NState.said_said, NState.said_said,
    bind_ok (recv32_ok e cflags hc (by simpa using h)), ← NState.heard_said]
  cases hz : has cflags C_NO_ZEROES with
  | true =>
    have hz2 : has cflags 2 = true := hz
    rw [if_pos rfl, modify_eq, hz2, Bool.or_true]
    simp only [NState.said, NState.heard]
    rcases Bool.eq_false_or_eq_true s.tls with ht | ht <;> simp [ht]
  | false =>
    have hz2 : has cflags 2 = false := hz
    rw [if_neg (by decide), hz2, Bool.or_false]
    simp only [NState.said, NState.heard]
    rcases Bool.eq_false_or_eq_true s.tls with ht | ht <;> simp [pure_eq, ht]

/-- Starting TLS. -/
theorem starttls_exact {s : NState} {rest i : List Byte} (e : Endian) (env : NEnv) (cf : NConf)
    (hk : cf.keyfile = true) (hs : s.tls = false) (h : s.inp = Spec.optRequest 5 [] ++ rest) (hi : s.tlsIn = some i) :
    oneOption e env cf s = .ok () { s with
      plainOut := s.plainOut ++ Spec.optReply 5 1 [], tls := true, inp := i, tlsIn := none, server := none,
      structured := false } := by
  rw [optRequest_eq] at h
  rw [oneOption_begin e env cf 5 (by decide) (.inr (.inr rfl)) h]
  unfold dispatch
  rw [if_neg (by decide), if_neg (by decide), if_neg (by decide), if_pos (by decide), bind_ok (get_eq _),
    if_neg (by simp [hs]), if_neg (by simp [hk])]
  show handleStarttls e (s.heard (toBE 4 0 ++ rest)) = _
  unfold handleStarttls
  rw [bind_ok (recv_ok (s := s.heard _) (a := toBE 4 0) (rest := rest) 4 rfl rfl)]
  have hl : load e (toBE 4 0) = 0 := by cases e <;> decide
  simp only [hl]
  rw [if_neg (by decide), bind_ok (sendReply_eq e OPT_STARTTLS REP_ACK [] _ (by decide) (by decide)), bind_ok (get_eq _)]
  simp only [NState.said_tlsIn, NState.heard_tlsIn, hi]
  rw [modify_eq]
  simp only [NState.said, NState.heard, hs]
  rfl

/-! ### Framing -/

/-- After `m`, `rest` is what is left to read, unless TLS started or negotiation failed. -/
structure LeavesIn (rest : List Byte) (m : NM Unit) (s : NState) : Prop where
  h : match m s with
    | .ok _ s' => s'.tls = s.tls → s'.inp = rest
    | .stop r s' => r = .serving → s'.inp = rest

theorem leaves_ok {rest : List Byte} {r : NRes Unit} {s : NState} (h : ∃ t', r = .ok () t' ∧ t'.inp = rest) :
    match (generalizing := false) r with
    | .ok _ s' => s'.tls = s.tls → s'.inp = rest
    | .stop r s' => r = .serving → s'.inp = rest := by
  obtain ⟨t', rfl, h⟩ := h
  exact fun _ => h

theorem info_leaves {s : NState} {name rest : List Byte} {requests : List Nat} (e : Endian) (env : NEnv)
    (cf : NConf) (opt : Nat) (ho2 : opt = 6 ∨ opt = 7)
    (hf : s.tls = true ∨ cf.forcedTls = false) (hn : name.length ≤ 4096)
    (hm : env.malloc (name.length + 1) = true) (hl : requests.length < 2 ^ 16) (hr : ∀ r ∈ requests, r < 2 ^ 16)
    (h : s.inp = Spec.optRequest opt (Spec.infoData name requests) ++ rest) :
    LeavesIn rest (oneOption e env cf) s := by
  have ho : opt < 2 ^ 32 := by rcases ho2 with rfl | rfl <;> decide
  refine ⟨?_⟩
  rw [handleInfo_begin e env cf opt ho ho2 hf hn hm hl h]
  have hlen : ∀ l : List Nat, (l.flatMap (toBE 2)).length = 2 * l.length := by
    intro l
    induction l with
    | nil => rfl
    | cons a l ih => rw [List.flatMap_cons, List.length_append, ih, toBE_length, List.length_cons]; omega
  have hskip : ∀ (t : NState) (type : UInt32) (text : List Byte), t.inp = requests.flatMap (toBE 2) ++ rest →
      ∃ t' : NState, (do skip (2 * requests.length); sendReply e opt type text : NM Unit) t = .ok () t' ∧ t'.inp = rest := by
    intro t type text ht
    rw [bind_ok (skip_ok (rest := rest) _ ht (hlen _))]
    exact ⟨_, send_eq _ _, by simp⟩
  cases hq : infoLookup s.tls (cstr name) s.servers none (REP_ERR_UNKNOWN, ascii "Export unknown") with
  | mk q q' =>
    obtain ⟨q1, q2⟩ := q'
    cases q with
    | none =>
      obtain ⟨t', h1, h2⟩ := hskip (s.heard (requests.flatMap (toBE 2) ++ rest)) q1 q2 rfl
      simp only []
      rw [h1]
      exact fun _ => h2
    | some sv =>
      simp only []
      by_cases hgo : opt = OPT_GO
      · rw [if_pos hgo, bind_eq]
        have hc := (commitClient_spec env cf sv (s.heard (requests.flatMap (toBE 2) ++ rest))).h _ rfl
        cases hcc : commitClient env cf sv (s.heard (requests.flatMap (toBE 2) ++ rest)) with
        | stop r s' => rw [hcc] at hc; exact fun hr => absurd hr hc.2
        | ok r s' =>
          rw [hcc] at hc
          cases r with
          | none =>
            obtain ⟨t', h1, h2⟩ := hskip s' REP_ERR_POLICY (ascii "Access denied by server configuration") hc.1.inp
            simp only []
            rw [h1]
            exact fun _ => h2
          | some sv' =>
            simp only []
            rw [infoTail_exact e opt ho sv' requests hr rest s' hc.1.inp]
            intro _
            simp
      · rw [if_neg hgo]
        have := infoTail_exact e opt ho sv requests hr rest (s.heard (requests.flatMap (toBE 2) ++ rest)) rfl
          (Pure.pure () : NM Unit)
        exact leaves_ok ⟨_, this, by simp⟩

end Nbd
