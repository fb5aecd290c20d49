import Verif.Props.FirstByte
import Verif.Parent
/-! # C102: a name stands for one export -/
set_option autoImplicit false

namespace Nbd.Spec
open Nbd

/-- The sections of the configuration that describe exports: those of the main file after `[generic]`, and those of the regular
files `*.conf` in the directory that `includedir` names. -/
def exportSections (disk : Disk) (g : KGroup) (gs : List KGroup) : List KGroup :=
  match g.str (ascii "includedir") with
  | .ok dir => gs ++ (((disk.dir dir).getD []).filter fun d =>
      d.regular == some true && (ascii ".conf").isSuffixOf d.name).flatMap fun d => d.groups.getD []
  | _ => gs

/-- The table of exports as a connection sees it. -/
def offers (ss : List Srv) : List SrvExport := ss.mapIdx offered

/-- A parent that has this table, none of it given back. Its counters are arbitrary. -/
structure Holds (p : Parent) (ss : List Srv) : Prop where
  table : p.table = List.range ss.length
  srv : p.heap.map (·.srv) = ss
  live : ∀ o ∈ p.heap, o.freed = false

end Nbd.Spec

namespace Nbd.Props
open Nbd Nbd.Spec

theorem each_names {b : Build} {gs : List KGroup} {ss : List Srv} (h : Each (fun g s => parseExport b g = some s) gs ss) :
    ss.map (·.servename) = gs.map fun g => some g.name := by
  induction h with
  | nil => rfl
  | cons h _ ih => rw [List.map_cons, List.map_cons, ih, (C50_fields h).2.2.2.2.2.2.2.1]

/-- The names in the table are the names of the sections, in order. -/
theorem table_names {b : Build} {disk : Disk} {c conf : GenConf} {ss : List Srv} {e : Bool} {g : KGroup} {gs : List KGroup}
    (hm : disk.main = some (g :: gs)) (hstat : ∀ dir es, disk.dir dir = some es → ∀ d ∈ es, d.regular ≠ none)
    (h : parseCfile b disk (some c) = .ok ss conf e) :
    ss.map (·.servename) = (exportSections disk g gs).map fun g => some g.name := by
  have h2 := (C62_include b disk c conf ss e g gs hm hstat h).2
  unfold exportSections
  cases hg : g.str (ascii "includedir") with
  | ok dir =>
    rw [hg] at h2
    obtain ⟨es, hes, he, _⟩ := h2
    simp only [hes, Option.getD_some]
    exact each_names he
  | _ => rw [hg] at h2; exact each_names h2

/-- Distinct names: an entry of the table is found by its name. -/
theorem distinct_at {ss : List Srv} {ns : List (List Byte)} (hn : ss.map (·.servename) = ns.map some) (hd : ns.Nodup)
    {i j : Nat} {t u : Srv} (hi : ss[i]? = some t) (hj : ss[j]? = some u) (h : t.servename = u.servename) : i = j := by
  have hi' : (ns.map some)[i]? = some t.servename := by rw [← hn, List.getElem?_map, hi]; rfl
  have hj' : (ns.map some)[j]? = some u.servename := by rw [← hn, List.getElem?_map, hj]; rfl
  rw [List.getElem?_map] at hi' hj'
  cases hx : ns[i]? with
  | none => rw [hx] at hi'; cases hi'
  | some x =>
    cases hy : ns[j]? with
    | none => rw [hy] at hj'; cases hj'
    | some y =>
      rw [hx] at hi'; rw [hy] at hj'
      simp only [Option.map_some, Option.some.injEq] at hi' hj'
      have hxy : x = y := Option.some.inj (hi'.trans (h.trans hj'.symm))
      subst hxy
      obtain ⟨h1, h1'⟩ := List.getElem?_eq_some_iff.mp hx
      exact (List.getElem?_inj h1 hd).mp (hx.trans hy.symm)

theorem findName_at {h : List Obj} {name : List Byte} {i : Nat} {o : Obj} (hlive : ∀ o ∈ h, o.freed = false)
    (hnamed : ∀ o ∈ h, o.srv.servename ≠ none) (hi : h[i]? = some o) (hn : o.srv.servename = some name)
    (hu : ∀ j u, h[j]? = some u → u.srv.servename = some name → j = i) (is : List Nat) (hin : ∀ j ∈ is, j < h.length)
    (hmem : i ∈ is) : findName h name is = .val (some i) := by
  induction is with
  | nil => cases hmem
  | cons j js ih =>
    have hj : h[j]? = some (h[j]'(hin j (by simp))) := List.getElem?_eq_getElem (hin j (by simp))
    have hdr : deref h j = .val (h[j]'(hin j (by simp))) := by
      unfold deref
      rw [hj]
      simp only [hlive _ (List.mem_of_getElem? hj)]
      rfl
    unfold findName
    rw [hdr]
    simp only []
    cases hs : (h[j]'(hin j (by simp))).srv.servename with
    | none => exact absurd hs (hnamed _ (List.mem_of_getElem? hj))
    | some n =>
      simp only []
      by_cases hnn : n = name
      · rw [if_pos hnn]
        rw [hu j _ hj (by rw [hs, hnn])]
      · rw [if_neg hnn]
        refine ih (fun k hk => hin k (by simp [hk])) ?_
        rcases List.mem_cons.mp hmem with h1 | h1
        · subst h1
          rw [hi] at hj
          cases hj
          rw [hn] at hs
          cases hs
          exact absurd rfl hnn
        · exact h1

/-- **C102** (partial: the sections of all the files together have different names - within one file GLib merges sections of the same
name, across files nothing does, `C102_false`). Whichever of the two ways of choosing an export a client uses, a name gives it the
same export - the one of the section with that name, with the flags, the size and the files of that section - and it is that
export's connection limit the parent applies and that export's connections it counts. -/
theorem C102_one_name_partial (b : Build) (disk : Disk) (c conf : GenConf) (ss : List Srv) (er : Bool) (g : KGroup)
    (gs : List KGroup) (hm : disk.main = some (g :: gs))
    (hstat : ∀ dir es, disk.dir dir = some es → ∀ d ∈ es, d.regular ≠ none)
    (h : parseCfile b disk (some c) = .ok ss conf er) (hd : ((exportSections disk g gs).map (·.name)).Nodup)
    (i : Nat) (t : Srv) (name : List Byte) (hi : ss[i]? = some t) (hname : t.servename = some name) :
    (∀ (e : Endian) (env : NEnv) (cf : NConf) (s : NState) (rest : List Byte) (ex : Export), s.servers = offers ss →
      (s.tls = true ∨ cf.forcedTls = false) → (s.tls = true ∨ has t.flags F_FORCEDTLS = false) →
      name.length ≤ 4096 → (0 : Byte) ∉ name → env.malloc (name.length + 1) = true →
      LetsIn env cf (offered i t) s.commits ex →
      (s.inp = optRequest 1 name ++ rest → ∃ s', oneOption e env cf s = .stop .serving s' ∧
        s'.server = some { offered i t with flags := ex.flags } ∧ s'.ex = some ex) ∧
      (∀ requests : List Nat, requests.length < 2 ^ 16 → (∀ r ∈ requests, r < 2 ^ 16) →
        s.inp = optRequest 7 (infoData name requests) ++ rest → ∃ s', oneOption e env cf s = .stop .serving s' ∧
          s'.server = some { offered i t with flags := ex.flags } ∧ s'.ex = some ex)) ∧
    (∀ (p : Parent) (o : Obj), Holds p ss → p.heap[i]? = some o →
      handleChildname p name =
        if t.maxConn = 0 ∨ o.num < t.maxConn then .val (89, { p with heap := p.heap.set i { o with num := o.num + 1 } })
        else .val (78, p)) := by
  have hns := table_names hm hstat h
  have hmm : ((exportSections disk g gs).map fun g => some g.name) = ((exportSections disk g gs).map (·.name)).map some := by
    rw [List.map_map]; rfl
  rw [hmm] at hns
  have hdis := fun {i j t u} => distinct_at (i := i) (j := j) (t := t) (u := u) hns hd
  have hsome : ∀ u ∈ ss, u.servename ≠ none := by
    intro u hu hn
    have : u.servename ∈ ss.map (·.servename) := List.mem_map.mpr ⟨u, hu, rfl⟩
    rw [hns] at this
    obtain ⟨x, _, hx⟩ := List.mem_map.mp this
    rw [hn] at hx
    cases hx
  refine ⟨?_, ?_⟩
  · intro e env cf s rest ex hs hf hv hl h0 hma hin
    have hnamed : Spec.Named s.tls s.servers name (offered i t) := by
      rw [hs]
      refine ⟨?_, ?_, ?_, ?_⟩
      · unfold offers
        rw [List.mem_mapIdx]
        obtain ⟨h1, h2⟩ := List.getElem?_eq_some_iff.mp hi
        exact ⟨i, h1, by rw [h2]⟩
      · unfold offered; rw [hname]; rfl
      · rcases hv with h1 | h1
        · exact .inl h1
        · refine .inr ?_
          unfold TlsOnly offered
          rw [h1]
          exact fun h => nomatch h
      · intro x hx hxn
        unfold offers at hx
        rw [List.mem_mapIdx] at hx
        obtain ⟨j, hj, rfl⟩ := hx
        have hje : ss[j]? = some ss[j] := List.getElem?_eq_getElem hj
        cases hsn : ss[j].servename with
        | none => exact absurd hsn (hsome _ (List.mem_of_getElem? hje))
        | some m =>
          unfold offered at hxn
          rw [hsn] at hxn
          have hmn : m = name := hxn
          have hij := hdis hi hje (by rw [hname, hsn, hmn])
          subst hij
          rw [hi] at hje
          cases hje
          rfl
    refine ⟨fun hinp => ?_, fun requests hr1 hr2 hinp => ?_⟩
    · exact ⟨_, exportName_exact e env cf hf hl h0 hinp _ ex (find_named hnamed) hin, by rw [NState.said_server]; rfl, by rw [NState.said_ex]; rfl⟩
    · exact ⟨_, go_exact e env cf hf hl h0 hma hr1 hr2 hinp _ ex (last_named hnamed) hin, by rw [NState.said_server]; rfl, by rw [NState.said_ex]; rfl⟩
  · intro p o hp ho
    have hsrv : ∀ (j : Nat) (u : Obj), p.heap[j]? = some u → ss[j]? = some u.srv := by
      intro j u hu
      rw [← hp.srv, List.getElem?_map, hu]
      rfl
    have hot : o.srv = t := by
      have := hsrv i o ho
      rw [hi] at this
      exact (Option.some.inj this).symm
    have hlen : p.heap.length = ss.length := by rw [← hp.srv, List.length_map]
    have hfind : findName p.heap name p.table = .val (some i) := by
      refine findName_at hp.live ?_ ho (by rw [hot, hname]) ?_ _ ?_ ?_
      · intro u hu
        apply hsome
        rw [← hp.srv]
        exact List.mem_map.mpr ⟨u, hu, rfl⟩
      · intro j u hu hun
        exact hdis (hsrv j u hu) hi (by rw [hun, hname])
      · intro j hj
        rw [hp.table, List.mem_range] at hj
        omega
      · rw [hp.table, List.mem_range]
        exact (List.getElem?_eq_some_iff.mp hi).1
    unfold handleChildname
    rw [hfind]
    have hdr : deref p.heap i = .val o := by
      unfold deref
      rw [ho]
      simp only [hp.live o (List.mem_of_getElem? ho)]
      rfl
    simp only [hdr, hot]

/-! ### A configuration with two files -/

/-- `[x]` with these settings. -/
def nameSection (file : String) (ro : Bool) (maxc : Option Int) : KGroup where
  name := ascii "x"
  str := fun k => if k = ascii "exportname" then .ok (ascii file) else .missing
  int := fun k => match maxc with
    | some n => if k = ascii "maxconnections" then .ok n else .missing
    | none => .missing
  int64 := fun _ => .missing
  bool := fun k => if k = ascii "readonly" then .ok ro else .missing

def incGeneric : KGroup := { demoGeneric with str := fun k => if k = ascii "includedir" then .ok (ascii "/d") else .missing }

/-- The directory holds two files, each with a section `[x]`: the first read-only and for one client, the second neither. -/
def twoFiles : Disk where
  main := some [incGeneric]
  dir := fun _ => some [⟨ascii "a.conf", some true, some [nameSection "/a" true (some 1)]⟩,
    ⟨ascii "b.conf", some true, some [nameSection "/b" false none]⟩]

/-- The table it gives. -/
def twoTable : List Srv :=
  [{ exportname := some (ascii "/a"), flags := F_READONLY, virtstyle := .iplit, servename := some (ascii "x"), maxConn := 1 },
   { exportname := some (ascii "/b"), flags := 0, virtstyle := .iplit, servename := some (ascii "x") }]

/-- The parent after the start. -/
def twoParent : Parent := { heap := newObjs twoTable, table := List.range 2 }

theorem two_parsed : parseCfile ⟨false, false⟩ twoFiles (some {}) = .ok twoTable {} false := by decide +kernel

/-- **C102 is false for names used in two files.** Each of the two files has one section, `[x]`; the server starts. A client that
asks for `x` with EXPORT_NAME is given the first export, `/a`, which is read-only; a client that asks with GO is given the second,
`/b`, which can be written to. The parent applies the limit of the first, one client, and counts its connections, to both: while
one client is connected to `/a`, nobody can connect to `/b`, which has no limit. -/
theorem C102_false : ∃ (disk : Disk) (ss : List Srv) (p p' : Parent),
    (∀ dir es, disk.dir dir = some es → ∀ d ∈ es, ((d.groups.getD []).map (·.name)).Nodup) ∧
    parseCfile ⟨false, false⟩ disk (some {}) = .ok ss {} false ∧
    startParent (.ok ss {} false) none = some p ∧
    (session .little NDemo.env NDemo.cf 9 (offers ss) false (toBE 4 3 ++ optRequest 1 (ascii "x")) none).1 = .serving ∧
    (session .little NDemo.env NDemo.cf 9 (offers ss) false (toBE 4 3 ++ optRequest 1 (ascii "x")) none).2.server =
      some ⟨0, ascii "x", F_READONLY, 0⟩ ∧
    (session .little NDemo.env NDemo.cf 9 (offers ss) false (toBE 4 3 ++ optRequest 7 (infoData (ascii "x") [])) none).1 = .serving ∧
    (session .little NDemo.env NDemo.cf 9 (offers ss) false (toBE 4 3 ++ optRequest 7 (infoData (ascii "x") [])) none).2.server =
      some ⟨1, ascii "x", 0, 0⟩ ∧
    (ss.map (·.exportname) = [some (ascii "/a"), some (ascii "/b")] ∧ ss.map (·.maxConn) = [1, 0]) ∧
    handleChildname p (ascii "x") = .val (89, p') ∧ handleChildname p' (ascii "x") = .val (78, p') := by
  refine ⟨twoFiles, twoTable, twoParent, { twoParent with heap := (newObjs twoTable).modify 0 (fun o => { o with num := 1 }) },
    ?_, two_parsed, by decide +kernel, by decide +kernel, by decide +kernel, by decide +kernel, by decide +kernel,
    by decide +kernel, by decide +kernel, by decide +kernel⟩
  intro dir es h d hd
  simp only [twoFiles, Option.some.injEq] at h
  subst h
  simp only [List.mem_cons, List.not_mem_nil, or_false] at hd
  rcases hd with rfl | rfl <;> decide

/-- A configuration that meets the hypotheses of `C102_one_name_partial`: an include directory with a file. -/
example : ∃ ss, parseCfile ⟨false, false⟩ demoDisk (some {}) = .ok ss {} false ∧
    ((exportSections demoDisk { demoGeneric with str := fun k => if k = ascii "includedir" then .ok (ascii "/d") else .missing }
      []).map (·.name)).Nodup ∧
    (∃ t, ss[0]? = some t ∧ t.servename = some (ascii "x") ∧ has t.flags F_FORCEDTLS = false ∧
      ∃ ex, LetsIn NDemo.env NDemo.cf (offered 0 t) 0 ex) ∧
    Holds { heap := newObjs ss, table := List.range ss.length } ss := by
  have h : parseCfile ⟨false, false⟩ demoDisk (some {}) = .ok [{ exportname := some (ascii "/x"), listenaddr := some (ascii "(null)"), authname := some defaultAuth, flags := 1, virtstyle := .iplit, servename := some (ascii "x") }] {} false := by decide +kernel
  refine ⟨_, h, by decide +kernel, ⟨_, rfl, rfl, by decide, ?_⟩, rfl, rfl, ?_⟩
  · refine ⟨_, .inr ⟨rfl, 89, rfl, by decide, by decide⟩, rfl, rfl, rfl, rfl, rfl, rfl⟩
  · intro o ho
    simp only [newObjs, List.map_cons, List.map_nil, List.mem_singleton] at ho
    rw [ho]

end Nbd.Props
