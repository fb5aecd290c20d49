import Verif.Startup
import Verif.Props.Nego
/-!
# Properties of starting the server: C68, C74, C75, C76

`start os conf nodaemon pidfname p` is what a process `p` does once the configuration `conf` has been read: `os` are the answers of the
operating system, about which nothing is assumed unless a theorem says so.
-/

set_option autoImplicit false

namespace Nbd.Spec

/-- The characters that separate names in `listenaddr`: comma, blank, tab. -/
def IsSep (b : Byte) : Prop := b = 44 ∨ b = 32 ∨ b = 9

instance (b : Byte) : Decidable (IsSep b) := by unfold IsSep; infer_instance

/-- `name` is one of the names in a list of names: a longest stretch without separators. -/
def Listed (list name : List Byte) : Prop :=
  name ≠ [] ∧ (∀ b ∈ name, ¬ IsSep b) ∧ ∃ pre post, list = pre ++ name ++ post ∧
    (∀ b, pre.getLast? = some b → IsSep b) ∧ (∀ b, post.head? = some b → IsSep b)

/-- nbd-server(5), `listenaddr`: what it says, or "::, 0.0.0.0" if it is not set. -/
def listenList (conf : GenConf) : List Byte :=
  if conf.modernaddr = none ∨ conf.modernaddr = some [] then ascii "::, 0.0.0.0" else conf.modernaddr.getD []

/-- nbd-server(5), `port`: what it says, or 10809. -/
def portOf (conf : GenConf) : List Byte := conf.modernport.getD (ascii "10809")

/-- nbd-server(5), `unixsock` and `duallisten`: does the configuration ask for TCP sockets? -/
def WantsTcp (conf : GenConf) : Prop := conf.unixsock = none ∨ conf.flags.testBit 3 = true

/-- The sockets the configuration asks for. -/
def Wanted (os : Os) (conf : GenConf) (a : SockAddr) : Prop :=
  (∃ path, conf.unixsock = some path ∧ a = .unix path) ∨
  (WantsTcp conf ∧ ∃ name l, Listed (listenList conf) name ∧ os.resolve name (portOf conf) = some l ∧ a ∈ l)

/-- The server gets to the point where it talks to clients, as process `p`. -/
def Serves (e : StartEnd) (p : Proc) : Prop := e = .serving p ∨ e = .inetd p

/-- A process that was just started. -/
structure JustStarted (p : Proc) : Prop where
  listening : p.listening = []
  pidFile : p.pidFile = none
  status : p.status = none
  streams : ∀ i, i < 3 → ∃ o, p.fds[i]? = some (some o)

end Nbd.Spec

namespace Nbd.Props

open Nbd.Spec

/-! ### The list of addresses -/

theorem splitSet_spec (s : List Byte) : ∃ h t, splitSet s = h :: t ∧ (∀ b ∈ h, ¬ IsSep b) ∧
    (∃ post, s = h ++ post ∧ ∀ b, post.head? = some b → IsSep b) ∧
    ∀ x ∈ t, (∀ b ∈ x, ¬ IsSep b) ∧ ∃ pre post, s = pre ++ x ++ post ∧ pre ≠ [] ∧
      (∀ b, pre.getLast? = some b → IsSep b) ∧ (∀ b, post.head? = some b → IsSep b) := by
  induction s with
  | nil => exact ⟨[], [], rfl, by simp, ⟨[], rfl, by simp⟩, by simp⟩
  | cons b bs ih =>
    obtain ⟨h, t, h1, h2, ⟨post, h3, h3'⟩, h4⟩ := ih
    have ht : ∀ x ∈ t, (∀ b ∈ x, ¬ IsSep b) ∧ ∃ pre post, b :: bs = pre ++ x ++ post ∧ pre ≠ [] ∧
        (∀ b, pre.getLast? = some b → IsSep b) ∧ (∀ b, post.head? = some b → IsSep b) := by
      intro x hx
      obtain ⟨k1, pre, post, k2, k3, k4, k5⟩ := h4 x hx
      refine ⟨k1, b :: pre, post, by rw [k2]; rfl, by simp, ?_, k5⟩
      intro c hc
      refine k4 c ?_
      rw [← hc]
      cases pre with
      | nil => exact absurd rfl k3
      | cons x xs => rw [List.getLast?_cons_cons]
    by_cases hb : b = 44 ∨ b = 32 ∨ b = 9
    · refine ⟨[], splitSet bs, by rw [splitSet, if_pos hb], by simp, ⟨b :: bs, rfl, ?_⟩, ?_⟩
      · intro c hc; cases hc; exact hb
      · intro x hx
        rw [h1] at hx
        rcases List.mem_cons.mp hx with rfl | hx
        · exact ⟨h2, [b], post, by rw [h3]; rfl, by simp, by intro c hc; cases hc; exact hb, h3'⟩
        · exact ht x hx
    · refine ⟨b :: h, t, by rw [splitSet, if_neg hb, h1], ?_, ⟨post, by rw [h3]; rfl, h3'⟩, ht⟩
      intro c hc
      rcases List.mem_cons.mp hc with rfl | hc
      · exact hb
      · exact h2 c hc

theorem splitSet_head {name post : List Byte} (hn : ∀ b ∈ name, ¬ IsSep b) (hp : ∀ b, post.head? = some b → IsSep b) :
    ∃ t, splitSet (name ++ post) = name :: t := by
  induction name with
  | nil =>
    cases post with
    | nil => exact ⟨[], rfl⟩
    | cons b bs =>
      have hb : b = 44 ∨ b = 32 ∨ b = 9 := hp b rfl
      exact ⟨splitSet bs, by rw [List.nil_append, splitSet, if_pos hb]⟩
  | cons c cs ih =>
    obtain ⟨t, ht⟩ := ih (fun b hb => hn b (List.mem_cons_of_mem _ hb))
    refine ⟨t, ?_⟩
    have hc : ¬ (c = 44 ∨ c = 32 ∨ c = 9) := hn c List.mem_cons_self
    rw [List.cons_append, splitSet, if_neg hc, ht]

theorem splitSet_tail {name post : List Byte} (hn : ∀ b ∈ name, ¬ IsSep b) (hp : ∀ b, post.head? = some b → IsSep b) :
    ∀ pre : List Byte, pre ≠ [] → (∀ b, pre.getLast? = some b → IsSep b) → name ∈ (splitSet (pre ++ name ++ post)).tail := by
  intro pre
  induction pre with
  | nil => intro h; exact absurd rfl h
  | cons c cs ih =>
    intro _ hl
    cases cs with
    | nil =>
      obtain ⟨t, ht⟩ := splitSet_head hn hp
      have hc : c = 44 ∨ c = 32 ∨ c = 9 := hl c rfl
      rw [show [c] ++ name ++ post = c :: (name ++ post) from rfl, splitSet, if_pos hc, ht]
      exact List.mem_cons_self
    | cons d ds =>
      have := ih (by simp) (fun b hb => hl b (by rw [List.getLast?_cons_cons]; exact hb))
      rw [show (c :: d :: ds) ++ name ++ post = c :: ((d :: ds) ++ name ++ post) from rfl, splitSet]
      obtain ⟨h, t, h1, _⟩ := splitSet_spec ((d :: ds) ++ name ++ post)
      rw [h1] at this ⊢
      split
      · exact List.mem_cons_of_mem _ this
      · exact this

/-- The pieces that are not empty are the names of the list. -/
theorem splitSet_listed (list name : List Byte) : (name ∈ splitSet list ∧ name ≠ []) ↔ Listed list name := by
  constructor
  · rintro ⟨hm, hne⟩
    obtain ⟨h, t, h1, h2, ⟨post, h3, h3'⟩, h4⟩ := splitSet_spec list
    rw [h1] at hm
    rcases List.mem_cons.mp hm with rfl | hm
    · exact ⟨hne, h2, [], post, by rw [List.nil_append]; exact h3, by simp, h3'⟩
    · obtain ⟨k1, pre, post, k2, _, k4, k5⟩ := h4 name hm
      exact ⟨hne, k1, pre, post, k2, k4, k5⟩
  · rintro ⟨hne, hn, pre, post, rfl, hl, hp⟩
    refine ⟨?_, hne⟩
    cases pre with
    | nil =>
      obtain ⟨t, ht⟩ := splitSet_head hn hp
      rw [List.nil_append, ht]
      exact List.mem_cons_self
    | cons c cs => exact List.mem_of_mem_tail (splitSet_tail hn hp (c :: cs) (by simp) hl)

/-! ### Opening sockets -/

theorem openList_spec (os : Os) (l : List SockAddr) : ∀ socks r, openList os l socks = some r →
    (∀ a ∈ socks, a ∈ r) ∧ (∀ a ∈ r, a ∈ socks ∨ a ∈ l) ∧
    (∀ a ∈ l, a ∈ r ∨ ∃ s, s ≠ [] ∧ os.attempt s a = .bindErr 98) := by
  induction l with
  | nil =>
    intro socks r h
    cases h
    exact ⟨fun a h => h, fun a h => .inl h, by simp⟩
  | cons x xs ih =>
    intro socks r h
    rw [openList] at h
    cases ha : os.attempt socks x with
    | done =>
      rw [ha] at h
      obtain ⟨h1, h2, h3⟩ := ih _ _ h
      refine ⟨fun a h => h1 a (List.mem_append_left _ h), ?_, ?_⟩
      · intro a har
        rcases h2 a har with h | h
        · rcases List.mem_append.mp h with h | h
          · exact .inl h
          · rw [List.mem_singleton.mp h]; exact .inr List.mem_cons_self
        · exact .inr (List.mem_cons_of_mem _ h)
      · intro a hax
        rcases List.mem_cons.mp hax with rfl | hax
        · exact .inl (h1 a (List.mem_append_right _ List.mem_cons_self))
        · exact h3 a hax
    | bindErr e =>
      rw [ha] at h
      simp only [] at h
      split at h
      · rename_i he
        obtain ⟨h1, h2, h3⟩ := ih _ _ h
        refine ⟨h1, ?_, ?_⟩
        · intro a har
          rcases h2 a har with h | h
          · exact .inl h
          · exact .inr (List.mem_cons_of_mem _ h)
        · intro a hax
          rcases List.mem_cons.mp hax with rfl | hax
          · exact .inr ⟨socks, he.2, by rw [ha, he.1]; rfl⟩
          · exact h3 a hax
      · cases h
    | noSocket => rw [ha] at h; cases h
    | noOption => rw [ha] at h; cases h
    | listenErr => rw [ha] at h; cases h

theorem openModernLoop_spec (os : Os) (port : List Byte) (ps : List (List Byte)) : ∀ socks r,
    openModernLoop os port ps socks = some r →
    (∀ a ∈ socks, a ∈ r) ∧
    (∀ a ∈ r, a ∈ socks ∨ ∃ name ∈ ps, name ≠ [] ∧ ∃ l, os.resolve name port = some l ∧ a ∈ l) ∧
    (∀ name ∈ ps, name ≠ [] → ∀ l, os.resolve name port = some l → ∀ a ∈ l,
      a ∈ r ∨ ∃ s, s ≠ [] ∧ os.attempt s a = .bindErr 98) := by
  induction ps with
  | nil =>
    intro socks r h
    cases h
    exact ⟨fun a h => h, fun a h => .inl h, by simp⟩
  | cons x xs ih =>
    intro socks r h
    rw [openModernLoop] at h
    have hskip : ∀ socks', openModernLoop os port xs socks' = some r → (∀ a ∈ socks, a ∈ socks') →
        (∀ a ∈ socks', a ∈ socks ∨ ∃ l, x ≠ [] ∧ os.resolve x port = some l ∧ a ∈ l) →
        (x ≠ [] → ∀ l, os.resolve x port = some l → ∀ a ∈ l, a ∈ socks' ∨ ∃ s, s ≠ [] ∧ os.attempt s a = .bindErr 98) →
        (∀ a ∈ socks, a ∈ r) ∧
        (∀ a ∈ r, a ∈ socks ∨ ∃ name ∈ x :: xs, name ≠ [] ∧ ∃ l, os.resolve name port = some l ∧ a ∈ l) ∧
        (∀ name ∈ x :: xs, name ≠ [] → ∀ l, os.resolve name port = some l → ∀ a ∈ l,
          a ∈ r ∨ ∃ s, s ≠ [] ∧ os.attempt s a = .bindErr 98) := by
      intro socks' h k1 k2 k3
      obtain ⟨h1, h2, h3⟩ := ih _ _ h
      refine ⟨fun a ha => h1 a (k1 a ha), ?_, ?_⟩
      · intro a ha
        rcases h2 a ha with ha | ⟨name, hn, h⟩
        · rcases k2 a ha with ha | ⟨l, hx, hl, hal⟩
          · exact .inl ha
          · exact .inr ⟨x, List.mem_cons_self, hx, l, hl, hal⟩
        · exact .inr ⟨name, List.mem_cons_of_mem _ hn, h⟩
      · intro name hn hne l hl a ha
        rcases List.mem_cons.mp hn with rfl | hn
        · rcases k3 hne l hl a ha with h | h
          · exact .inl (h1 a h)
          · exact .inr h
        · exact h3 name hn hne l hl a ha
    split at h
    · rename_i hx
      exact hskip socks h (fun a h => h) (fun a h => .inl h) (fun hn => absurd hx hn)
    · cases hr : os.resolve x port with
      | none =>
        rw [hr] at h
        simp only [] at h
        split at h
        · cases h
        · exact hskip socks h (fun a h => h) (fun a h => .inl h) (fun _ l hl => by rw [hr] at hl; cases hl)
      | some l =>
        rw [hr] at h
        simp only [] at h
        rename_i hx
        cases ho : openList os l socks with
        | none => rw [ho] at h; cases h
        | some socks' =>
          rw [ho] at h
          obtain ⟨k1, k2, k3⟩ := openList_spec os l socks socks' ho
          refine hskip socks' h k1 ?_ ?_
          · intro a ha
            rcases k2 a ha with ha | ha
            · exact .inl ha
            · exact .inr ⟨l, hx, hr, ha⟩
          · intro _ l' hl' a ha
            rw [hr] at hl'
            cases hl'
            exact k3 a ha

theorem openModern_loop (os : Os) (conf : GenConf) (socks : List SockAddr) :
    openModern os conf.modernaddr conf.modernport socks = openModernLoop os (portOf conf) (splitSet (listenList conf)) socks := by
  unfold openModern listenList portOf defaultPort
  cases conf.modernaddr with
  | none => rfl
  | some a =>
    cases a with
    | nil => rfl
    | cons b bs =>
      rw [if_neg (by simp)]
      rfl

theorem flag8 (x : Nat) : has x F_DUAL_LISTEN = x.testBit 3 := has_two_pow x 3

/-- What `setup_servers` does. -/
theorem setupServers_spec {os : Os} {conf : GenConf} {p q : Proc} (h : setupServers os conf p = some q) (hp : p.listening = []) :
    q = { p with listening := q.listening } ∧
    (∀ path, conf.unixsock = some path → SockAddr.unix (path.take 107) ∈ q.listening ∧
      (¬ WantsTcp conf → q.listening = [.unix (path.take 107)])) ∧
    (∀ a ∈ q.listening, (∃ path, conf.unixsock = some path ∧ a = .unix (path.take 107)) ∨
      (WantsTcp conf ∧ ∃ name l, Listed (listenList conf) name ∧ os.resolve name (portOf conf) = some l ∧ a ∈ l)) ∧
    (WantsTcp conf → ∀ name l, Listed (listenList conf) name → os.resolve name (portOf conf) = some l → ∀ a ∈ l,
      a ∈ q.listening ∨ ∃ s, s ≠ [] ∧ os.attempt s a = .bindErr 98) := by
  unfold setupServers at h
  rw [hp] at h
  have hw : (has conf.flags F_DUAL_LISTEN || conf.unixsock.isNone) = true ↔ WantsTcp conf := by
    unfold WantsTcp
    rw [flag8, Bool.or_eq_true, Option.isNone_iff_eq_none, or_comm]
  have htcp : ∀ socks r, (if has conf.flags F_DUAL_LISTEN || conf.unixsock.isNone then
        openModern os conf.modernaddr conf.modernport socks else some socks) = some r →
      (∀ a ∈ socks, a ∈ r) ∧ (¬ WantsTcp conf → r = socks) ∧
      (∀ a ∈ r, a ∈ socks ∨ (WantsTcp conf ∧ ∃ name l, Listed (listenList conf) name ∧ os.resolve name (portOf conf) = some l ∧ a ∈ l)) ∧
      (WantsTcp conf → ∀ name l, Listed (listenList conf) name → os.resolve name (portOf conf) = some l → ∀ a ∈ l,
        a ∈ r ∨ ∃ s, s ≠ [] ∧ os.attempt s a = .bindErr 98) := by
    intro socks r hr
    split at hr
    · rename_i hc
      have hc := hw.mp hc
      rw [openModern_loop] at hr
      obtain ⟨h1, h2, h3⟩ := openModernLoop_spec os _ _ _ _ hr
      refine ⟨h1, fun hn => absurd hc hn, ?_, ?_⟩
      · intro a ha
        rcases h2 a ha with ha | ⟨name, hm, hne, l, hl, hal⟩
        · exact .inl ha
        · exact .inr ⟨hc, name, l, (splitSet_listed _ _).mp ⟨hm, hne⟩, hl, hal⟩
      · intro _ name l hn hl a ha
        have := (splitSet_listed _ _).mpr hn
        exact h3 name this.1 this.2 l hl a ha
    · rename_i hc
      cases hr
      exact ⟨fun a h => h, fun _ => rfl, fun a h => .inl h, fun h => absurd (hw.mpr h) hc⟩
  have hfin : ∀ socks, (match (if has conf.flags F_DUAL_LISTEN || conf.unixsock.isNone then
        openModern os conf.modernaddr conf.modernport socks else some socks) with
      | none => none
      | some socks => if os.sigactionOk then some { p with listening := socks } else none) = some q →
      q = { p with listening := q.listening } ∧
      (∀ a ∈ socks, a ∈ q.listening) ∧ (¬ WantsTcp conf → q.listening = socks) ∧
      (∀ a ∈ q.listening, a ∈ socks ∨
        (WantsTcp conf ∧ ∃ name l, Listed (listenList conf) name ∧ os.resolve name (portOf conf) = some l ∧ a ∈ l)) ∧
      (WantsTcp conf → ∀ name l, Listed (listenList conf) name → os.resolve name (portOf conf) = some l → ∀ a ∈ l,
        a ∈ q.listening ∨ ∃ s, s ≠ [] ∧ os.attempt s a = .bindErr 98) := by
    intro socks hq
    cases hr : (if has conf.flags F_DUAL_LISTEN || conf.unixsock.isNone then
        openModern os conf.modernaddr conf.modernport socks else some socks) with
    | none => rw [hr] at hq; cases hq
    | some r =>
      rw [hr] at hq
      simp only [] at hq
      split at hq
      · cases hq
        exact ⟨rfl, htcp socks r hr⟩
      · cases hq
  cases hu : conf.unixsock with
  | none =>
    rw [hu] at h
    simp only [] at h
    rw [← hu] at h
    obtain ⟨h0, h1, h2, h3, h4⟩ := hfin [] h
    refine ⟨h0, (by intro path hp; cases hp), ?_, h4⟩
    intro a ha
    rcases h3 a ha with ha | h
    · cases ha
    · exact .inr h
  | some path =>
    rw [hu] at h
    simp only [] at h
    rw [← hu] at h
    cases ho : openUnix os path [] with
    | none => rw [ho] at h; cases h
    | some socks =>
      rw [ho] at h
      simp only [] at h
      have hs : socks = [.unix (path.take 107)] := by
        unfold openUnix at ho
        split at ho
        · cases ho; rfl
        · cases ho
      subst hs
      obtain ⟨h0, h1, h2, h3, h4⟩ := hfin _ h
      refine ⟨h0, ?_, ?_, h4⟩
      · intro path' hp
        cases hp
        exact ⟨h1 _ List.mem_cons_self, h2⟩
      · intro a ha
        rcases h3 a ha with ha | h
        · exact .inl ⟨path, rfl, List.mem_singleton.mp ha⟩
        · exact .inr h

theorem dousers_listening {os : Os} {u g : Option (List Byte)} {p q : Proc} (h : dousers os u g p = some q) :
    q = { p with uid := q.uid, gid := q.gid, groups := q.groups } := by
  unfold dousers at h
  cases g with
  | none =>
    cases u with
    | none => cases h; rfl
    | some u =>
      simp only [] at h
      repeat' split at h
      all_goals first | cases h; rfl | cases h
  | some g =>
    simp only [] at h
    cases hg : os.group g with
    | none => rw [hg] at h; cases h
    | some id =>
      rw [hg] at h
      simp only [] at h
      cases hs : os.setgidOk id with
      | false => rw [hs] at h; cases h
      | true =>
        rw [hs] at h
        cases u with
        | none => cases h; rfl
        | some u =>
          simp only [if_true] at h
          repeat' split at h
          all_goals first | cases h; rfl | cases h

/-- The parts of `start`. -/
theorem start_runs {os : Os} {conf : GenConf} {nodaemon : Bool} {pidfname : List Byte} {p q : Proc}
    (h : Serves (start os conf nodaemon pidfname p) q) :
    ∃ p1 p2, (if nodaemon then .inr p else daemonize os pidfname p) = .inr p1 ∧ setupServers os conf p1 = some p2 ∧
      dousers os conf.user conf.group p2 = some q := by
  unfold start at h
  cases hd : (if nodaemon then .inr p else daemonize os pidfname p : StartEnd ⊕ Proc) with
  | inl e =>
    exfalso
    rw [hd] at h
    simp only [] at h
    cases nodaemon with
    | true => cases hd
    | false =>
      simp only [Bool.false_eq_true, if_false] at hd
      unfold daemonize Proc.fails at hd
      simp only [] at hd
      rcases h with rfl | rfl
      all_goals
        repeat' split at hd
        all_goals cases hd
  | inr p1 =>
    rw [hd] at h
    simp only [] at h
    cases hs : setupServers os conf p1 with
    | none => rw [hs] at h; rcases h with h | h <;> cases h
    | some p2 =>
      rw [hs] at h
      simp only [] at h
      cases hu : dousers os conf.user conf.group p2 with
      | none => rw [hu] at h; rcases h with h | h <;> cases h
      | some p3 =>
        rw [hu] at h
        simp only [] at h
        refine ⟨p1, p2, rfl, hs, ?_⟩
        rw [hu]
        split at h
        · rcases h with h | h
          · cases h
          · cases h; rfl
        · rcases h with h | h
          · cases h; rfl
          · cases h

theorem dup2_other {fds fds' : List (Option FdObj)} {old new i : Nat} (h : dup2 fds old new = some fds') (hi : i ≠ new) :
    fds'[i]? = fds[i]? := by
  unfold dup2 at h
  split at h
  · cases h
    rw [List.getElem?_set_ne (Ne.symm hi)]
  · cases h

/-- What `daemonize` does. -/
theorem daemonize_spec {os : Os} {pidfname : List Byte} {p q : Proc} (h : daemonize os pidfname p = .inr q)
    (hs : ∀ i, i < 3 → ∃ o, p.fds[i]? = some (some o)) :
    q.uid = p.uid ∧ q.gid = p.gid ∧ q.groups = p.groups ∧ q.listening = p.listening ∧ q.status = some 0 ∧
    (∀ i, i < 3 → q.fds[i]? = p.fds[i]?) ∧
    q.pidFile = if os.pidFileOk then some (if pidfname = [] then ascii "/var/run/nbd-server.pid" else pidfname, q.pid) else p.pidFile := by
  have hlow : 3 ≤ lowestFd p.fds := by
    unfold lowestFd
    apply Nat.le_of_not_lt
    intro hlt
    have hl : p.fds.findIdx (· = none) < p.fds.length := by
      obtain ⟨o, ho⟩ := hs 2 (by omega)
      have := (List.getElem?_eq_some_iff.mp ho).1
      omega
    have h1 := List.findIdx_getElem (xs := p.fds) (p := (· = none)) (w := hl)
    obtain ⟨o, ho⟩ := hs _ hlt
    rw [List.getElem?_eq_getElem hl] at ho
    rw [Option.some.inj ho] at h1
    simp at h1
  unfold daemonize at h
  simp only [] at h
  split at h
  · cases h
  split at h
  · cases h
  split at h
  · cases h
  split at h
  · cases h
  cases h0 : dup2 ((p.fds ++ [none]).set (lowestFd p.fds) (some .null)) 0 (lowestFd p.fds) with
  | none => rw [h0] at h; cases h
  | some f0 =>
    rw [h0] at h
    simp only [] at h
    cases h1 : dup2 f0 1 (lowestFd p.fds) with
    | none => rw [h1] at h; cases h
    | some f1 =>
      rw [h1] at h
      simp only [] at h
      cases h2 : dup2 f1 2 (lowestFd p.fds) with
      | none => rw [h2] at h; cases h
      | some f2 =>
        rw [h2] at h
        simp only [] at h
        have hf : ∀ i, i < 3 → f2[i]? = p.fds[i]? := by
          intro i hi
          have hlen : i < p.fds.length := by
            obtain ⟨o, ho⟩ := hs i hi
            exact (List.getElem?_eq_some_iff.mp ho).1
          rw [dup2_other h2 (by omega), dup2_other h1 (by omega), dup2_other h0 (by omega), List.getElem?_set_ne (by omega),
            List.getElem?_append_left hlen]
        split at h
        · cases h
        cases hpf : os.pidFileOk with
        | false =>
          rw [hpf] at h
          simp only [Bool.false_eq_true, if_false] at h
          cases h
          exact ⟨rfl, rfl, rfl, rfl, rfl, hf, rfl⟩
        | true =>
          rw [hpf] at h
          simp only [if_true] at h
          cases h
          exact ⟨rfl, rfl, rfl, rfl, rfl, hf, rfl⟩

theorem begun {os : Os} {nodaemon : Bool} {pidfname : List Byte} {p p1 : Proc} (hp : JustStarted p)
    (h : (if nodaemon then .inr p else daemonize os pidfname p) = (.inr p1 : StartEnd ⊕ Proc)) :
    p1.uid = p.uid ∧ p1.gid = p.gid ∧ p1.groups = p.groups ∧ p1.listening = [] := by
  cases nodaemon with
  | true => cases h; exact ⟨rfl, rfl, rfl, hp.listening⟩
  | false =>
    obtain ⟨h1, h2, h3, h4, _⟩ := daemonize_spec h hp.streams
    exact ⟨h1, h2, h3, h4.trans hp.listening⟩

/-! ### C74 -/

/-- **C74, nothing else.** A running server listens only on sockets the configuration asks for (if the name of the Unix socket is at
most 107 bytes long). In particular, with `unixsock` and without `duallisten` it listens on that socket and on nothing else. -/
theorem C74_only_partial (os : Os) (conf : GenConf) (nodaemon : Bool) (pidfname : List Byte) (p q : Proc) (hp : JustStarted p)
    (hrun : Serves (start os conf nodaemon pidfname p) q) (hlen : ∀ path, conf.unixsock = some path → path.length ≤ 107) :
    (∀ a ∈ q.listening, Wanted os conf a) ∧
    (∀ path, conf.unixsock = some path → .unix path ∈ q.listening ∧ (¬ WantsTcp conf → q.listening = [.unix path])) := by
  obtain ⟨p1, p2, h1, h2, h3⟩ := start_runs hrun
  obtain ⟨_, _, _, hl⟩ := begun hp h1
  obtain ⟨_, k1, k2, _⟩ := setupServers_spec h2 hl
  have hq : q.listening = p2.listening := by rw [dousers_listening h3]
  rw [hq]
  refine ⟨?_, ?_⟩
  · intro a ha
    rcases k2 a ha with ⟨path, hu, rfl⟩ | h
    · exact .inl ⟨path, hu, by rw [List.take_of_length_le (hlen path hu)]⟩
    · exact .inr h
  · intro path hu
    have := k1 path hu
    rw [List.take_of_length_le (hlen path hu)] at this
    exact this

/-- **C74, the addresses.** Of the addresses that the names in `listenaddr` stand for, a running server listens on every one except those
that the operating system says are in use. -/
theorem C74_addresses_partial (os : Os) (conf : GenConf) (nodaemon : Bool) (pidfname : List Byte) (p q : Proc) (hp : JustStarted p)
    (hrun : Serves (start os conf nodaemon pidfname p) q) (htcp : WantsTcp conf) (name : List Byte) (l : List SockAddr)
    (hname : Listed (listenList conf) name) (hl : os.resolve name (portOf conf) = some l) (a : SockAddr) (ha : a ∈ l) :
    a ∈ q.listening ∨ ∃ socks, os.attempt socks a = .bindErr 98 := by
  obtain ⟨p1, p2, h1, h2, h3⟩ := start_runs hrun
  obtain ⟨_, _, _, hlis⟩ := begun hp h1
  obtain ⟨_, _, _, k3⟩ := setupServers_spec h2 hlis
  have hq : q.listening = p2.listening := by rw [dousers_listening h3]
  rw [hq]
  rcases k3 htcp name l hname hl a ha with h | ⟨s, _, h⟩
  · exact .inl h
  · exact .inr ⟨s, h⟩

/-- **C74, when nothing is in use.** If no address is in use, a running server listens on exactly the sockets the configuration asks
for. -/
theorem C74_free_partial (os : Os) (conf : GenConf) (nodaemon : Bool) (pidfname : List Byte) (p q : Proc) (hp : JustStarted p)
    (hrun : Serves (start os conf nodaemon pidfname p) q) (hlen : ∀ path, conf.unixsock = some path → path.length ≤ 107)
    (hfree : ∀ socks a, os.attempt socks a ≠ .bindErr 98) (a : SockAddr) : a ∈ q.listening ↔ Wanted os conf a := by
  obtain ⟨h1, h2⟩ := C74_only_partial os conf nodaemon pidfname p q hp hrun hlen
  refine ⟨h1 a, ?_⟩
  rintro (⟨path, hu, rfl⟩ | ⟨ht, name, l, hn, hl, ha⟩)
  · exact (h2 path hu).1
  · rcases C74_addresses_partial os conf nodaemon pidfname p q hp hrun ht name l hn hl a ha with h | ⟨s, h⟩
    · exact h
    · exact absurd h (hfree s a)

/-! ### An example: two addresses, a user and a group -/

/-- A system where everything works: two names are known, user `nbd` is 7, group `nbd` is 8. -/
def goodOs : Os where
  resolve := fun name port =>
    if name = ascii "127.0.0.1" ∨ name = ascii "::1" then some [.inet name port] else none
  attempt := fun _ _ => .done
  group := fun g => if g = ascii "nbd" then some 8 else none
  user := fun u => if u = ascii "nbd" then some 7 else none
  setgidOk := fun _ => true
  setgroupsOk := true
  setuidOk := fun _ => true
  forkOk := fun _ => true
  childPid := fun n => 101 + n
  setsidOk := true
  chdirOk := true
  nullOk := true
  pidFileOk := true
  sigactionOk := true

/-- A process started by root from a shell. -/
def rootProc : Proc := ⟨100, 0, 0, [0, 4], [], [some (.given 0), some (.given 1), some (.given 2)], none, none⟩

theorem rootProc_started : JustStarted rootProc := by
  refine ⟨rfl, rfl, rfl, ?_⟩
  intro i hi
  match i, hi with
  | 0, _ => exact ⟨_, rfl⟩
  | 1, _ => exact ⟨_, rfl⟩
  | 2, _ => exact ⟨_, rfl⟩

/-- Listen on two addresses and change to user and group `nbd`. -/
def twoConf : GenConf :=
  { user := some (ascii "nbd"), group := some (ascii "nbd"), modernaddr := some (ascii "127.0.0.1, ::1") }

example : start goodOs twoConf false (ascii "/run/x.pid") rootProc = .serving
    { pid := 102, uid := 7, gid := 8, groups := [],
      listening := [.inet (ascii "127.0.0.1") (ascii "10809"), .inet (ascii "::1") (ascii "10809")],
      fds := [some (.given 0), some (.given 1), some (.given 2), some (.given 2)],
      pidFile := some (ascii "/run/x.pid", 102), status := some 0 } := by decide +kernel

example : Listed (listenList twoConf) (ascii "::1") := (splitSet_listed _ _).mp (by decide +kernel)

/-! ### What is false of C74 -/

/-- **C74 is false of the code: a name that cannot be resolved.** A server told to listen on a name that does not exist and on `127.0.0.1`
runs, listening on the second only. -/
theorem C74_false_unresolved : ∃ (os : Os) (conf : GenConf) (q : Proc), JustStarted rootProc ∧
    start os conf true [] rootProc = .serving q ∧ Listed (listenList conf) (ascii "nowhere") ∧
    os.resolve (ascii "nowhere") (portOf conf) = none ∧ q.listening = [.inet (ascii "127.0.0.1") (ascii "10809")] :=
  ⟨goodOs, { modernaddr := some (ascii "nowhere,127.0.0.1") },
    { rootProc with listening := [.inet (ascii "127.0.0.1") (ascii "10809")] }, rootProc_started, by decide +kernel,
    (splitSet_listed _ _).mp (by decide +kernel), by decide +kernel, rfl⟩

/-- **C74 is false of the code: listening on nothing.** With a comma or blank after the only name, and that name unknown, the server runs
without any socket: nobody can connect to it. -/
theorem C74_false_deaf : ∃ (os : Os) (conf : GenConf), start os conf true [] rootProc = .serving rootProc ∧
    rootProc.listening = [] ∧ Listed (listenList conf) (ascii "nowhere") :=
  ⟨goodOs, { modernaddr := some (ascii "nowhere,") }, by decide +kernel, rfl, (splitSet_listed _ _).mp (by decide +kernel)⟩

/-- A system where another server has the TCP port. -/
def busyOs : Os := { goodOs with attempt := fun _ a => match a with
  | .unix _ => .done
  | .inet _ _ => .bindErr 98 }

/-- **C74 is false of the code: a port in use.** With `unixsock` and `duallisten`, a TCP port that belongs to somebody else goes unnoticed:
the server runs, listening on the Unix socket only. -/
theorem C74_false_busy : ∃ (os : Os) (conf : GenConf) (q : Proc), start os conf true [] rootProc = .serving q ∧
    WantsTcp conf ∧ Wanted os conf (.inet (ascii "127.0.0.1") (ascii "10809")) ∧ q.listening = [.unix (ascii "/s")] := by
  have hl : Listed (listenList { modernaddr := some (ascii "127.0.0.1"), unixsock := some (ascii "/s"), flags := 8 }) (ascii "127.0.0.1") :=
    (splitSet_listed _ _).mp (by decide +kernel)
  refine ⟨busyOs, { modernaddr := some (ascii "127.0.0.1"), unixsock := some (ascii "/s"), flags := 8 },
    { rootProc with listening := [.unix (ascii "/s")] }, by decide +kernel, .inr (by decide), .inr ⟨.inr (by decide), _,
      [.inet (ascii "127.0.0.1") (ascii "10809")], hl, ?_, ?_⟩, rfl⟩
  · decide +kernel
  · exact List.mem_cons_self

/-- **C74 is false of the code: a long name.** The server listens on a Unix socket that has the first 107 bytes of the name. -/
theorem C74_false_long : ∃ (os : Os) (conf : GenConf) (q : Proc), start os conf true [] rootProc = .serving q ∧
    conf.unixsock = some (List.replicate 200 47) ∧ q.listening = [.unix (List.replicate 107 47)] :=
  ⟨goodOs, { unixsock := some (List.replicate 200 47) }, { rootProc with listening := [.unix (List.replicate 107 47)] },
    by decide +kernel, rfl, rfl⟩

/-! ### C75 -/

/-- **C75.** A server that gets to the point where it talks to clients runs as the configured user, without supplementary groups, and as
the configured group; an ID that is not configured is the one it was started with. -/
theorem C75_identity (os : Os) (conf : GenConf) (nodaemon : Bool) (pidfname : List Byte) (p q : Proc) (hp : JustStarted p)
    (hrun : Serves (start os conf nodaemon pidfname p) q) :
    (∀ u, conf.user = some u → os.user u = some q.uid ∧ q.groups = []) ∧
    (conf.user = none → q.uid = p.uid ∧ q.groups = p.groups) ∧
    (∀ g, conf.group = some g → os.group g = some q.gid) ∧
    (conf.group = none → q.gid = p.gid) := by
  obtain ⟨p1, p2, h1, h2, h3⟩ := start_runs hrun
  obtain ⟨b1, b2, b3, hlis⟩ := begun hp h1
  obtain ⟨hs, _⟩ := setupServers_spec h2 hlis
  have e1 : p2.uid = p.uid := by rw [hs]; exact b1
  have e2 : p2.gid = p.gid := by rw [hs]; exact b2
  have e3 : p2.groups = p.groups := by rw [hs]; exact b3
  have huser : ∀ (r : Proc) (u : Option (List Byte)), (match u with
      | none => some r
      | some u =>
        match os.user u with
        | none => none
        | some id => if !os.setgroupsOk then none else
          let p := { r with groups := [] }
          if os.setuidOk id then some { p with uid := id } else none) = some q →
      (∀ x, u = some x → os.user x = some q.uid ∧ q.groups = []) ∧ (u = none → q.uid = r.uid ∧ q.groups = r.groups) ∧ q.gid = r.gid := by
    intro r u h
    cases u with
    | none => cases h; exact ⟨by simp, fun _ => ⟨rfl, rfl⟩, rfl⟩
    | some u =>
      simp only [] at h
      cases hu : os.user u with
      | none => rw [hu] at h; cases h
      | some id =>
        rw [hu] at h
        simp only [] at h
        split at h
        · cases h
        · split at h
          · cases h
            refine ⟨?_, by simp, rfl⟩
            intro x hx
            cases hx
            exact ⟨hu, rfl⟩
          · cases h
  unfold dousers at h3
  cases hg : conf.group with
  | none =>
    rw [hg] at h3
    obtain ⟨k1, k2, k3⟩ := huser p2 conf.user h3
    rw [e1, e3] at k2
    exact ⟨k1, k2, by simp, fun _ => k3.trans e2⟩
  | some g =>
    rw [hg] at h3
    simp only [] at h3
    cases hgi : os.group g with
    | none => rw [hgi] at h3; cases h3
    | some id =>
      rw [hgi] at h3
      simp only [] at h3
      cases hok : os.setgidOk id with
      | false => rw [hok] at h3; cases h3
      | true =>
        rw [hok] at h3
        simp only [if_true] at h3
        obtain ⟨k1, k2, k3⟩ := huser { p2 with gid := id } conf.user h3
        simp only [e1, e3] at k2
        refine ⟨k1, k2, ?_, by simp⟩
        intro x hx
        cases hx
        rw [k3, hgi]

/-- **C75, errors.** If the user or the group does not exist, or the system refuses to change an ID, the server never talks to a client. -/
theorem C75_refused (os : Os) (conf : GenConf) (nodaemon : Bool) (pidfname : List Byte) (p : Proc)
    (hbad : (∃ g, conf.group = some g ∧ ∀ id, os.group g = some id → os.setgidOk id = false) ∨
      (∃ u, conf.user = some u ∧ ∀ id, os.user u = some id → (os.setgroupsOk = false ∨ os.setuidOk id = false))) :
    ∃ n, start os conf nodaemon pidfname p = .exited n := by
  cases he : start os conf nodaemon pidfname p with
  | exited n => exact ⟨n, rfl⟩
  | _ q =>
    exfalso
    obtain ⟨p1, p2, _, _, h3⟩ := start_runs (q := q) (by rw [he]; first | exact .inl rfl | exact .inr rfl)
    unfold dousers at h3
    rcases hbad with ⟨g, hg, hb⟩ | ⟨u, hu, hb⟩
    · rw [hg] at h3
      simp only [] at h3
      cases hgi : os.group g with
      | none => rw [hgi] at h3; cases h3
      | some id => rw [hgi] at h3; simp only [hb id hgi] at h3; cases h3
    · split at h3
      · cases h3
      · rw [hu] at h3
        simp only [] at h3
        cases hui : os.user u with
        | none => rw [hui] at h3; cases h3
        | some id =>
          rw [hui] at h3
          rcases hb id hui with hb | hb
          · simp only [hb] at h3; cases h3
          · simp only [hb] at h3
            split at h3 <;> cases h3

example : ∃ n, start goodOs { user := some (ascii "nobody"), modernaddr := some (ascii "::1") } true [] rootProc = .exited n :=
  C75_refused _ _ _ _ _ (.inr ⟨_, rfl, by
    intro id h
    have hn : goodOs.user (ascii "nobody") = none := by decide +kernel
    rw [hn] at h
    cases h⟩)

/-! ### C76 -/

/-- **C76, the process file.** A server that runs in the background has written the number of the process that talks to clients to the
file given with `-p` (or the default one), if it could open that file. -/
theorem C76_pid_partial (os : Os) (conf : GenConf) (pidfname : List Byte) (p q : Proc) (hp : JustStarted p)
    (hrun : Serves (start os conf false pidfname p) q) (hok : os.pidFileOk = true) :
    q.pidFile = some (if pidfname = [] then ascii "/var/run/nbd-server.pid" else pidfname, q.pid) := by
  obtain ⟨p1, p2, h1, h2, h3⟩ := start_runs hrun
  obtain ⟨b1, b2, b3, hlis⟩ := begun hp h1
  obtain ⟨hs, _⟩ := setupServers_spec h2 hlis
  obtain ⟨_, _, _, _, _, _, hpf⟩ := daemonize_spec (p := p) h1 hp.streams
  rw [hok] at hpf
  have hq := dousers_listening h3
  have e1 : q.pidFile = p1.pidFile := by rw [hq, hs]
  have e2 : q.pid = p1.pid := by rw [hq, hs]
  rw [e1, e2]
  exact hpf

/-- **C76, in the foreground.** A server started with `-n` that does not get to serve clients ends with status 1. -/
theorem C76_foreground_partial (os : Os) (conf : GenConf) (pidfname : List Byte) (p : Proc) (hp : JustStarted p) (n : Nat)
    (h : start os conf true pidfname p = .exited n) : n = 1 := by
  unfold start at h
  simp only [if_true] at h
  cases hs : setupServers os conf p with
  | none =>
    rw [hs] at h
    simp only [Proc.fails, hp.status] at h
    cases h; rfl
  | some p2 =>
    rw [hs] at h
    have hst : p2.status = none := by
      rw [(setupServers_spec hs hp.listening).1]; exact hp.status
    simp only [] at h
    cases hu : dousers os conf.user conf.group p2 with
    | none =>
      rw [hu] at h
      simp only [Proc.fails, hst] at h
      cases h; rfl
    | some p3 =>
      rw [hu] at h
      simp only [] at h
      split at h <;> cases h

/-- **C76 is false of the code: the exit status.** Once the first `fork` has succeeded, whoever starts a server in the background sees
status 0, whether the server then runs or not; for example if the port is in use. -/
theorem C76_false_status : (∀ (os : Os) (conf : GenConf) (pidfname : List Byte) (p : Proc) (n : Nat), os.forkOk 0 = true →
      start os conf false pidfname p = .exited n → n = 0) ∧
    start busyOs { modernaddr := some (ascii "::1") } false [] rootProc = .exited 0 := by
  refine ⟨?_, by decide +kernel⟩
  intro os conf pidfname p n hf h
  unfold start at h
  simp only [Bool.false_eq_true, if_false] at h
  cases hd : daemonize os pidfname p with
  | inl e =>
    rw [hd] at h
    simp only [] at h
    subst h
    unfold daemonize Proc.fails at hd
    simp only [hf, Bool.not_true, Bool.false_eq_true, if_false] at hd
    repeat' split at hd
    all_goals first | cases hd; rfl | cases hd
  | inr p1 =>
    rw [hd] at h
    have hst : p1.status = some 0 := by
      unfold daemonize at hd
      simp only [] at hd
      repeat' split at hd
      all_goals first | cases hd; rfl | cases hd
    simp only [] at h
    cases hs : setupServers os conf p1 with
    | none =>
      rw [hs] at h
      simp only [Proc.fails, hst] at h
      cases h; rfl
    | some p2 =>
      rw [hs] at h
      simp only [] at h
      have hst2 : p2.status = some 0 := by
        unfold setupServers at hs
        repeat' split at hs
        all_goals first | cases hs; exact hst | cases hs
      cases hu : dousers os conf.user conf.group p2 with
      | none =>
        rw [hu] at h
        simp only [Proc.fails, hst2] at h
        cases h; rfl
      | some p3 =>
        rw [hu] at h
        simp only [] at h
        split at h <;> cases h

/-- **C76 is false of the code: the standard streams.** A server in the background still has the standard input, output and error it was
started with: the arguments of `dup2` are the wrong way round. -/
theorem C76_false_streams (os : Os) (conf : GenConf) (pidfname : List Byte) (p q : Proc) (hp : JustStarted p)
    (hrun : Serves (start os conf false pidfname p) q) (i : Nat) (hi : i < 3) : q.fds[i]? = p.fds[i]? := by
  obtain ⟨p1, p2, h1, h2, h3⟩ := start_runs hrun
  obtain ⟨b1, b2, b3, hlis⟩ := begun hp h1
  obtain ⟨hs, _⟩ := setupServers_spec h2 hlis
  obtain ⟨_, _, _, _, _, hf, _⟩ := daemonize_spec (p := p) h1 hp.streams
  have e1 : q.fds = p1.fds := by rw [dousers_listening h3, hs]
  rw [e1]
  exact hf i hi

/-- **C76 is false of the code: no process file in the foreground.** With `-n`, the file named with `-p` is not written. -/
theorem C76_false_foreground (os : Os) (conf : GenConf) (pidfname : List Byte) (p q : Proc) (hp : JustStarted p)
    (hrun : Serves (start os conf true pidfname p) q) : q.pidFile = none := by
  obtain ⟨p1, p2, h1, h2, h3⟩ := start_runs hrun
  cases h1
  obtain ⟨hs, _⟩ := setupServers_spec h2 hp.listening
  rw [dousers_listening h3, hs]
  exact hp.pidFile

/-! ### C68 -/

/-- **C68 is false of the code: run by inetd, the server lets nobody in.** Without `-d`, whatever the client says and whatever the
configuration, no client is ever served. -/
theorem C68_false (e : Endian) (env : NEnv) (cf : NConf) (hfork : cf.dontfork = false) (n : Nat) (svs : List SrvExport)
    (inp : List Byte) (tlsIn : Option (List Byte)) : (inetdSession e env cf n svs inp tlsIn).1 ≠ .serving := by
  intro h
  unfold inetdSession at h
  obtain ⟨_, ⟨_, _, sv, k, _, _, ht⟩⟩ := session_serving e (inetdEnv env cf) cf n svs false inp tlsIn _ (Prod.ext h rfl)
  obtain ⟨ex, _, _, hg⟩ := ht.granted
  have := hg.peer
  unfold inetdEnv at this
  rw [hfork] at this
  cases this

-- The same client, served over a socket, served by inetd with `-d`, and not served by inetd without it.
example : (session .little NDemo.env NDemo.cf 9 [NDemo.a, NDemo.s] false NDemo.talk none).1 = .serving ∧
    (inetdSession .little NDemo.env { NDemo.cf with dontfork := true } 9 [NDemo.a, NDemo.s] NDemo.talk none).1 = .serving ∧
    (inetdSession .little NDemo.env NDemo.cf 9 [NDemo.a, NDemo.s] NDemo.talk none).1 ≠ .serving := by decide +kernel

/-- **C68 is false of the code: run by inetd, the server opens sockets of its own.** Port 0 also means any free TCP port. -/
theorem C68_false_listens : ∃ (os : Os) (conf : GenConf) (q : Proc), conf.modernport = some (ascii "0") ∧
    start os conf true [] rootProc = .inetd q ∧ q.listening = [.inet (ascii "127.0.0.1") (ascii "0")] :=
  ⟨goodOs, { modernaddr := some (ascii "127.0.0.1"), modernport := some (ascii "0") },
    { rootProc with listening := [.inet (ascii "127.0.0.1") (ascii "0")] }, rfl, by decide +kernel, rfl⟩

/-- **C68, which connection.** The server talks to its standard input exactly if the port is 0. -/
theorem C68_port (os : Os) (conf : GenConf) (nodaemon : Bool) (pidfname : List Byte) (p q : Proc)
    (hrun : Serves (start os conf nodaemon pidfname p) q) :
    start os conf nodaemon pidfname p = .inetd q ↔ conf.modernport = some (ascii "0") := by
  obtain ⟨p1, p2, h1, h2, h3⟩ := start_runs hrun
  unfold start
  rw [h1]
  simp only [h2, h3]
  split
  · rename_i h; exact ⟨fun _ => h, fun _ => rfl⟩
  · rename_i h; exact ⟨(by intro he; cases he), fun he => absurd he h⟩

end Nbd.Props
