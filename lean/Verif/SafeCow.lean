import Verif.SafeAny
import Verif.CowAny
/-!
# Arbitrary byte streams on copy-on-write exports

Reading back a block that was written before is where copy-on-write sessions go wrong (`C12_false`
theorems). Here it is shown that nothing else crashes them: whatever bytes the client sends, if the
requests in them avoid this, the process survives, on any kernel and also after failed writes.
-/
set_option autoImplicit false

namespace Nbd

namespace Spec

/-- The commands in a stream of bytes: 28 bytes each, a write followed by its data, up to the end,
a request that is not complete, a wrong magic number or a disconnect. -/
def commandsIn (stream : List Byte) : List Cmd :=
  if _h : stream.length < 28 then []
  else
    let r := Request.decode (stream.take 28)
    let n := if r.type % 65536 = 1 then r.len else 0
    if r.magic ≠ 0x25609513 ∨ r.type = 2 ∨ (stream.drop 28).length < n then []
    else Sent.cmd ⟨r, (stream.drop 28).take n⟩ :: commandsIn ((stream.drop 28).drop n)
termination_by stream.length
decreasing_by simp only [List.length_drop]; omega

/-- A command that does not crash a copy-on-write session of `size` bytes, given the commands before
it. Reads and writes inside the export are not empty, and of the blocks a read touches none was
written before, except the last one (with structured replies: except when the read touches only one
block). -/
structure Gentle (size : Nat) (structured : Bool) (before : List Cmd) (c : Cmd) : Prop where
  nonempty : c.code = 0 ∨ c.code = 1 → c.start + c.len ≤ size → 0 < c.len
  read : c.code = 0 → c.start + c.len ≤ size → ∀ q, c.touches q → Written before q →
    q = (c.start + c.len - 1) / 4096 ∧ (structured = true → q = c.start / 4096)

/-- Every command is gentle after the ones before it. -/
def AllGentle (size : Nat) (structured : Bool) (cs : List Cmd) : Prop :=
  ∀ before c after, cs = before ++ c :: after → Gentle size structured before c

end Spec

/-- What keeps a copy-on-write session alive: a page map of the right length, an original that is
there, and a kernel that does not report an end of file before the end. -/
structure CowSafe (cl : Client) (w : World) : Prop where
  good : GoodExport cl.ex
  cow : has cl.ex.flags F_COPYONWRITE = true
  nosplice : has cl.ex.flags F_SPLICE = false
  nowait : cl.waiting = false
  whole : cl.ex.exportsize % 4096 = 0
  len : cl.difmap.length = cl.ex.exportsize / 4096
  own : ∀ a x, home cl.ex a = some x → x.1 ≠ .fd cl.difffile
  backed : Backed cl.ex w
  eof : NoEarlyEof w

/-- A step that leaves everything but the page map's entries and the diff file as it was. -/
structure Moved (cl : Client) (w : World) (cl' : Client) (w' : World) : Prop where
  ex : cl'.ex = cl.ex
  waiting : cl'.waiting = cl.waiting
  difffile : cl'.difffile = cl.difffile
  structured : cl'.structured = cl.structured
  len : cl'.difmap.length = cl.difmap.length
  orc : w'.orc = w.orc
  files : ∀ id, id ≠ .fd cl.difffile → w'.files id = w.files id

theorem Moved.refl (cl : Client) (w : World) : Moved cl w cl w := ⟨rfl, rfl, rfl, rfl, rfl, rfl, fun _ _ => rfl⟩

theorem Moved.trans {cl cl1 cl2 : Client} {w w1 w2 : World} (h : Moved cl w cl1 w1) (k : Moved cl1 w1 cl2 w2) :
    Moved cl w cl2 w2 :=
  ⟨k.ex.trans h.ex, k.waiting.trans h.waiting, k.difffile.trans h.difffile, k.structured.trans h.structured,
    k.len.trans h.len, k.orc.trans h.orc,
    fun id hid => (k.files id (by rw [h.difffile]; exact hid)).trans (h.files id hid)⟩

theorem Moved.of_files {cl : Client} {w w' : World} (hf : w'.files = w.files) (ho : w'.orc = w.orc) :
    Moved cl w cl w' := ⟨rfl, rfl, rfl, rfl, rfl, ho, fun _ _ => by rw [hf]⟩

theorem CowSafe.moved {cl cl' : Client} {w w' : World} (h : CowSafe cl w) (m : Moved cl w cl' w') :
    CowSafe cl' w' := by
  refine ⟨by rw [m.ex]; exact h.good, by rw [m.ex]; exact h.cow, by rw [m.ex]; exact h.nosplice,
    m.waiting.trans h.nowait, by rw [m.ex]; exact h.whole, by rw [m.len, m.ex]; exact h.len,
    by rw [m.ex, m.difffile]; exact h.own, ?_, h.eof.of_orc m.orc⟩
  intro a ha
  rw [m.ex] at ha ⊢
  obtain ⟨id, o, f, h1, h2, h3⟩ := h.backed a ha
  exact ⟨id, o, f, h1, by rw [m.files id (h.own a _ h1)]; exact h2, h3⟩

/-! ### System calls on the diff file -/

theorem sysPread_diff (w : World) (id : FileId) (off len : Nat) :
    ∃ w' r, sysPread w id off len = (w', r) ∧ w'.files = w.files ∧ w'.orc = w.orc ∧
      ∀ bs, r = some bs → bs.length ≤ len := by
  unfold sysPread
  cases w.files id with
  | none => exact ⟨_, _, rfl, rfl, rfl, by simp⟩
  | some f =>
    simp only []
    cases w.next with
    | err e => exact ⟨_, _, rfl, rfl, rfl, by simp⟩
    | done n =>
      refine ⟨_, _, rfl, rfl, rfl, ?_⟩
      intro bs hbs
      cases hbs
      unfold File.pread
      rw [Flat.read_length]
      omega

theorem sysPwrite_diff (w : World) (d : Nat) (off : Nat) (bs : List Byte) :
    ∃ w' r, sysPwrite w (.fd d) off bs = (w', r) ∧ w'.orc = w.orc ∧
      ∀ id, id ≠ .fd d → w'.files id = w.files id := by
  unfold sysPwrite
  cases w.files (.fd d) with
  | none => exact ⟨_, _, rfl, rfl, fun _ _ => rfl⟩
  | some f =>
    simp only []
    cases w.next with
    | err e => exact ⟨_, _, rfl, rfl, fun _ _ => rfl⟩
    | done n =>
      refine ⟨_, _, rfl, rfl, ?_⟩
      intro id hid
      simp [World.set, World.step, hid]

theorem sysFsync_diff (w : World) (d : Nat) :
    (sysFsync w (.fd d)).1.orc = w.orc ∧ ∀ id, id ≠ .fd d → (sysFsync w (.fd d)).1.files id = w.files id := by
  unfold sysFsync
  cases w.files (.fd d) with
  | none => exact ⟨rfl, fun _ _ => rfl⟩
  | some f =>
    simp only []
    cases w.next with
    | err e => exact ⟨rfl, fun _ _ => rfl⟩
    | done n =>
      refine ⟨rfl, ?_⟩
      intro id hid
      simp [World.set, World.step, hid]

/-! ### Reading -/

/-- The first `k` bytes of a buffer are set. -/
def InitTo (buf : List (Option Byte)) (k : Nat) : Prop := ∀ i, i < k → ∃ b, buf[i]? = some (some b)

theorem bufSet_init {buf : List (Option Byte)} {o : Nat} {bs : List Byte} (h : InitTo buf o)
    (hl : o + bs.length ≤ buf.length) : InitTo (bufSet buf o bs) (o + bs.length) := by
  intro i hi
  simp only [bufSet]
  by_cases h1 : i < o
  · obtain ⟨b, hb⟩ := h i h1
    refine ⟨b, ?_⟩
    rw [List.append_assoc, List.getElem?_append_left (by simp; omega), List.getElem?_take, if_pos h1, hb]
  · refine ⟨bs[i - o]'(by omega), ?_⟩
    rw [List.append_assoc, List.getElem?_append_right (by simp; omega),
      List.getElem?_append_left (by simp; omega)]
    have hmin : min o buf.length = o := by omega
    simp only [List.length_take, hmin, List.getElem?_map]
    rw [List.getElem?_eq_getElem (by omega)]
    rfl

theorem expreadPages_safe (cl : Client) (n : Nat) : ∀ (w : World) (c : ReadCtx) (mapcnt a len : Nat),
    CowSafe cl w → a = c.start + c.curOff → mapcnt = a / 4096 →
    n = (a + len - 1) / 4096 + 1 - a / 4096 → 0 < len → a + len ≤ cl.ex.exportsize →
    (c.chunked = false → c.curOff + len = c.buf.length ∧ InitTo c.buf c.curOff) →
    (∀ p : Nat, a / 4096 ≤ p → p ≤ (a + len - 1) / 4096 → Dirty cl p →
      p = (a + len - 1) / 4096 ∧ (c.chunked = true → p = a / 4096 ∧ len ≤ c.curLen)) →
    ∃ w' c' ok, expreadPages cl n w c mapcnt a len = .val (w', c', ok) ∧ w'.files = w.files ∧ w'.orc = w.orc ∧
      c'.structured = c.structured ∧ c'.df = c.df ∧
      (ok = true → c.chunked = false → InitTo c'.buf c'.buf.length) := by
  induction n with
  | zero => intro w c mapcnt a len _ _ _ hn hl; omega
  | succ n ih =>
    intro w c mapcnt a len hok ha hmap hn hl hr hbuf hread
    have hwhole := hok.whole
    have hlen := hok.len
    have hpage : mapcnt < cl.difmap.length := by rw [hlen]; omega
    obtain ⟨m, hm⟩ : ∃ m, cl.difmap[mapcnt]? = some m := ⟨_, List.getElem?_eq_getElem hpage⟩
    have hoff : a - mapcnt * 4096 = a % 4096 := by omega
    have hpl : pageLen (a % 4096) len = min len (4096 - a % 4096) := by
      unfold pageLen; rw [show DIFFPAGESIZE = 4096 from rfl]; split <;> omega
    generalize hrd : min len (4096 - a % 4096) = rdlen at hpl
    have hrdpos : 0 < rdlen := by omega
    rw [expreadPages]
    rw [show DIFFPAGESIZE = 4096 from rfl, hoff, hpl, hm]
    simp only []
    by_cases hne : m = NOPAGE
    · subst hne
      rw [if_neg (by simp), hok.nowait, if_neg (by simp)]
      have hr1 : c.start + c.curOff + rdlen ≤ cl.ex.exportsize := by omega
      have hbuf1 : ({ c with curLen := rdlen } : ReadCtx).chunked = false →
          ({ c with curLen := rdlen } : ReadCtx).curOff + rdlen ≤ ({ c with curLen := rdlen } : ReadCtx).buf.length := by
        intro hc
        have hc : c.chunked = false := hc
        have := (hbuf hc).1
        show c.curOff + rdlen ≤ c.buf.length
        omega
      obtain ⟨w1, c1, ok1, hq, hf, ho⟩ := rawexpreadFully_present cl.ex hok.good w hok.eof hok.backed
        { c with curLen := rdlen } hr1 hbuf1
      obtain ⟨hsame, k, hdel, hk⟩ := (rawexpreadFully_spec cl.ex hok.good w { c with curLen := rdlen } hr1 hbuf1).2 _ _ _ hq
      rw [hq]
      cases ok1 with
      | false => exact ⟨w1, c1, false, rfl, hf, ho, hdel.structured, hdel.df, by simp⟩
      | true =>
      obtain rfl : k = rdlen := hk rfl
      simp only []
      have hst : c1.start = c.start := hdel.start
      have hco : c1.curOff = c.curOff + k := hdel.curOff
      have hch1 : c1.chunked = c.chunked := by
        unfold ReadCtx.chunked; rw [hdel.structured, hdel.df]
      have hfill : c.chunked = false → c1.buf.length = c.buf.length ∧ InitTo c1.buf (c.curOff + k) := by
        intro hc
        obtain ⟨h1, h2⟩ := hbuf hc
        have h3 := hdel.buf hc
        have hle : c.curOff + ((view cl.ex w).read (c.start + c.curOff) k).length ≤ c.buf.length := by
          rw [Flat.read_length]; omega
        have h3 : c1.buf = bufSet c.buf c.curOff ((view cl.ex w).read (c.start + c.curOff) k) := h3
        rw [h3]
        refine ⟨bufSet_length _ _ _ hle, ?_⟩
        have := bufSet_init h2 hle
        rwa [Flat.read_length] at this
      by_cases hrest : len = k
      · have hn0 : n = 0 := by omega
        subst hn0
        refine ⟨w1, c1, true, by rw [expreadPages], hf, ho, hdel.structured, hdel.df, fun _ hc => ?_⟩
        obtain ⟨h1, h2⟩ := hfill hc
        have := (hbuf hc).1
        rw [h1, ← this, hrest]
        exact h2
      · obtain ⟨w2, c2, ok2, hq2, hf2, ho2, hs2, hd2, hfin⟩ := ih w1 c1 (mapcnt + 1) (a + k) (len - k)
          (hok.moved (.of_files hf ho)) (by rw [hst, hco]; omega) (by omega) (by omega) (by omega) (by omega)
          (by
            intro hc
            rw [hch1] at hc
            obtain ⟨h1, h2⟩ := hfill hc
            have := (hbuf hc).1
            rw [hco]
            exact ⟨by omega, h2⟩)
          (by
            intro p h1 h2 h3
            obtain ⟨h5, h6⟩ := hread p (by omega) (by omega) h3
            refine ⟨by omega, ?_⟩
            intro hs
            rw [hch1] at hs
            obtain ⟨h7, _⟩ := h6 hs
            omega)
        exact ⟨w2, c2, ok2, hq2, hf2.trans hf, ho2.trans ho, hs2.trans hdel.structured, hd2.trans hdel.df,
          fun h hc => hfin h (hch1.trans hc)⟩
    · rw [if_pos hne]
      obtain ⟨hlast, hs⟩ := hread mapcnt (by omega) (by omega) ⟨m, hm, hne⟩
      have hrl : rdlen = len := by omega
      subst hrl
      have hn0 : n = 0 := by omega
      subst hn0
      obtain ⟨w1, r, hq, hf, ho, hr1⟩ := sysPread_diff w (.fd cl.difffile) (diffOffset m (a % 4096)) rdlen
      rw [hq]
      cases r with
      | none => exact ⟨_, _, _, rfl, hf, ho, rfl, rfl, by simp⟩
      | some bs =>
      have hble := hr1 bs rfl
      simp only []
      have hdl : ∃ c', c.deliver bs = .val c' ∧ c'.structured = c.structured ∧ c'.df = c.df ∧
          (bs.length = rdlen → c.chunked = false → InitTo c'.buf c'.buf.length) := by
        unfold ReadCtx.deliver
        cases hc : c.chunked with
        | true =>
          have := (hs hc).2
          rw [if_pos rfl, if_neg (by omega)]
          exact ⟨_, rfl, rfl, rfl, by simp⟩
        | false =>
          obtain ⟨h1, h2⟩ := hbuf hc
          rw [if_neg (by simp), if_neg (by omega)]
          refine ⟨_, rfl, rfl, rfl, fun hfull _ => ?_⟩
          simp only []
          have hle : c.curOff + bs.length ≤ c.buf.length := by omega
          rw [bufSet_length _ _ _ hle, ← h1, ← hfull]
          exact bufSet_init h2 hle
      obtain ⟨c', hd, hs', hdf', hin⟩ := hdl
      rw [hd]
      simp only []
      by_cases hfull : bs.length = rdlen
      · rw [if_neg (by simpa using hfull), expreadPages]
        exact ⟨_, _, _, rfl, hf, ho, hs', hdf', fun _ => hin hfull⟩
      · rw [if_pos hfull]
        exact ⟨_, _, _, rfl, hf, ho, rfl, rfl, by simp⟩

theorem handleRead_safe (e : Endian) (cl : Client) (w : World) (r : Req) (hok : CowSafe cl w)
    (hf : r.type < 262144) (hl : 0 < r.len) (hr : r.start + r.len ≤ cl.ex.exportsize)
    (hread : ∀ p : Nat, r.start / 4096 ≤ p → p ≤ (r.start + r.len - 1) / 4096 → Dirty cl p →
      p = (r.start + r.len - 1) / 4096 ∧ (cl.structured = true → p = r.start / 4096)) :
    ∃ w' msgs, handleRead e cl w r = .val (w', msgs) ∧ w'.files = w.files ∧ w'.orc = w.orc := by
  have hsz := hok.good.size
  have hpg : cl.paged = true := by unfold Client.paged; rw [hok.cow]; rfl
  have hdf : has r.type CMD_FLAG_DF = false := has_df_of_flags (by omega)
  obtain ⟨w', c', ok, hq, hfl, ho, hst, hdf', hin⟩ := expreadPages_safe cl (pageCount r.start r.len) w (initCtx cl r)
    (r.start / 4096) r.start r.len hok rfl rfl
    (by unfold pageCount; rw [lastPage_pos hl (by omega)]; rfl) hl hr
    (by
      intro hc
      have hst : cl.structured = false := by
        simp only [ReadCtx.chunked, initCtx, Bool.not_false, Bool.and_true] at hc
        exact hc
      refine ⟨by simp [initCtx, hst], fun i hi => absurd hi (Nat.not_lt_zero _)⟩)
    (by
      intro p h1 h2 h3
      obtain ⟨h5, h6⟩ := hread p h1 h2 h3
      refine ⟨h5, fun hs => ⟨h6 ?_, Nat.le_refl _⟩⟩
      simpa only [ReadCtx.chunked, initCtx, Bool.not_false, Bool.and_true] using hs)
  have hex : expread cl w (initCtx cl r) = .val (w', c', ok) := by
    unfold expread
    rw [hpg, if_pos rfl]
    exact hq
  have hcr : ∃ ms, completeRead e c' r.cookie (if ok then none else some (nbdErrno e w'.errno)) = .val ms := by
    unfold completeRead
    have h1 : c'.structured = cl.structured := hst
    have h2 : c'.df = false := hdf'
    rw [h1, h2]
    by_cases hs : cl.structured = true
    · rw [if_pos hs]
      cases ok <;> exact ⟨_, rfl⟩
    · have hs : cl.structured = false := by simpa using hs
      rw [if_neg (by simp [hs])]
      cases ok with
      | false => exact ⟨_, rfl⟩
      | true =>
        obtain ⟨data, hd⟩ := allInit_full c'.buf (hin rfl (by simp [ReadCtx.chunked, initCtx, hs]))
        simp only [if_true, hd]
        exact ⟨_, rfl⟩
  obtain ⟨ms, hcr⟩ := hcr
  have hnr : ∃ msgs, handleNormalRead e cl w r = .val (w', msgs) := by
    unfold handleNormalRead
    rw [hdf]
    simp only [Bool.and_false, Bool.false_and, Bool.false_eq_true, if_false, Bool.false_or]
    have hex' := hex
    unfold initCtx at hex'
    rw [hex']
    simp only []
    rw [hcr]
    exact ⟨_, rfl⟩
  obtain ⟨msgs, hnr⟩ := hnr
  refine ⟨w', msgs, ?_, hfl, ho⟩
  unfold handleRead
  rw [hok.nosplice, if_neg (by simp)]
  exact hnr

/-! ### Writing -/

theorem expwritePages_safe (n : Nat) : ∀ (cl : Client) (w : World) (pb : List (Option Byte)) (mapcnt a : Nat)
    (buf : List Byte), CowSafe cl w → pb.length = 4096 → mapcnt = a / 4096 →
    0 < buf.length → n = (a + buf.length - 1) / 4096 + 1 - a / 4096 → a + buf.length ≤ cl.ex.exportsize →
    ∃ cl' w' ok, expwritePages n cl w pb mapcnt a buf = .val (cl', w', ok) ∧ Moved cl w cl' w' ∧
      ∀ q, Dirty cl' q → Dirty cl q ∨ (a / 4096 ≤ q ∧ q ≤ (a + buf.length - 1) / 4096) := by
  induction n with
  | zero => intro cl w pb mapcnt a buf _ _ _ hl hn; omega
  | succ n ih =>
    intro cl w pb mapcnt a buf hok hpb hmap hl hn hr
    have hwhole := hok.whole
    have hlen := hok.len
    have hpage : mapcnt < cl.difmap.length := by rw [hlen]; omega
    obtain ⟨m, hm⟩ : ∃ m, cl.difmap[mapcnt]? = some m := ⟨_, List.getElem?_eq_getElem hpage⟩
    have hoff : a - mapcnt * 4096 = a % 4096 := by omega
    have hcap : mapcnt * 4096 + 4096 ≤ cl.ex.exportsize := by
      clear hm
      omega
    have hpl : pageLen (a % 4096) buf.length = min buf.length (4096 - a % 4096) := by
      unfold pageLen; rw [show DIFFPAGESIZE = 4096 from rfl]; split <;> omega
    generalize hrd : min buf.length (4096 - a % 4096) = wr at hpl
    have hwrpos : 0 < wr := by omega
    have htl : (buf.take wr).length = wr := by rw [List.length_take]; omega
    -- the rest of the loop, after this page
    have hrest : ∀ (cl1 : Client) (w1 : World) (pb1 : List (Option Byte)), pb1.length = 4096 →
        Moved cl w cl1 w1 → (∀ q, Dirty cl1 q → Dirty cl q ∨ q = mapcnt) →
        ∃ cl' w' ok, expwritePages n cl1 w1 pb1 (mapcnt + 1) (a + wr) (buf.drop wr) = .val (cl', w', ok) ∧
          Moved cl w cl' w' ∧
          ∀ q, Dirty cl' q → Dirty cl q ∨ (a / 4096 ≤ q ∧ q ≤ (a + buf.length - 1) / 4096) := by
      intro cl1 w1 pb1 hp1 hst hd
      by_cases hlast : buf.length = wr
      · have hn0 : n = 0 := by omega
        subst hn0
        refine ⟨cl1, w1, true, by rw [expwritePages], hst, ?_⟩
        intro q hq
        rcases hd q hq with h | h
        · exact .inl h
        · right; omega
      · have hdl : (buf.drop wr).length = buf.length - wr := List.length_drop
        obtain ⟨cl', w', ok, h1, h2, h4⟩ := ih cl1 w1 pb1 (mapcnt + 1) (a + wr) (buf.drop wr) (hok.moved hst)
          hp1 (by omega) (by omega) (by rw [hdl]; omega) (by rw [hdl, hst.ex]; omega)
        refine ⟨cl', w', ok, h1, hst.trans h2, ?_⟩
        intro q hq
        rcases h4 q hq with h | h
        · rcases hd q h with h | h
          · exact .inl h
          · right; omega
        · right; rw [hdl] at h; omega
    rw [expwritePages]
    rw [show DIFFPAGESIZE = 4096 from rfl, hoff, hpl, hm]
    simp only []
    by_cases hne : m = NOPAGE
    · subst hne
      rw [if_neg (by simp), hok.nowait]
      simp only [Bool.false_eq_true, and_false, if_false]
      generalize hslot : (if has cl.ex.flags F_SPARSE = true then mapcnt % 2 ^ 32 else cl.difffilelen) = slot
      generalize hdl : (if has cl.ex.flags F_SPARSE = true then cl.difffilelen else (cl.difffilelen + 1) % 2 ^ 32) = dlen
      have hdirty : ∀ (pos : Nat) (q : Nat), Dirty (⟨cl.ex, false, cl.difmap.set mapcnt slot, dlen, cl.difffile, pos,
          cl.structured, cl.tls⟩ : Client) q → Dirty cl q ∨ q = mapcnt := by
        rintro pos q ⟨m', hq, hne'⟩
        have hq : (cl.difmap.set mapcnt slot)[q]? = some m' := hq
        by_cases hqm : q = mapcnt
        · exact .inr hqm
        · rw [List.getElem?_set_ne (Ne.symm hqm)] at hq
          exact .inl ⟨m', hq, hne'⟩
      have hmoved : ∀ (pos : Nat) (w1 : World), w1.orc = w.orc →
          (∀ id, id ≠ .fd cl.difffile → w1.files id = w.files id) →
          Moved cl w (⟨cl.ex, false, cl.difmap.set mapcnt slot, dlen, cl.difffile, pos,
            cl.structured, cl.tls⟩ : Client) w1 :=
        fun pos w1 ho hf => ⟨rfl, hok.nowait.symm, rfl, rfl, by simp, ho, hf⟩
      have hweak : ∀ cl' : Client, (∀ q, Dirty cl' q → Dirty cl q ∨ q = mapcnt) →
          ∀ q, Dirty cl' q → Dirty cl q ∨ (a / 4096 ≤ q ∧ q ≤ (a + buf.length - 1) / 4096) := by
        intro cl' h q hq
        rcases h q hq with h | h
        · exact .inl h
        · right; omega
      have hfill : ∃ (w1 : World) (pb1 : List (Option Byte)) (ok1 : Bool),
          (if a % 4096 ≠ 0 ∨ wr ≠ 4096 then pageIn cl.ex w pb (mapcnt * 4096) 0 4096
            else .val (w, pb, true)) = .val (w1, pb1, ok1) ∧ w1.files = w.files ∧ w1.orc = w.orc ∧
          (ok1 = true → ∃ page : List Byte, bufSet pb1 (a % 4096) (buf.take wr) = page.map some ∧ page.length = 4096) := by
        by_cases hpart : a % 4096 ≠ 0 ∨ wr ≠ 4096
        · rw [if_pos hpart]
          obtain ⟨w1, pb1, ok1, h1, h2, h3, h4⟩ := pageIn_present cl.ex hok.good w hok.eof hok.backed pb (mapcnt * 4096)
            0 4096 hcap (by rw [hpb]; exact Nat.le_refl _)
          have hbs : bufSet pb 0 ((view cl.ex w).read (mapcnt * 4096) 4096) =
              ((view cl.ex w).read (mapcnt * 4096) 4096).map some := by
            unfold bufSet
            rw [List.take_zero, Flat.read_length, List.drop_of_length_le (by omega)]
            simp
          refine ⟨w1, pb1, ok1, h1, h2, h3, fun hok1 => ?_⟩
          rw [h4 hok1, hbs]
          refine ⟨_, bufSet_some _ _ _, ?_⟩
          simp only [List.length_append, List.length_take, List.length_drop, Flat.read_length]
          simp only [List.length_take] at htl
          omega
        · rw [if_neg hpart]
          have h0 : a % 4096 = 0 := by omega
          have hw4 : wr = 4096 := by omega
          refine ⟨w, pb, true, rfl, rfl, rfl, fun _ => ⟨buf.take wr, ?_, by omega⟩⟩
          unfold bufSet
          rw [h0, List.take_zero, htl, List.drop_of_length_le (by omega)]
          simp
      obtain ⟨w1, pb1, ok1, h1, h2, h3, hpg⟩ := hfill
      rw [h1]
      cases ok1 with
      | false => exact ⟨_, _, _, rfl, hmoved _ _ h3 (fun id _ => by rw [h2]), hweak _ (hdirty _)⟩
      | true =>
      obtain ⟨page, h4, h5⟩ := hpg rfl
      simp only []
      rw [h4, allInit_map]
      simp only []
      obtain ⟨w2, r, hpw, ho2, hfl⟩ := sysPwrite_diff w1 cl.difffile cl.diffpos page
      unfold diffAppend
      simp only []
      rw [hpw]
      cases r with
      | none =>
        exact ⟨_, _, _, rfl, hmoved _ _ (ho2.trans h3) (fun id hid => by rw [hfl id hid, h2]), hweak _ (hdirty _)⟩
      | some k =>
      simp only []
      by_cases hk : k = 4096
      · subst hk
        rw [if_neg (by simp)]
        exact hrest _ _ _ (by rw [List.length_map]; exact h5)
          (hmoved _ _ (ho2.trans h3) (fun id hid => by rw [hfl id hid, h2])) (hdirty _)
      · rw [if_pos hk]
        exact ⟨_, _, _, rfl, hmoved _ _ (ho2.trans h3) (fun id hid => by rw [hfl id hid, h2]), hweak _ (hdirty _)⟩
    · rw [if_pos hne]
      obtain ⟨w2, r, hpw, ho2, hfl⟩ := sysPwrite_diff w cl.difffile (diffOffset m (a % 4096)) (buf.take wr)
      rw [hpw]
      have hmv : Moved cl w cl w2 := ⟨rfl, rfl, rfl, rfl, rfl, ho2, hfl⟩
      cases r with
      | none => exact ⟨_, _, _, rfl, hmv, fun q hq => .inl hq⟩
      | some k =>
      simp only []
      by_cases hk : k = wr
      · subst hk
        rw [if_neg (by simp)]
        exact hrest _ _ _ hpb hmv (fun q hq => .inl hq)
      · rw [if_pos hk]
        exact ⟨_, _, _, rfl, hmv, fun q hq => .inl hq⟩

theorem expwrite_safe (cl : Client) (w : World) (a : Nat) (buf : List Byte) (fua : Bool) (hok : CowSafe cl w)
    (hl : 0 < buf.length) (hr : a + buf.length ≤ cl.ex.exportsize) :
    ∃ cl' w' ok, expwrite cl w a buf fua = .val (cl', w', ok) ∧ Moved cl w cl' w' ∧
      ∀ q, Dirty cl' q → Dirty cl q ∨ (a / 4096 ≤ q ∧ q ≤ (a + buf.length - 1) / 4096) := by
  have hsz := hok.good.size
  have hpg : cl.paged = true := by unfold Client.paged; rw [hok.cow]; rfl
  obtain ⟨cl', w', ok, h1, hm, hx⟩ := expwritePages_safe (pageCount a buf.length) cl w (List.replicate DIFFPAGESIZE none)
    (a / 4096) a buf hok (by rw [List.length_replicate]; rfl) rfl hl
    (by unfold pageCount; rw [lastPage_pos hl (by omega)]; rfl) hr
  unfold expwrite
  rw [hpg, if_pos rfl, show a / DIFFPAGESIZE = a / 4096 from rfl, h1]
  cases ok with
  | false => exact ⟨_, _, _, rfl, hm, hx⟩
  | true =>
    simp only []
    split
    · obtain ⟨k1, k2⟩ := sysFsync_diff w' cl'.difffile
      exact ⟨_, _, _, rfl, hm.trans ⟨rfl, rfl, rfl, rfl, rfl, k1, k2⟩, hx⟩
    · exact ⟨_, _, _, rfl, hm, hx⟩

theorem expwriteZeroes_safe (fua : Bool) (a : Nat) (len : Nat) : ∀ (cl : Client) (w : World), CowSafe cl w →
    a + len ≤ cl.ex.exportsize →
    ∃ cl' w' ok, expwriteZeroes cl w a len fua = .val (cl', w', ok) ∧ Moved cl w cl' w' ∧
      ∀ q, Dirty cl' q → Dirty cl q ∨ (0 < len ∧ a / 4096 ≤ q ∧ q ≤ (a + len - 1) / 4096) := by
  have hz : 0 < ZEROCHUNK := by decide
  induction len using Nat.strongRecOn with
  | _ len ih =>
    intro cl w hok hr
    unfold expwriteZeroes
    split
    · exact ⟨_, _, _, rfl, .refl _ _, fun q hq => .inl hq⟩
    · rename_i h0
      simp only []
      have hzl : (Flat.zeros (min len ZEROCHUNK)).length = min len ZEROCHUNK := by simp [Flat.zeros]
      obtain ⟨cl', w', ok, h1, h2, h3⟩ := expwrite_safe cl w a (Flat.zeros (min len ZEROCHUNK)) fua hok
        (by rw [hzl]; omega) (by rw [hzl]; omega)
      rw [hzl] at h3
      rw [h1]
      have h3' : ∀ q, Dirty cl' q → Dirty cl q ∨ (0 < len ∧ a / 4096 ≤ q ∧ q ≤ (a + len - 1) / 4096) := by
        intro q hq
        rcases h3 q hq with h | ⟨ha, hb⟩
        · exact .inl h
        · exact .inr ⟨by omega, ha, Nat.le_trans hb (Nat.div_le_div_right (by omega))⟩
      cases ok with
      | false => exact ⟨_, _, _, rfl, h2, h3'⟩
      | true =>
        simp only []
        obtain ⟨cl2, w2, ok2, k1, k2, k3⟩ := ih (len - min len ZEROCHUNK) (by omega) cl' w' (hok.moved h2)
          (by rw [h2.ex]; omega)
        refine ⟨cl2, w2, ok2, k1, h2.trans k2, ?_⟩
        intro q hq
        rcases k3 q hq with h | ⟨ha, hb, hc⟩
        · exact h3' q h
        · exact .inr ⟨by omega, hb, Nat.le_trans hc (Nat.div_le_div_right (by omega))⟩

/-! ### Requests -/

theorem handleRequest_safe (e : Endian) (cl : Client) (w : World) (r : Req) (p : Payload) (hok : CowSafe cl w)
    (hlen : r.len < 2 ^ 32) (hfit : p.fits r) (hp : p.piped = false)
    (before : List Spec.Cmd) (hd : ∀ q, Dirty cl q → Spec.Written before q)
    (ht : Spec.Gentle cl.ex.exportsize cl.structured before (cmdOf r p)) :
    ∃ cl' w' msgs, handleRequest e cl w r p = .val (cl', w', msgs) ∧ Moved cl w cl' w' ∧
      ∀ q, Dirty cl' q → Spec.Written (before ++ [cmdOf r p]) q := by
  have hsz := hok.good.size
  have hd' : ∀ q, Dirty cl q → Spec.Written (before ++ [cmdOf r p]) q := by
    intro q hq
    obtain ⟨c, hc, hx⟩ := hd q hq
    exact ⟨c, List.mem_append_left _ hc, hx⟩
  have hsame : ∀ w' msgs, w'.files = w.files → w'.orc = w.orc →
      ∃ cl'' w'' msgs'', (Out.val (cl, w', msgs) : Out (Client × World × List Msg)) = .val (cl'', w'', msgs'') ∧
        Moved cl w cl'' w'' ∧ ∀ q, Dirty cl'' q → Spec.Written (before ++ [cmdOf r p]) q :=
    fun w' msgs hf ho => ⟨cl, w', msgs, rfl, .of_files hf ho, hd'⟩
  have hrange : badRange cl r = false → r.start + r.len ≤ cl.ex.exportsize := by
    intro h
    unfold badRange at h
    simp only [Bool.or_eq_false_iff, decide_eq_false_iff_not] at h
    omega
  unfold handleRequest
  simp only [errorReply]
  by_cases hflag : (r.type - r.type % 65536) / 65536 / 4 ≠ 0
  · rw [if_pos hflag]; exact hsame _ _ rfl rfl
  rw [if_neg hflag]
  have hty : r.type < 262144 := by omega
  have hcode : (cmdOf r p).code = r.type % 65536 := by unfold cmdOf; simp only []; rw [if_pos hty]
  by_cases h0 : r.type % 65536 = CMD_READ
  · rw [if_pos h0]
    by_cases hbr : badRange cl r = true
    · rw [if_pos hbr]; exact hsame _ _ rfl rfl
    rw [if_neg hbr]
    have hr := hrange (by simpa using hbr)
    have hc0 : (cmdOf r p).code = 0 := hcode.trans h0
    have hl : 0 < r.len := ht.nonempty (.inl hc0) hr
    obtain ⟨w', msgs, h1, h2, h3⟩ := handleRead_safe e cl w r hok hty hl hr (by
      intro q ha hb hq
      exact ht.read hc0 hr q ⟨hl, ha, hb⟩ (hd q hq))
    rw [h1]
    exact hsame _ _ h2 h3
  rw [if_neg h0]
  by_cases h1 : r.type % 65536 = CMD_WRITE
  · rw [if_pos h1]
    by_cases hbw : badWrite cl = true
    · rw [if_pos hbw]; exact hsame _ _ rfl rfl
    rw [if_neg hbw]
    by_cases hbr : badRange cl r = true
    · rw [if_pos hbr]; exact hsame _ _ rfl rfl
    rw [if_neg hbr]
    have hr := hrange (by simpa using hbr)
    have hc1 : (cmdOf r p).code = 1 := hcode.trans h1
    have hl : 0 < r.len := ht.nonempty (.inr hc1) hr
    unfold handleWrite
    cases p with
    | nothing => exact absurd h1 hfit
    | pipe bs => cases hp
    | data bs =>
      have hbl : bs.length = r.len := hfit
      simp only []
      obtain ⟨cl', w', ok, k1, k2, k3⟩ := expwrite_safe cl w r.start bs (has r.type CMD_FLAG_FUA) hok
        (by omega) (by omega)
      rw [k1]
      refine ⟨_, _, _, rfl, k2, ?_⟩
      intro q hq
      rcases k3 q hq with h | ⟨ha, hb⟩
      · exact hd' q h
      · exact ⟨_, List.mem_append_right _ (List.mem_singleton.mpr rfl), .inl hc1, hl, ha, by rw [hbl] at hb; exact hb⟩
  rw [if_neg h1]
  by_cases h3 : r.type % 65536 = CMD_FLUSH
  · rw [if_pos h3]
    unfold handleFlush expflush
    rw [hok.cow, if_pos rfl]
    obtain ⟨k1, k2⟩ := sysFsync_diff w cl.difffile
    exact ⟨_, _, _, rfl, ⟨rfl, rfl, rfl, rfl, rfl, k1, k2⟩, hd'⟩
  rw [if_neg h3]
  by_cases h4 : r.type % 65536 = CMD_TRIM
  · rw [if_pos h4]
    by_cases hbw : badWrite cl = true
    · rw [if_pos hbw]; exact hsame _ _ rfl rfl
    rw [if_neg hbw]
    by_cases hbr : badRange cl r = true
    · rw [if_pos hbr]; exact hsame _ _ rfl rfl
    rw [if_neg hbr]
    have hr := hrange (by simpa using hbr)
    unfold handleTrim exptrim
    rw [notReadonly (by simpa using hbw), hok.cow]
    simp only [Bool.false_eq_true, if_false, if_true]
    rw [if_neg (by omega)]
    exact hsame _ _ rfl rfl
  rw [if_neg h4]
  by_cases h6 : r.type % 65536 = CMD_WRITE_ZEROES
  · rw [if_pos h6]
    by_cases hbw : badWrite cl = true
    · rw [if_pos hbw]; exact hsame _ _ rfl rfl
    rw [if_neg hbw]
    by_cases hbr : badRange cl r = true
    · rw [if_pos hbr]; exact hsame _ _ rfl rfl
    rw [if_neg hbr]
    have hr := hrange (by simpa using hbr)
    have hc6 : (cmdOf r p).code = 6 := hcode.trans h6
    unfold handleWriteZeroes
    obtain ⟨cl', w', ok, k1, k2, k3⟩ := expwriteZeroes_safe (has r.type CMD_FLAG_FUA) r.start r.len cl w hok hr
    rw [k1]
    refine ⟨_, _, _, rfl, k2, ?_⟩
    intro q hq
    rcases k3 q hq with h | hb
    · exact hd' q h
    · exact ⟨_, List.mem_append_right _ (List.mem_singleton.mpr rfl), .inr hc6, hb⟩
  rw [if_neg h6]
  exact hsame _ _ rfl rfl

/-- What the main loop reads is what the specification reads. -/
theorem fetch_commands (e : Endian) (cl : Client) (hns : has cl.ex.flags F_SPLICE = false) (w w1 : World)
    (stream : List Byte) (r : Req) (p : Payload) (rest : List Byte)
    (h : fetch e cl w stream = .val (w1, .push r p rest)) :
    Spec.commandsIn stream = cmdOf r p :: Spec.commandsIn rest ∧ p.piped = false ∧ w1 = w := by
  have hw := fetch_nosplice e cl hns w w1 stream _ h
  unfold fetch at h
  rw [hns] at h
  split at h
  · cases h
  rename_i h28
  simp only [] at h
  have hty : (loadReq e (stream.take 28)).type = (Spec.Request.decode (stream.take 28)).type :=
    ntohl_load32 e _ (by simp; omega)
  have hst : (loadReq e (stream.take 28)).start = (Spec.Request.decode (stream.take 28)).start :=
    ntohll_load64 e _ (by simp; omega)
  have hln : (loadReq e (stream.take 28)).len = (Spec.Request.decode (stream.take 28)).len :=
    ntohl_load32 e _ (by simp; omega)
  have hmg : (loadReq e (stream.take 28)).magicOk e = true →
      (Spec.Request.decode (stream.take 28)).magic = 0x25609513 := by
    intro hm
    have hm : (loadReq e (stream.take 28)).magic = ntohl e REQUEST_MAGIC := by
      simpa [Req.magicOk] using hm
    have h1 := ntohl_load32 e ((stream.take 28).take 4) (by simp; omega)
    have h2 : load32 e ((stream.take 28).take 4) = ntohl e REQUEST_MAGIC := hm
    rw [h2, ntohl_ntohl] at h1
    exact h1.symm
  split at h
  · cases h
  rename_i hmok
  have hm := hmg (by simpa using hmok)
  rw [Spec.commandsIn, dif_neg h28]
  simp only []
  split at h
  · rename_i hwr
    have hwr' : (Spec.Request.decode (stream.take 28)).type % 65536 = 1 := by rw [← hty]; exact hwr
    simp only [Bool.false_eq_true, if_false, Bool.false_and] at h
    split at h
    · cases h
    · rename_i hlong
      cases h
      rw [if_pos hwr', hm, ← hln, if_neg]
      · refine ⟨?_, rfl, hw⟩
        congr 1
        unfold Spec.Sent.cmd cmdOf
        simp only [hty, hst, hln, Payload.bytes]
        rfl
      · rintro (h | h | h)
        · exact h rfl
        · rw [h] at hwr'; cases hwr'
        · exact hlong h
  · rename_i hwr
    have hwr' : ¬ (Spec.Request.decode (stream.take 28)).type % 65536 = 1 := by rw [← hty]; exact hwr
    split at h
    · cases h
    · rename_i hdisc
      cases h
      rw [if_neg hwr', hm, if_neg]
      · refine ⟨?_, rfl, hw⟩
        simp only [List.drop_zero, List.take_zero]
        congr 1
        unfold Spec.Sent.cmd cmdOf
        simp only [hty, hst, hln, Payload.bytes]
        rfl
      · rintro (h | h | h)
        · exact h rfl
        · exact hdisc (by rw [hty]; exact h)
        · omega

theorem mainloop_gentle (e : Endian) (cl : Client) (w : World) (stream : List Byte) :
    ∀ before : List Spec.Cmd, CowSafe cl w → (∀ q, Dirty cl q → Spec.Written before q) →
    (∀ pre c post, Spec.commandsIn stream = pre ++ c :: post → Spec.Gentle cl.ex.exportsize cl.structured (before ++ pre) c) →
    (mainloop e cl w stream).ending = .gone ∨ (mainloop e cl w stream).ending = .disconnected := by
  fun_induction mainloop e cl w stream with
  | case1 cl w stream hf =>
    intro before hok _ _
    have := ((fetch_safe e cl w stream).2.1 hf).2
    rw [hok.nosplice] at this
    cases this
  | case2 cl w stream hf => exact absurd hf (fetch_safe e cl w stream).1
  | case3 => intro _ _ _ _; exact .inl rfl
  | case4 => intro _ _ _ _; exact .inr rfl
  | case5 cl w stream w1 r p rest hf hq =>
    intro before hok hd ht
    obtain ⟨h1, h2⟩ := (fetch_safe e cl w stream).2.2 _ _ _ _ hf
    obtain ⟨k1, k2, rfl⟩ := fetch_commands e cl hok.nosplice w w1 stream r p rest hf
    have := ht [] _ _ k1
    rw [List.append_nil] at this
    obtain ⟨_, _, _, h, _⟩ := handleRequest_safe e cl w1 r p hok h1 h2 k2 before hd this
    rw [h] at hq; cases hq
  | case6 cl w stream w1 r p rest hf hq =>
    intro before hok hd ht
    obtain ⟨h1, h2⟩ := (fetch_safe e cl w stream).2.2 _ _ _ _ hf
    obtain ⟨k1, k2, rfl⟩ := fetch_commands e cl hok.nosplice w w1 stream r p rest hf
    have := ht [] _ _ k1
    rw [List.append_nil] at this
    obtain ⟨_, _, _, h, _⟩ := handleRequest_safe e cl w1 r p hok h1 h2 k2 before hd this
    rw [h] at hq; cases hq
  | case7 cl w stream w1 r p rest hf cl' w' msgs hq ih =>
    intro before hok hd ht
    obtain ⟨h1, h2⟩ := (fetch_safe e cl w stream).2.2 _ _ _ _ hf
    obtain ⟨k1, k2, rfl⟩ := fetch_commands e cl hok.nosplice w w1 stream r p rest hf
    have h0 := ht [] _ _ k1
    rw [List.append_nil] at h0
    obtain ⟨_, _, _, h, hmv, hdn⟩ := handleRequest_safe e cl w1 r p hok h1 h2 k2 before hd h0
    rw [h] at hq; cases hq
    refine ih (before ++ [cmdOf r p]) (hok.moved hmv) hdn ?_
    intro pre c post hpre
    have := ht (cmdOf r p :: pre) c post (by rw [k1, hpre]; rfl)
    rw [hmv.structured, hmv.ex]
    rw [List.append_assoc]
    exact this

end Nbd
