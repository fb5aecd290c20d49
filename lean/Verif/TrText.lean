import Verif.TrLog
import Verif.TrLogLemmas
import Verif.Nego

/-! The text nbd-trdump prints: `printf` of every line (nbd-trdump.c), the names of nbd-helper.h, the arguments of the program. -/

set_option autoImplicit false

namespace Nbd

/-- A digit of `%x`. For the formats of nbd-trdump.c 70-150. -/
def hexByte (d : Nat) : Byte := UInt8.ofNat (if d < 10 then 48 + d else 87 + d)

/-- `printf` of `%08x` (`k = 8`), `%04x` (`k = 4`) and `%016llx` (`k = 16`) of a number below `16 ^ k`: with these widths a number of 32, 16 or
64 bits has exactly `k` digits. All arguments nbd-trdump gives have these types, except `paylen` (line 150), which is a
`uint32_t` printed with `%04x` but was converted to 16 bits before (line 153). -/
def hexText : Nat → Nat → List Byte
  | 0, _ => []
  | k + 1, v => hexText k (v / 16) ++ [hexByte (v % 16)]

/-- `printf` of `%20s` (`k = 20`) and the like: filled with blanks on the left, never cut. -/
def padText (k : Nat) (s : List Byte) : List Byte := List.replicate (k - s.length) 32 ++ s

/-- nbd-helper.h 31-45, `getcommandname`, with the numbers of nbd.h 33-41. -/
def commandName (c : Nat) : List Byte :=
  if c = 0 then ascii "NBD_CMD_READ" else if c = 1 then ascii "NBD_CMD_WRITE" else if c = 2 then ascii "NBD_CMD_DISC"
  else if c = 3 then ascii "NBD_CMD_FLUSH" else if c = 4 then ascii "NBD_CMD_TRIM" else if c = 5 then ascii "NBD_CMD_CACHE"
  else if c = 6 then ascii "NBD_CMD_WRITE_ZEROES" else if c = 7 then ascii "NBD_CMD_BLOCK_STATUS"
  else if c = 8 then ascii "NBD_CMD_RESIZE" else ascii "UNKNOWN"

/-- nbd-helper.h 53-59, `gettracelogname`. -/
def tracelogName (t : Nat) : List Byte :=
  if t = TRACELOG_SET_DATALOG.toNat then ascii "NBD_TRACELOG_SET_DATALOG" else ascii "UNKNOWN"

/-- nbd-helper.h 61-73, `getstructreplname`, with the numbers of nbd.h 76-82. -/
def structreplName (t : Nat) : List Byte :=
  if t = 0 then ascii "NBD_REPLY_TYPE_NONE" else if t = 1 then ascii "NBD_REPLY_TYPE_OFFSET_DATA"
  else if t = 2 then ascii "NBD_REPLY_TYPE_OFFSET_HOLE" else if t = 3 then ascii "NBD_REPLY_TYPE_BLOCK_STATUS"
  else if t = 32769 then ascii "NBD_REPLY_TYPE_ERROR" else if t = 32770 then ascii "NBD_REPLY_TYPE_ERROR_OFFSET"
  else ascii "UNKNOWN"

/-- The `printf` calls of nbd-trdump.c 85-91, 97-99, 122-127, 133, 136, 139, 156-161 and 165, without the newline each ends with. -/
def DumpLine.text : DumpLine → List Byte
  | .request cookie command offset len =>
    ascii "> H=" ++ hexText 16 cookie ++ ascii " C=0x" ++ hexText 8 command ++ ascii " (" ++
      padText 20 (commandName (command % 65536)) ++ ascii "+" ++
      padText 4 (if (command / 65536) % 2 = 1 then ascii "FUA" else ascii "NONE") ++
      ascii ") O=" ++ hexText 16 offset ++ ascii " L=" ++ hexText 8 len
  | .reply cookie error => ascii "< H=" ++ hexText 16 cookie ++ ascii " E=0x" ++ hexText 8 error
  | .option command offset len =>
    ascii "TRACE_OPTION C=0x" ++ hexText 8 command ++ ascii " (" ++ padText 23 (tracelogName command) ++ ascii ") O=" ++
      hexText 16 offset ++ ascii " L=" ++ hexText 8 len
  | .datalog on => ascii "TRACE_OPTION DATALOG set to " ++ (if on then ascii "1." else ascii "0.")
  | .unknownType => ascii "TRACE_OPTION ? Unknown type"
  | .unknownFrom => ascii "TRACE_OPTION ? Unknown FROM_MAGIC"
  | .chunk cookie type flags paylen =>
    ascii "<S: H=" ++ hexText 16 cookie ++ ascii " T=0x" ++ hexText 4 type ++ ascii " (" ++
      padText 20 (structreplName type) ++ ascii ") F=0x" ++ hexText 4 flags ++ ascii " L=0x" ++ hexText 4 paylen
  | .unknown magic => ascii "? Unknown transaction type " ++ hexText 8 magic

/-- nbd-trdump.c 41-171, `main`: what the program prints, and its exit status. `args` are the arguments after the program's name
`self`; `input` is what standard input gives; `fails` says that the read after that gives an error and not the end of the file (27-39;
the message on standard error is left out). `version` is `PACKAGE_VERSION`. -/
def trdumpMain (e : Endian) (version self : List Byte) (args : List (List Byte)) (input : List Byte) (fails : Bool) : List Byte × Nat :=
  match args with
  | a :: _ =>
    let usage := ascii "This is nbd-trdump, part of nbd " ++ version ++ ascii ".\nUse: " ++ self ++ ascii " < transactionlog\n"
    if a = ascii "--help" || a = ascii "-h" then (usage, 0)
    else (ascii "E: unknown option " ++ a ++ ascii ".\n" ++ usage, 1)
  | [] => ((trdump e false input).flatMap fun l => l.text ++ [10], if fails then 1 else 0)

/-! ### Numbers and columns -/

namespace Spec

/-- The value of a hexadecimal digit in lower case. (Specification: how somebody reads the output of nbd-trdump.c; models no code.) -/
def digitVal (b : Byte) : Option Nat :=
  if 48 ≤ b.toNat ∧ b.toNat ≤ 57 then some (b.toNat - 48)
  else if 97 ≤ b.toNat ∧ b.toNat ≤ 102 then some (b.toNat - 87) else none

/-- The value of a hexadecimal number, the most significant digit first.
(Specification: how somebody reads the output of nbd-trdump.c; models no code.) -/
def hexVal (l : List Byte) : Option Nat :=
  l.foldl (fun a b => a.bind fun x => (digitVal b).map fun d => 16 * x + d) (some 0)

/-- `n` characters from column `i` on. (Specification: how somebody reads the output of nbd-trdump.c; models no code.) -/
def cols (l : List Byte) (i n : Nat) : List Byte := (l.drop i).take n

/-- The lines of a text in which every line ends with a newline. (Specification: how somebody reads the output of nbd-trdump.c; models no code.) -/
def linesFrom (cur : List Byte) : List Byte → List (List Byte)
  | [] => if cur = [] then [] else [cur]
  | b :: t => if b = 10 then cur :: linesFrom [] t else linesFrom (cur ++ [b]) t

/-- (Specification: how somebody reads the output of nbd-trdump.c; models no code.) -/
def textLines (t : List Byte) : List (List Byte) := linesFrom [] t

/-- What somebody who knows the format reads in a line of nbd-trdump: the numbers in their columns (those after a name of varying length
counted from the end of the line). (Specification: how somebody reads the output of nbd-trdump.c; models no code.) -/
def readLine (l : List Byte) : Option DumpLine :=
  if l.take 4 = ascii "> H=" then
    (hexVal (cols l 4 16)).bind fun cookie => (hexVal (cols l 25 8)).bind fun command =>
      (hexVal (cols l 64 16)).bind fun offset => (hexVal (cols l 83 8)).map fun len => .request cookie command offset len
  else if l.take 4 = ascii "< H=" then
    (hexVal (cols l 4 16)).bind fun cookie => (hexVal (cols l 25 8)).map fun error => .reply cookie error
  else if l.take 6 = ascii "<S: H=" then
    (hexVal (cols l 6 16)).bind fun cookie => (hexVal (cols l 27 4)).bind fun type =>
      (hexVal (cols l (l.length - 13) 4)).bind fun flags => (hexVal (cols l (l.length - 4) 4)).map fun paylen =>
        .chunk cookie type flags paylen
  else if l.take 17 = ascii "TRACE_OPTION C=0x" then
    (hexVal (cols l 17 8)).bind fun command => (hexVal (cols l (l.length - 27) 16)).bind fun offset =>
      (hexVal (cols l (l.length - 8) 8)).map fun len => .option command offset len
  else if l = ascii "TRACE_OPTION DATALOG set to 1." then some (.datalog true)
  else if l = ascii "TRACE_OPTION DATALOG set to 0." then some (.datalog false)
  else if l = ascii "TRACE_OPTION ? Unknown type" then some .unknownType
  else if l = ascii "TRACE_OPTION ? Unknown FROM_MAGIC" then some .unknownFrom
  else if l.take 27 = ascii "? Unknown transaction type " then (hexVal (cols l 27 8)).map .unknown
  else none

end Spec

open Spec

theorem hexText_length (k v : Nat) : (hexText k v).length = k := by
  induction k generalizing v with
  | zero => rfl
  | succ k ih => simp [hexText, ih]

theorem digitVal_hexByte : ∀ d < 16, digitVal (hexByte d) = some d := by decide

theorem hexVal_hexText (k v : Nat) (h : v < 16 ^ k) : hexVal (hexText k v) = some v := by
  induction k generalizing v with
  | zero => simp at h; subst h; rfl
  | succ k ih =>
    have h1 : v / 16 < 16 ^ k := by rw [Nat.pow_succ] at h; omega
    have h2 := ih _ h1
    unfold hexVal at h2 ⊢
    rw [hexText, List.foldl_append, h2]
    simp only [List.foldl_cons, List.foldl_nil, Option.bind_some, digitVal_hexByte _ (Nat.mod_lt v (by decide : 16 > 0)), Option.map_some]
    congr 1
    omega

theorem hexByte_ne : ∀ d < 16, hexByte d ≠ 10 := by decide

theorem hexText_ne (k v : Nat) : (10 : Byte) ∉ hexText k v := by
  induction k generalizing v with
  | zero => simp [hexText]
  | succ k ih =>
    rw [hexText, List.mem_append]
    rintro (h | h)
    · exact ih _ h
    · exact hexByte_ne _ (Nat.mod_lt v (by decide)) (List.mem_singleton.mp h).symm

theorem cols_at {l a h b : List Byte} {i n : Nat} (hl : l = a ++ (h ++ b)) (ha : a.length = i) (hn : h.length = n) : cols l i n = h := by
  subst hl
  rw [cols, List.drop_left' ha, List.take_left' hn]

theorem padText_ne (k : Nat) (s : List Byte) (h : (10 : Byte) ∉ s) : (10 : Byte) ∉ padText k s := by
  rw [padText, List.mem_append]
  rintro (h' | h')
  · have := List.eq_of_mem_replicate h'
    revert this; decide
  · exact h h'

theorem commandName_props (c : Nat) : (commandName c).length ≤ 20 ∧ (10 : Byte) ∉ commandName c := by
  unfold commandName
  repeat' split
  all_goals decide

theorem structreplName_props (c : Nat) : (10 : Byte) ∉ structreplName c := by
  unfold structreplName
  repeat' split
  all_goals decide

theorem tracelogName_props (c : Nat) : (10 : Byte) ∉ tracelogName c := by
  unfold tracelogName
  split
  all_goals decide

theorem padText_length (k : Nat) (s : List Byte) (h : s.length ≤ k) : (padText k s).length = k := by
  rw [padText, List.length_append, List.length_replicate]; omega

/-- The numbers of a line have the widths they are printed with. (Specification: how somebody reads the output of nbd-trdump.c; models no code.) -/
def DumpLine.Fits : DumpLine → Prop
  | .request cookie command offset len => cookie < 16 ^ 16 ∧ command < 16 ^ 8 ∧ offset < 16 ^ 16 ∧ len < 16 ^ 8
  | .reply cookie error => cookie < 16 ^ 16 ∧ error < 16 ^ 8
  | .option command offset len => command < 16 ^ 8 ∧ offset < 16 ^ 16 ∧ len < 16 ^ 8
  | .chunk cookie type flags paylen => cookie < 16 ^ 16 ∧ type < 16 ^ 4 ∧ flags < 16 ^ 4 ∧ paylen < 16 ^ 4
  | .unknown magic => magic < 16 ^ 8
  | _ => True

theorem u64_lt (x : UInt64) : x.toNat < 16 ^ 16 := x.toNat_lt
theorem u32_lt (x : UInt32) : x.toNat < 16 ^ 8 := x.toNat_lt
theorem u16_lt (x : UInt16) : x.toNat < 16 ^ 4 := x.toNat_lt

theorem loadReq_lt (e : Endian) (bs : List Byte) :
    (loadReq e bs).type < 16 ^ 8 ∧ (loadReq e bs).start < 16 ^ 16 ∧ (loadReq e bs).len < 16 ^ 8 :=
  ⟨u32_lt _, u64_lt _, u32_lt _⟩

theorem traceOption_fits (c s n : Nat) (d : Bool) : ∀ l ∈ (traceOption c s n d).2, l.Fits := by
  intro l hl
  unfold traceOption at hl
  split at hl
  · split at hl <;> (simp only [List.mem_singleton] at hl; subst hl; trivial)
  · simp only [List.mem_singleton] at hl; subst hl; trivial

theorem trdump_fits (e : Endian) (d : Bool) (log : List Byte) : ∀ l ∈ trdump e d log, l.Fits := by
  induction hn : log.length using Nat.strongRecOn generalizing log d with
  | _ n ih =>
    subst hn
    have go : ∀ (d : Bool) (k : Nat), 0 < k → 4 ≤ log.length → ∀ l ∈ trdump e d (log.drop k), l.Fits := by
      intro d k hk hlen
      exact ih _ (by rw [List.length_drop]; omega) d _ rfl
    rw [trdump.eq_def]
    by_cases h4 : log.length < 4
    · rw [dif_pos h4]; simp
    rw [dif_neg h4]
    have h4 : 4 ≤ log.length := by omega
    obtain ⟨ht, hs, hl⟩ := loadReq_lt e (log.take 28)
    dsimp only
    by_cases m1 : ntohl e (load32 e (log.take 4)) = REQUEST_MAGIC
    · rw [if_pos m1]
      by_cases h28 : log.length < 28
      · rw [if_pos h28]; simp
      rw [if_neg h28]
      have hline : (DumpLine.request (ntohll e (load64 e (loadReq e (log.take 28)).cookie)).toNat (loadReq e (log.take 28)).type
          (loadReq e (log.take 28)).start (loadReq e (log.take 28)).len).Fits := ⟨u64_lt _, ht, hs, hl⟩
      split
      · split
        · intro l h; rw [List.mem_singleton] at h; subst h; exact hline
        · intro l h
          rcases List.mem_cons.mp h with rfl | h
          · exact hline
          · rw [List.drop_drop] at h
            exact go d _ (by omega) h4 l h
      · intro l h
        rcases List.mem_cons.mp h with rfl | h
        · exact hline
        · exact go d _ (by omega) h4 l h
    rw [if_neg m1]
    by_cases m2 : ntohl e (load32 e (log.take 4)) = REPLY_MAGIC
    · rw [if_pos m2]
      split
      · simp
      · intro l h
        rcases List.mem_cons.mp h with rfl | h
        · exact ⟨u64_lt _, u32_lt _⟩
        · exact go d _ (by omega) h4 l h
    rw [if_neg m2]
    by_cases m3 : ntohl e (load32 e (log.take 4)) = TRACELOG_MAGIC
    · rw [if_pos m3]
      split
      · simp
      · intro l h
        rcases List.mem_cons.mp h with rfl | h
        · exact ⟨ht, hs, hl⟩
        · rcases List.mem_append.mp h with h | h
          · exact traceOption_fits _ _ _ _ l h
          · exact go _ _ (by omega) h4 l h
    rw [if_neg m3]
    by_cases m4 : ntohl e (load32 e (log.take 4)) = STRUCTURED_REPLY_MAGIC
    · rw [if_pos m4]
      split
      · simp
      · intro l h
        rcases List.mem_cons.mp h with rfl | h
        · exact ⟨u64_lt _, u16_lt _, u16_lt _, u16_lt _⟩
        · exact go d _ (by omega) h4 l h
    rw [if_neg m4]
    intro l h
    rcases List.mem_cons.mp h with rfl | h
    · exact u32_lt _
    · exact go d _ (by omega) h4 l h

theorem text_ne (l : DumpLine) : (10 : Byte) ∉ l.text := by
  have a : ∀ s : List Byte, s.all (· != 10) = true → (10 : Byte) ∉ s := by
    intro s h hm
    have := List.all_eq_true.mp h _ hm
    simp at this
  cases l with
  | request cookie command offset len =>
    simp only [DumpLine.text, List.mem_append, not_or, and_assoc]
    exact ⟨a _ (by decide), hexText_ne _ _, a _ (by decide), hexText_ne _ _, a _ (by decide),
      padText_ne _ _ (commandName_props _).2, a _ (by decide), padText_ne _ _ (by split <;> decide), a _ (by decide), hexText_ne _ _,
      a _ (by decide), hexText_ne _ _⟩
  | reply cookie error =>
    simp only [DumpLine.text, List.mem_append, not_or, and_assoc]
    exact ⟨a _ (by decide), hexText_ne _ _, a _ (by decide), hexText_ne _ _⟩
  | option command offset len =>
    simp only [DumpLine.text, List.mem_append, not_or, and_assoc]
    exact ⟨a _ (by decide), hexText_ne _ _, a _ (by decide), padText_ne _ _ (tracelogName_props _), a _ (by decide), hexText_ne _ _,
      a _ (by decide), hexText_ne _ _⟩
  | datalog on => cases on <;> decide
  | unknownType => decide
  | unknownFrom => decide
  | chunk cookie type flags paylen =>
    simp only [DumpLine.text, List.mem_append, not_or, and_assoc]
    exact ⟨a _ (by decide), hexText_ne _ _, a _ (by decide), hexText_ne _ _, a _ (by decide),
      padText_ne _ _ (structreplName_props _), a _ (by decide), hexText_ne _ _, a _ (by decide), hexText_ne _ _⟩
  | unknown magic =>
    simp only [DumpLine.text, List.mem_append, not_or]
    exact ⟨a _ (by decide), hexText_ne _ _⟩

theorem readLine_text (l : DumpLine) (h : l.Fits) : readLine l.text = some l := by
  cases l with
  | request cookie command offset len =>
    obtain ⟨h1, h2, h3, h4⟩ := h
    have hp : ∀ r : List Byte, (ascii "> H=" ++ r).take 4 = ascii "> H=" := fun r => List.take_left' (by decide)
    have hf : (padText 4 (if (command / 65536) % 2 = 1 then ascii "FUA" else ascii "NONE")).length = 4 := by split <;> decide
    have hc := padText_length 20 _ (commandName_props (command % 65536)).1
    have l0 : (ascii "> H=").length = 4 := by decide
    have l1 : (ascii " C=0x").length = 5 := by decide
    have l2 : (ascii " (").length = 2 := by decide
    have l3 : (ascii "+").length = 1 := by decide
    have l4 : (ascii ") O=").length = 4 := by decide
    have l5 : (ascii " L=").length = 3 := by decide
    generalize ht : (DumpLine.request cookie command offset len).text = t
    simp only [DumpLine.text] at ht
    generalize hN : padText 20 (commandName (command % 65536)) = N at *
    generalize hF : padText 4 (if (command / 65536) % 2 = 1 then ascii "FUA" else ascii "NONE") = F at *
    have c1 : cols t 4 16 = hexText 16 cookie := by
      refine cols_at (a := ascii "> H=") (by rw [← ht]; simp only [List.append_assoc]; rfl) l0 (hexText_length _ _)
    have c2 : cols t 25 8 = hexText 8 command := by
      refine cols_at (a := ascii "> H=" ++ hexText 16 cookie ++ ascii " C=0x") (by rw [← ht]; simp only [List.append_assoc]; rfl) ?_
        (hexText_length _ _)
      simp only [List.length_append, hexText_length, l0, l1]
    have c3 : cols t 64 16 = hexText 16 offset := by
      refine cols_at (a := ascii "> H=" ++ hexText 16 cookie ++ ascii " C=0x" ++ hexText 8 command ++ ascii " (" ++ N ++ ascii "+" ++ F ++ ascii ") O=")
        (by rw [← ht]; simp only [List.append_assoc]; rfl) ?_ (hexText_length _ _)
      simp only [List.length_append, hexText_length, l0, l1, l2, l3, l4, hc, hf]
    have c4 : cols t 83 8 = hexText 8 len := by
      refine cols_at (a := ascii "> H=" ++ hexText 16 cookie ++ ascii " C=0x" ++ hexText 8 command ++ ascii " (" ++ N ++ ascii "+" ++ F ++ ascii ") O=" ++
        hexText 16 offset ++ ascii " L=") (b := [])
        (by rw [← ht]; simp only [List.append_assoc, List.append_nil]) ?_ (hexText_length _ _)
      simp only [List.length_append, hexText_length, l0, l1, l2, l3, l4, l5, hc, hf]
    have ht4 : t.take 4 = ascii "> H=" := by
      rw [← ht]; simp only [List.append_assoc]; exact hp _
    rw [readLine, if_pos ht4, c1, c2, c3, c4, hexVal_hexText _ _ h1, hexVal_hexText _ _ h2, hexVal_hexText _ _ h3, hexVal_hexText _ _ h4]
    rfl
  | reply cookie error =>
    obtain ⟨h1, h2⟩ := h
    have l0 : (ascii "< H=").length = 4 := by decide
    have l1 : (ascii " E=0x").length = 5 := by decide
    generalize ht : (DumpLine.reply cookie error).text = t
    simp only [DumpLine.text] at ht
    have c1 : cols t 4 16 = hexText 16 cookie :=
      cols_at (a := ascii "< H=") (by rw [← ht]; simp only [List.append_assoc]; rfl) l0 (hexText_length _ _)
    have c2 : cols t 25 8 = hexText 8 error := by
      refine cols_at (a := ascii "< H=" ++ hexText 16 cookie ++ ascii " E=0x") (b := [])
        (by rw [← ht]; simp only [List.append_assoc, List.append_nil]) ?_ (hexText_length _ _)
      simp only [List.length_append, hexText_length, l0, l1]
    have ht4 : t.take 4 = ascii "< H=" := by
      rw [← ht]; simp only [List.append_assoc]; exact List.take_left' l0
    rw [readLine, if_neg (by rw [ht4]; decide), if_pos ht4, c1, c2, hexVal_hexText _ _ h1, hexVal_hexText _ _ h2]
    rfl
  | option command offset len =>
    obtain ⟨h1, h2, h3⟩ := h
    have l0 : (ascii "TRACE_OPTION C=0x").length = 17 := by decide
    have l4 : (ascii ") O=").length = 4 := by decide
    have l5 : (ascii " L=").length = 3 := by decide
    generalize ht : (DumpLine.option command offset len).text = t
    simp only [DumpLine.text] at ht
    generalize padText 23 (tracelogName command) = N at *
    have hl := congrArg List.length ht
    simp only [List.length_append, hexText_length, l0, l4, l5] at hl
    have c1 : cols t 17 8 = hexText 8 command :=
      cols_at (a := ascii "TRACE_OPTION C=0x") (by rw [← ht]; simp only [List.append_assoc]; rfl) l0 (hexText_length _ _)
    have c2 : cols t (t.length - 27) 16 = hexText 16 offset := by
      refine cols_at (a := ascii "TRACE_OPTION C=0x" ++ hexText 8 command ++ ascii " (" ++ N ++ ascii ") O=")
        (by rw [← ht]; simp only [List.append_assoc]; rfl) ?_ (hexText_length _ _)
      simp only [List.length_append, hexText_length, l0, l4]
      omega
    have c3 : cols t (t.length - 8) 8 = hexText 8 len := by
      refine cols_at (a := ascii "TRACE_OPTION C=0x" ++ hexText 8 command ++ ascii " (" ++ N ++ ascii ") O=" ++ hexText 16 offset ++ ascii " L=")
        (b := []) (by rw [← ht]; simp only [List.append_assoc, List.append_nil]) ?_ (hexText_length _ _)
      simp only [List.length_append, hexText_length, l0, l4, l5]
      omega
    have ht17 : t.take 17 = ascii "TRACE_OPTION C=0x" := by
      rw [← ht]; simp only [List.append_assoc]; exact List.take_left' l0
    have ht4 : t.take 4 = ascii "TRAC" := by
      rw [show t.take 4 = (t.take 17).take 4 by rw [List.take_take]; rfl, ht17]; decide
    have ht6 : t.take 6 = ascii "TRACE_" := by
      rw [show t.take 6 = (t.take 17).take 6 by rw [List.take_take]; rfl, ht17]; decide
    rw [readLine, if_neg (by rw [ht4]; decide), if_neg (by rw [ht4]; decide), if_neg (by rw [ht6]; decide), if_pos ht17, c1, c2, c3,
      hexVal_hexText _ _ h1, hexVal_hexText _ _ h2, hexVal_hexText _ _ h3]
    rfl
  | datalog on => cases on <;> decide +kernel
  | unknownType => decide +kernel
  | unknownFrom => decide +kernel
  | chunk cookie type flags paylen =>
    obtain ⟨h1, h2, h3, h4⟩ := h
    have l0 : (ascii "<S: H=").length = 6 := by decide
    have l1 : (ascii " T=0x").length = 5 := by decide
    have l4 : (ascii ") F=0x").length = 6 := by decide
    have l5 : (ascii " L=0x").length = 5 := by decide
    generalize ht : (DumpLine.chunk cookie type flags paylen).text = t
    simp only [DumpLine.text] at ht
    generalize padText 20 (structreplName type) = N at *
    have hl := congrArg List.length ht
    simp only [List.length_append, hexText_length, l0, l1, l4, l5] at hl
    have c1 : cols t 6 16 = hexText 16 cookie :=
      cols_at (a := ascii "<S: H=") (by rw [← ht]; simp only [List.append_assoc]; rfl) l0 (hexText_length _ _)
    have c2 : cols t 27 4 = hexText 4 type := by
      refine cols_at (a := ascii "<S: H=" ++ hexText 16 cookie ++ ascii " T=0x")
        (by rw [← ht]; simp only [List.append_assoc]; rfl) ?_ (hexText_length _ _)
      simp only [List.length_append, hexText_length, l0, l1]
    have c3 : cols t (t.length - 13) 4 = hexText 4 flags := by
      refine cols_at (a := ascii "<S: H=" ++ hexText 16 cookie ++ ascii " T=0x" ++ hexText 4 type ++ ascii " (" ++ N ++ ascii ") F=0x")
        (by rw [← ht]; simp only [List.append_assoc]; rfl) ?_ (hexText_length _ _)
      simp only [List.length_append, hexText_length, l0, l1, l4]
      omega
    have c4 : cols t (t.length - 4) 4 = hexText 4 paylen := by
      refine cols_at (a := ascii "<S: H=" ++ hexText 16 cookie ++ ascii " T=0x" ++ hexText 4 type ++ ascii " (" ++ N ++ ascii ") F=0x" ++
        hexText 4 flags ++ ascii " L=0x") (b := []) (by rw [← ht]; simp only [List.append_assoc, List.append_nil]) ?_ (hexText_length _ _)
      simp only [List.length_append, hexText_length, l0, l1, l4, l5]
      omega
    have ht6 : t.take 6 = ascii "<S: H=" := by
      rw [← ht]; simp only [List.append_assoc]; exact List.take_left' l0
    have ht4 : t.take 4 = ascii "<S: " := by
      rw [show t.take 4 = (t.take 6).take 4 by rw [List.take_take]; rfl, ht6]; decide
    rw [readLine, if_neg (by rw [ht4]; decide), if_neg (by rw [ht4]; decide), if_pos ht6, c1, c2, c3, c4,
      hexVal_hexText _ _ h1, hexVal_hexText _ _ h2, hexVal_hexText _ _ h3, hexVal_hexText _ _ h4]
    rfl
  | unknown magic =>
    have l0 : (ascii "? Unknown transaction type ").length = 27 := by decide
    generalize ht : (DumpLine.unknown magic).text = t
    simp only [DumpLine.text] at ht
    have c1 : cols t 27 8 = hexText 8 magic :=
      cols_at (a := ascii "? Unknown transaction type ") (b := []) (by rw [← ht]; simp only [List.append_nil]) l0 (hexText_length _ _)
    have ht27 : t.take 27 = ascii "? Unknown transaction type " := by
      rw [← ht]; exact List.take_left' l0
    have sub : ∀ k, k ≤ 27 → t.take k = (ascii "? Unknown transaction type ").take k := by
      intro k hk
      rw [← ht27, List.take_take, Nat.min_eq_left hk]
    have ne : ∀ s : List Byte, s.take 1 ≠ ascii "?" → t ≠ s := by
      rintro s hs rfl
      exact hs (by rw [sub 1 (by decide)]; decide)
    rw [readLine, if_neg (by rw [sub 4 (by decide)]; decide), if_neg (by rw [sub 4 (by decide)]; decide),
      if_neg (by rw [sub 6 (by decide)]; decide), if_neg (by rw [sub 17 (by decide)]; decide), if_neg (ne _ (by decide)),
      if_neg (ne _ (by decide)), if_neg (ne _ (by decide)), if_neg (ne _ (by decide)), if_pos ht27, c1, hexVal_hexText _ _ h]
    rfl

theorem linesFrom_line (cur l t : List Byte) (h : (10 : Byte) ∉ l) : linesFrom cur (l ++ 10 :: t) = (cur ++ l) :: linesFrom [] t := by
  induction l generalizing cur with
  | nil => simp [linesFrom]
  | cons b l ih =>
    have hb : b ≠ 10 := fun hb => h (by simp [hb])
    rw [List.cons_append, linesFrom, if_neg hb, ih _ (fun hm => h (List.mem_cons_of_mem _ hm)), List.append_assoc]
    rfl

theorem textLines_dump (ls : List DumpLine) : textLines (ls.flatMap fun l => l.text ++ [10]) = ls.map DumpLine.text := by
  induction ls with
  | nil => rfl
  | cons l ls ih =>
    rw [List.flatMap_cons, List.append_assoc, textLines, List.singleton_append, linesFrom_line _ _ _ (text_ne l)]
    exact congrArg (_ :: ·) ih

end Nbd
