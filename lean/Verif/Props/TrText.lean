import Verif.TrText
import Verif.Props.TrLog
/-!
# What nbd-trdump prints: C101

`Spec.textLines` cuts a text into lines, `Spec.readLine` reads the numbers in the columns of a line (both in `Verif.TrText`);
`Spec.sessionLog` and `Spec.Record.lines` (C40) say what a log of a session contains and which numbers each record has.
-/

set_option autoImplicit false

namespace Nbd.Spec

/-- The names of the commands, from the protocol. -/
def commandNames : List (Nat × String) :=
  [(0, "NBD_CMD_READ"), (1, "NBD_CMD_WRITE"), (2, "NBD_CMD_DISC"), (3, "NBD_CMD_FLUSH"), (4, "NBD_CMD_TRIM"), (5, "NBD_CMD_CACHE"),
   (6, "NBD_CMD_WRITE_ZEROES"), (7, "NBD_CMD_BLOCK_STATUS"), (8, "NBD_CMD_RESIZE")]

/-- A column without the blanks in front. -/
def trimmed (s : List Byte) : List Byte := s.dropWhile (· = 32)

end Nbd.Spec

namespace Nbd.Props

open Nbd.Spec

/-- **C101** for any file: nbd-trdump without arguments ends whatever its input is; every line it prints can be read back, and the
lines are those of the records found in the input. It succeeds unless reading fails. -/
theorem C101_any (e : Endian) (version self input : List Byte) (fails : Bool) :
    (textLines (trdumpMain e version self [] input fails).1).map readLine = (trdump e false input).map some ∧
    ((trdumpMain e version self [] input fails).2 = 0 ↔ fails = false) := by
  refine ⟨?_, by cases fails <;> simp [trdumpMain]⟩
  show (textLines ((trdump e false input).flatMap fun l => l.text ++ [10])).map readLine = _
  rw [textLines_dump, List.map_map]
  refine List.map_congr_left ?_
  intro l hl
  exact readLine_text l (trdump_fits e false input l hl)

/-- **C101.** For every session with a log in a new file that the client ends: the text nbd-trdump prints for the log contains, line by
line, the numbers of every request and reply of the session, in order, and the program succeeds.

Missing: the length of structured replies (`C40_false_length`), and logs that were cut off (`C101_false_truncated`). -/
theorem C101_partial (e : Endian) (cl : Client) (w : World) (ss : List Sent) (hok : ∀ s ∈ ss, s.Ok)
    (fin : Option Request) (hfin : ∀ r ∈ fin, r.IsDisc)
    (hns : has cl.ex.flags F_DATALOG = true → has cl.ex.flags F_SPLICE = false)
    (hend : Clean (mainloop e cl w (ss.flatMap Sent.encode ++ closing fin)).ending) (version self : List Byte) :
    ∃ answers : List (List Reply), answers.length = ss.length ∧
      (mainloop e cl w (ss.flatMap Sent.encode ++ closing fin)).sent = wire answers.flatten ∧
      (∀ (i : Nat) (s : Sent) (rs : List Reply), ss[i]? = some s → answers[i]? = some rs → Answer s.req.cookie rs) ∧
      (textLines (trdumpMain e version self [] (loggedSession e cl w (ss.flatMap Sent.encode ++ closing fin) []).2 false).1).map readLine =
        ((sessionLog (has cl.ex.flags F_DATALOG) ss answers fin).flatMap (Record.lines e)).map some ∧
      (trdumpMain e version self [] (loggedSession e cl w (ss.flatMap Sent.encode ++ closing fin) []).2 false).2 = 0 := by
  obtain ⟨-, answers, h1, h2, h3, -, h5⟩ := C40_partial e cl w ss hok fin hfin hns hend
  refine ⟨answers, h1, h2, h3, ?_, rfl⟩
  rw [(C101_any e version self _ false).1, h5]

/-- **C101**, the words: the line of a request has, in columns 35 to 54, the name of its command if it has one and `UNKNOWN`
otherwise, and in columns 56 to 59 whether it asks for forced unit access (bit 16 of the command). -/
theorem C101_names (cookie command offset len : Nat) :
    trimmed (cols (DumpLine.request cookie command offset len).text 35 20) =
      ascii ((commandNames.lookup (command % 65536)).getD "UNKNOWN") ∧
    trimmed (cols (DumpLine.request cookie command offset len).text 56 4) = ascii (if command.testBit 16 then "FUA" else "NONE") := by
  have hf : ∀ x : List Byte, x = ascii "FUA" ∨ x = ascii "NONE" → (padText 4 x).length = 4 := by
    rintro x (rfl | rfl) <;> decide
  have hc := padText_length 20 _ (commandName_props (command % 65536)).1
  have l0 : (ascii "> H=").length = 4 := by decide
  have l1 : (ascii " C=0x").length = 5 := by decide
  have l2 : (ascii " (").length = 2 := by decide
  have l3 : (ascii "+").length = 1 := by decide
  constructor
  · rw [cols_at (a := ascii "> H=" ++ hexText 16 cookie ++ ascii " C=0x" ++ hexText 8 command ++ ascii " (")
      (h := padText 20 (commandName (command % 65536))) (by simp only [DumpLine.text, List.append_assoc]; rfl)
      (by simp only [List.length_append, hexText_length, l0, l1, l2]) hc]
    generalize command % 65536 = c
    unfold commandName commandNames
    by_cases h0 : c = 0
    · subst h0; decide
    by_cases h1 : c = 1
    · subst h1; decide
    by_cases h2 : c = 2
    · subst h2; decide
    by_cases h3 : c = 3
    · subst h3; decide
    by_cases h4 : c = 4
    · subst h4; decide
    by_cases h5 : c = 5
    · subst h5; decide
    by_cases h6 : c = 6
    · subst h6; decide
    by_cases h7 : c = 7
    · subst h7; decide
    by_cases h8 : c = 8
    · subst h8; decide
    have hb : ∀ k : Nat, c ≠ k → (c == k) = false := fun k h => by simpa using h
    simp only [h0, h1, h2, h3, h4, h5, h6, h7, h8, if_false, List.lookup, hb _ h0, hb _ h1, hb _ h2, hb _ h3, hb _ h4, hb _ h5,
      hb _ h6, hb _ h7, hb _ h8]
    decide
  · have hbit : command.testBit 16 = decide ((command / 65536) % 2 = 1) := by
      rw [Nat.testBit_eq_decide_div_mod_eq]
    rw [cols_at (a := ascii "> H=" ++ hexText 16 cookie ++ ascii " C=0x" ++ hexText 8 command ++ ascii " (" ++
        padText 20 (commandName (command % 65536)) ++ ascii "+")
      (h := padText 4 (if (command / 65536) % 2 = 1 then ascii "FUA" else ascii "NONE"))
      (by simp only [DumpLine.text, List.append_assoc]; rfl)
      (by simp only [List.length_append, hexText_length, l0, l1, l2, l3, hc]) (hf _ (by split <;> simp)), hbit]
    by_cases h : (command / 65536) % 2 = 1
    · rw [if_pos h, if_pos (by simpa using h)]; decide
    · rw [if_neg h, if_neg (by simpa using h)]; decide

/-- The text determines the records: two files for which nbd-trdump prints the same have the same records. -/
theorem C101_determined (e e' : Endian) (version version' self self' input input' : List Byte) (fails fails' : Bool)
    (h : (trdumpMain e version self [] input fails).1 = (trdumpMain e' version' self' [] input' fails').1) :
    trdump e false input = trdump e' false input' := by
  have h1 := (C101_any e version self input fails).1
  have h2 := (C101_any e' version' self' input' fails').1
  rw [h, h2] at h1
  exact (List.map_inj_right (fun _ _ => Option.some.inj)).mp h1.symm

/-- **C101**, with arguments: nbd-trdump does not look at its input; it succeeds if it was asked for help and only then. -/
theorem C101_args (e : Endian) (version self a : List Byte) (args : List (List Byte)) (input input' : List Byte) (fails fails' : Bool) :
    trdumpMain e version self (a :: args) input fails = trdumpMain e version self (a :: args) input' fails' ∧
    ((trdumpMain e version self (a :: args) input fails).2 = 0 ↔ a = ascii "--help" ∨ a = ascii "-h") := by
  refine ⟨rfl, ?_⟩
  unfold trdumpMain
  dsimp only
  by_cases h : a = ascii "--help" ∨ a = ascii "-h"
  · rw [if_pos (by simpa using h)]; simp [h]
  · rw [if_neg (by simpa using h)]; simp [h]

/-- **C101 is false** of a log that was cut off: nbd-trdump prints the same for a log and for this log followed by the first 27 bytes of
another request, and it succeeds. -/
theorem C101_false_truncated (e : Endian) (version self : List Byte) :
    ∃ log more : List Byte, more.length = 27 ∧ (trdump e false log).length = 1 ∧
      trdumpMain e version self [] (log ++ more) false = trdumpMain e version self [] log false ∧
      (trdumpMain e version self [] (log ++ more) false).2 = 0 := by
  refine ⟨Demo.request 0 4 4 |>.req.encode, (Demo.request 0 4 4 |>.req.encode).take 27, ?_, ?_, ?_, rfl⟩
  · decide +kernel
  · cases e <;> decide +kernel
  · have : trdump e false ((Demo.request 0 4 4 |>.req.encode) ++ (Demo.request 0 4 4 |>.req.encode).take 27) =
        trdump e false (Demo.request 0 4 4 |>.req.encode) := by cases e <;> decide +kernel
    unfold trdumpMain
    rw [this]

/-- The text of the session of C40. -/
example : (trdumpMain .little (ascii "3.26") (ascii "nbd-trdump") [] (loggedSession .little (logClient false) Demo.world
      (logSent.flatMap Sent.encode ++ closing (some logBye)) []).2 false).1.take 332 =
    (ascii "TRACE_OPTION C=0x00000001 (NBD_TRACELOG_SET_DATALOG) O=4a93ba39a54f31b6 L=00000001\n" ++
    ascii "TRACE_OPTION DATALOG set to 1.\n" ++
    ascii "> H=0102030405060708 C=0x00000001 (       NBD_CMD_WRITE+NONE) O=0000000000000004 L=00000004\n" ++
    ascii "< H=0102030405060708 E=0x00000000\n" ++
    ascii "> H=0102030405060708 C=0x00000000 (        NBD_CMD_READ+NONE) O=0000000000000002 L=00000004\n") := by decide +kernel

-- The hypotheses of `C101_partial` are met by this session.
example : ∃ answers : List (List Reply), answers.length = logSent.length ∧
    (textLines (trdumpMain .little (ascii "3.26") (ascii "nbd-trdump") [] (loggedSession .little (logClient false) Demo.world
      (logSent.flatMap Sent.encode ++ closing (some logBye)) []).2 false).1).map readLine =
      ((sessionLog (has (logClient false).ex.flags F_DATALOG) logSent answers (some logBye)).flatMap (Record.lines .little)).map some := by
  obtain ⟨answers, h1, _, _, h4, _⟩ := C101_partial .little (logClient false) Demo.world logSent logSent_ok (some logBye)
    (by intro r hr; cases hr; exact logBye_disc) (by decide) (.inr (by decide +kernel)) (ascii "3.26") (ascii "nbd-trdump")
  exact ⟨answers, h1, h4⟩

end Nbd.Props
