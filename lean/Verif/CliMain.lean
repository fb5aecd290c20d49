import Verif.CliNego
/-!
# nbd-client: configuring the device, reconnecting, and the table of devices

nbd-client.c 71-121 (nbdtab), nbdtab_lexer.l, nbdtab_parser.y, 764-829 (`get_from_config`, `setsizes`) and the parts of
`main` that use them. The kernel is reduced to what it is told: the block size, the size, the flags and the read-only
attribute of the device.
-/

set_option autoImplicit false

namespace Nbd

/-- What the kernel has been told about the device. The ioctls of nbd-client.c 794-850. -/
structure Device where
  bytes : Nat
  flags : Nat
  readOnly : Bool
deriving DecidableEq, Repr

/-- The conversion of an `int` to a 64-bit unsigned number. -/
def toU64 (i : Int) : Nat := (i % 2 ^ 64).toNat

/-- nbd-client.c 794-829 `setsizes`, on a machine whose `unsigned long` has `W` bits; `ok b` says whether the kernel
accepts `b` as a block size (NBD_SET_BLKSIZE). NBD_SET_SIZE_BLOCKS makes the device `size` times the block size long, and
setting the block size afterwards does not change that. A failing `ioctl` ends the program (`exit`), dividing by 0
crashes it (`ub`). Other `ioctl`s are assumed to succeed. -/
def setsizes (W : Nat) (ok : Int → Bool) (size64 : Nat) (bs : Int) (flags : Nat) : Out Device :=
  if size64 / 2 ^ 12 > 2 ^ W - 1 then .exit
  else if bs = 0 then .ub
  else
    let tmp : Int := if size64 / toU64 bs ≤ 2 ^ W - 1 then bs else 4096
    if !ok tmp then .exit
    else
      let size := (size64 / toU64 tmp) % 2 ^ W
      if tmp ≠ bs ∧ !ok bs then .exit
      else .val ⟨size * tmp.toNat, flags, has flags 2⟩

/-- nbd-client.c 165-215 `netlink_configure`: the size goes to the kernel as it is. -/
def netlinkConfigure (size64 flags : Nat) : Device := ⟨size64, flags, has flags 2⟩

/-- The options of nbd-client that matter here (command line or table). nbdclt.h 4-27. -/
structure CliArgs where
  /-- `force_ro` (-R) -/
  forceRo : Bool
  /-- `force_size64` (-B), 0 if not given -/
  forceSize : Nat
  /-- `bs` (-b) -/
  bs : Int
  /-- `netlink` -/
  netlink : Bool
deriving DecidableEq, Repr

/-- nbd-client.c 1231-1246 and 1262-1274: the first connection; `size` and `flags` are what was negotiated. The result is
`cur_client->size64` and the device. 1196-1199: the forced size must be a multiple of the block size, which must not
be 0. -/
def firstConnect (W : Nat) (ok : Int → Bool) (a : CliArgs) (size flags : Nat) : Out (Nat × Device) :=
  if a.bs = 0 then .ub
  else if a.forceSize % toU64 a.bs ≠ 0 then .exit
  else
    let flags := if a.forceRo then flags ||| 2 else flags
    let size := if a.forceSize ≠ 0 then a.forceSize else size
    if a.netlink then .val (size, netlinkConfigure size flags)
    else match setsizes W ok size a.bs flags with
      | .val d => .val (size, d)
      | .ub => .ub
      | .exit => .exit

/-- nbd-client.c 1332-1360: reconnecting after the connection broke; `cur` is `cur_client->size64` before. (Assumes that
the server states a size and flags; 1334: `new_flags` is not initialised.) -/
def reconnect (W : Nat) (ok : Int → Bool) (a : CliArgs) (cur size flags : Nat) : Out (Nat × Device) :=
  if cur ≠ size then .exit
  else match setsizes W ok size a.bs flags with
    | .val d => .val (size, d)
    | .ub => .ub
    | .exit => .exit

/-- nbd-client.c 1300-1368: the devices of successive reconnections, until the program ends. -/
def reconnects (W : Nat) (ok : Int → Bool) (a : CliArgs) (cur : Nat) : List (Nat × Nat) → List Device
  | [] => []
  | (size, flags) :: rest =>
    match reconnect W ok a cur size flags with
    | .val (cur, d) => d :: reconnects W ok a cur rest
    | _ => []

/-- nbd-client.c 1222-1368 in persist mode (which does not exist with netlink): the device after the first connection
and after every reconnection. -/
def clientLife (W : Nat) (ok : Int → Bool) (a : CliArgs) : List (Nat × Nat) → List Device
  | [] => []
  | (size, flags) :: rest =>
    match firstConnect W ok a size flags with
    | .val (cur, d) => d :: (if a.netlink then [] else reconnects W ok a cur rest)
    | _ => []

/-! ### nbdtab -/

/-- nbdtab_lexer.l: the tokens. Lines 9-13. -/
inductive Tok where
  | space
  | string (s : List Byte)
  | comma
  | equals
  | newline
deriving DecidableEq, Repr

/-- nbdtab_lexer.l `[ \t]`. Line 10. -/
def isBlank (b : Byte) : Bool := b = 32 ∨ b = 9

/-- nbdtab_lexer.l `[^ \t\n,=]`. Line 11. -/
def isWord (b : Byte) : Bool := ¬ (b = 32 ∨ b = 9 ∨ b = 10 ∨ b = 44 ∨ b = 61)

/-- nbdtab_lexer.l: the next token and the rest; comments give no token. The longest match wins: a comment up to the end
of its line is longer than the word it starts with. (NUL bytes, which would cut a word short, are not modelled.) Lines 9-13. -/
def lexOne (c : Byte) (bs : List Byte) : Option Tok × List Byte :=
  if c = 35 ∧ (10 : Byte) ∈ bs then (none, (bs.dropWhile (· ≠ 10)).drop 1)
  else if isBlank c then (some .space, bs.dropWhile isBlank)
  else if c = 10 then (some .newline, bs)
  else if c = 44 then (some .comma, bs)
  else if c = 61 then (some .equals, bs)
  else (some (.string (c :: bs.takeWhile isWord)), bs.dropWhile isWord)

theorem lexOne_le (c : Byte) (bs : List Byte) : (lexOne c bs).2.length ≤ bs.length := by
  have hd : ∀ (p : Byte → Bool), (bs.dropWhile p).length ≤ bs.length := fun p => (List.dropWhile_suffix p).length_le
  unfold lexOne
  split
  · have := hd (· ≠ 10); simp only [List.length_drop]; omega
  split
  · exact hd _
  split
  · simp
  split
  · simp
  split
  · simp
  · exact hd _

/-- nbdtab_lexer.l. Lines 7-13. -/
def lexTab : List Byte → List Tok
  | [] => []
  | c :: bs =>
    have := lexOne_le c bs
    match (lexOne c bs).1 with
    | none => lexTab (lexOne c bs).2
    | some t => t :: lexTab (lexOne c bs).2
termination_by bs => bs.length
decreasing_by all_goals simp_wf; omega

/-- nbdtab_parser.y `option`. Lines 38-41. -/
inductive TabOpt where
  | flag (name : List Byte)
  | prop (name value : List Byte)
deriving DecidableEq, Repr

/-- nbdtab_parser.y `mountdef`. Lines 24-26. -/
structure TabEntry where
  dev : List Byte
  host : List Byte
  name : List Byte
  opts : List TabOpt
deriving DecidableEq, Repr

/-- nbdtab_parser.y `options`: after the space, a list of options separated by commas. Lines 28-36. -/
def parseOptions : List Tok → Option (List TabOpt × List Tok)
  | .string k :: .equals :: .string v :: .comma :: ts =>
    match parseOptions ts with
    | some (os, ts) => some (.prop k v :: os, ts)
    | none => none
  | .string k :: .equals :: .string v :: ts => some ([.prop k v], ts)
  | .string _ :: .equals :: _ => none
  | .string k :: .comma :: ts =>
    match parseOptions ts with
    | some (os, ts) => some (.flag k :: os, ts)
    | none => none
  | .string k :: ts => some ([.flag k], ts)
  | _ => none

/-- nbdtab_parser.y `nbdtab`: `n` is a bound on the number of tokens. `none` is a syntax error (whatever was done up to
there does not matter: 782 `parse_error`). -/
def parseTab : Nat → List Tok → Option (List TabEntry)
  | 0, _ => none
  | _ + 1, [] => some []
  | n + 1, .newline :: ts => parseTab n ts
  | n + 1, .string d :: .space :: .string h :: .space :: .string x :: .space :: ts =>
    match parseOptions ts with
    | none => none
    | some (os, ts) =>
      match parseTab n ts with
      | none => none
      | some es => some (⟨d, h, x, os⟩ :: es)
  | n + 1, .string d :: .space :: .string h :: .space :: .string x :: ts =>
    match parseTab n ts with
    | none => none
    | some es => some (⟨d, h, x, []⟩ :: es)
  | _ + 1, _ => none

/-- nbdclt.h: the fields of `CLIENT` used in the table and on the command line. `none` is a null pointer. -/
structure TabClient where
  name : Option (List Byte)
  dev : List Byte
  hostn : Option (List Byte)
  port : Option (List Byte)
  cert : Option (List Byte)
  key : Option (List Byte)
  cacert : Option (List Byte)
  tlshostn : Option (List Byte)
  priority : Option (List Byte)
  bs : Int
  timeout : Int
  nconn : Int
  forceSize : Nat
  noOptgo : Bool
  persist : Bool
  swap : Bool
  unix : Bool
  preinit : Bool
  forceRo : Bool
  tls : Bool
deriving DecidableEq, Repr

/-- The value of a string of decimal digits (up to the first other byte). For the `strtol(val, NULL, 10)` of nbd-client.c 80-82. -/
def digitsVal : List Byte → Nat → Nat
  | [], acc => acc
  | b :: bs, acc => if 48 ≤ b ∧ b ≤ 57 then digitsVal bs (acc * 10 + (b.toNat - 48)) else acc

/-- C library `strtol(val, NULL, 10)` (of a word, which has no leading space), converted to `int`. -/
def strtolInt (v : List Byte) : Int :=
  let l : Int := match v with
    | 45 :: ds => max (-(digitsVal ds 0 : Int)) (-2 ^ 63)
    | 43 :: ds => min (digitsVal ds 0 : Int) (2 ^ 63 - 1)
    | ds => min (digitsVal ds 0 : Int) (2 ^ 63 - 1)
  (l + 2 ^ 31) % 2 ^ 32 - 2 ^ 31

/-- nbd-client.c 71-87 `nbdtab_set_property` and 89-101 `nbdtab_set_flag`, unless `found_config`. -/
def tabSet (c : TabClient) : TabOpt → TabClient
  | .prop k v =>
    if k = ascii "port" then { c with port := some v }
    else if k = ascii "certfile" then { c with cert := some v }
    else if k = ascii "keyfile" then { c with key := some v }
    else if k = ascii "cacertfile" then { c with cacert := some v }
    else if k = ascii "tlshostname" then { c with tlshostn := some v }
    else if k = ascii "priority" then { c with priority := some v }
    else if k = ascii "bs" then { c with bs := strtolInt v }
    else if k = ascii "timeout" then { c with timeout := strtolInt v }
    else if k = ascii "conns" then { c with nconn := strtolInt v }
    else c
  | .flag k =>
    if k = ascii "no_optgo" then { c with noOptgo := true }
    else if k = ascii "persist" then { c with persist := true }
    else if k = ascii "swap" then { c with swap := true }
    else if k = ascii "unix" then { c with unix := true }
    else if k = ascii "preinit" then { c with preinit := true }
    else if k = ascii "tls" then { c with tls := true }
    else c

/-- `devn += 5` after "/dev/". nbd-client.c 103-108. -/
def stripDev (d : List Byte) : List Byte := if ascii "/dev/" <+: d then d.drop 5 else d

/-- nbd-client.c 111-115: `memset`, the default block size and number of connections, and the device. -/
def tabBlank (dev : List Byte) : TabClient :=
  ⟨none, dev, none, none, none, none, none, none, none, 512, 0, 1, 0, false, false, false, false, false, false, false⟩

/-- nbd-client.c 103-119 `nbdtab_commit_line`; the state is `*cur_client` and `found_config`. -/
def tabCommit (s : TabClient × Bool) (e : TabEntry) : TabClient × Bool :=
  if s.1.dev = stripDev e.dev then ({ s.1 with hostn := some e.host, name := some e.name }, true)
  else if s.2 then s
  else (tabBlank s.1.dev, false)

/-- The actions for one line: those of the options come first. nbdtab_parser.y 25 and 39-40, with nbd-client.c 72-121. -/
def tabLine (s : TabClient × Bool) (e : TabEntry) : TabClient × Bool :=
  tabCommit (e.opts.foldl (fun s o => if s.2 then s else (tabSet s.1 o, false)) s) e

/-- nbd-client.c 764-792 `get_from_config`; `file` is the contents of nbdtab (`none`: it cannot be opened). -/
def getFromConfig (c : TabClient) (file : Option (List Byte)) : Option TabClient :=
  match file with
  | none => none
  | some bytes =>
    let ts := lexTab bytes
    match parseTab (ts.length + 1) ts with
    | none => none
    | some es =>
      let r := es.foldl tabLine ({ c with dev := stripDev c.dev }, false)
      if r.2 then some r.1 else none

/-- nbd-client.c 983-987: `*cur_client` before the command line is looked at; `dev` is 1146 `cur_client->hostn`. -/
def tabStart (dev : List Byte) : TabClient :=
  { tabBlank dev with port := some (ascii "10809"), hostn := some dev }

/-- nbd-client.c 1255-1258 `sscanf(dev, "/dev/nbd%d", &index) == 1`: the text and at least one digit (or a sign and a
digit) after optional white space. -/
def netlinkDevOk (dev : List Byte) : Bool :=
  (ascii "/dev/nbd").isPrefixOf dev &&
    (match (dev.drop 8).dropWhile (fun b => b = 32 ∨ (9 ≤ b ∧ b ≤ 13)) with
      | 45 :: b :: _ => 48 ≤ b ∧ b ≤ 57
      | 43 :: b :: _ => 48 ≤ b ∧ b ≤ 57
      | b :: _ => 48 ≤ b ∧ b ≤ 57
      | [] => false)

end Nbd
