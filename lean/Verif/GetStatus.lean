import Verif.CliRun
import Verif.Names
/-!
# nbd-get-status

`main` and `callback` of nbd-get-status.c, with the netlink attributes as bytes. The functions of libnl they use (`nla_parse`,
`nla_for_each_nested`, `nla_get_u32`, `nla_get_u8`) are modelled after libnl's lib/attr.c.
-/

set_option autoImplicit false

namespace Nbd

/-- libnl `nla_for_each_attr` with `nla_ok`, `nla_next`, `nla_type`, `nla_data`: the attributes in a stream, as type and payload. A header
is 4 bytes: the length (with the header) and the type, of which the two upper bits are flags; the next attribute begins at a multiple of 4.
The loop ends at the first header that does not fit. Called at nbd-get-status.c 35-64. -/
def nlAttrs (e : Endian) (bs : List Byte) : List (Nat × List Byte) :=
  if 4 ≤ bs.length then
    let len := load e (bs.take 2)
    if 4 ≤ len ∧ len ≤ bs.length then
      (load e ((bs.drop 2).take 2) % 2 ^ 14, (bs.take len).drop 4) :: nlAttrs e (bs.drop ((len + 3) / 4 * 4))
    else []
  else []
termination_by bs.length
decreasing_by simp only [List.length_drop]; omega

/-- libnl `validate_nla` with the policy of nbd-get-status.c 11-14: an index has at least 4 bytes, a state at least 1. -/
def statusPolicy (a : Nat × List Byte) : Bool :=
  (a.1 != 1 || decide (4 ≤ a.2.length)) && (a.1 != 2 || decide (1 ≤ a.2.length))

/-- libnl `nla_parse`: the payload of the attribute of a type, if there is one; the last one counts. Called at nbd-get-status.c 35-64. -/
def nlFind (as : List (Nat × List Byte)) (t : Nat) : Option (List Byte) :=
  ((as.filter (fun a => a.1 == t)).getLast?).map (·.2)

/-- How far nbd-get-status has come: it goes on, has called `err` (status 1), or has used a NULL pointer. The ways out of nbd-get-status.c 35-110. -/
inductive StEnd where
  | going
  | exit (status : Nat)
  | ub
deriving DecidableEq, Repr

/-- nbd-get-status.c 60: `printf("/dev/nbd%d: %s\n", (int)index, ...)`. -/
def statusLine (index : Nat) (connected : Nat) : List Byte :=
  ascii "/dev/nbd" ++ (if index < 2 ^ 31 then decText index else 45 :: decText (2 ^ 32 - index)) ++ ascii ": " ++
    (if connected ≠ 0 then ascii "connected" else ascii "disconnected") ++ ascii "\n"

/-- nbd-get-status.c 47-62: the loop over the devices; what is printed and how it ends. -/
def statusLoop (e : Endian) : List (Nat × List Byte) → List Byte × StEnd
  | [] => ([], .going)
  | (t, data) :: rest =>
    if t ≠ 1 then ([], .exit 1)
    else if !(nlAttrs e data).all statusPolicy then ([], .exit 1)
    else
      match nlFind (nlAttrs e data) 1, nlFind (nlAttrs e data) 2 with
      | some i, some c =>
        let r := statusLoop e rest
        (statusLine (load e (i.take 4)) (load e (c.take 1)) ++ r.1, r.2)
      | _, _ => ([], .ub)

/-- nbd-get-status.c 35-64 `callback`: `attrs` is the message behind its header. Attribute 9 is `NBD_ATTR_DEVICE_LIST`. (`nla_parse` without
a policy does not fail.) -/
def statusCallback (e : Endian) (attrs : List Byte) : List Byte × StEnd :=
  match nlFind (nlAttrs e attrs) 9 with
  | none => ([], .ub)
  | some l => statusLoop e (nlAttrs e l)

/-- `nl_send_sync` (nbd-get-status.c 89) calls `callback` for each message of the answer. -/
def statusAll (e : Endian) : List (List Byte) → List Byte × StEnd
  | [] => ([], .going)
  | m :: ms =>
    match statusCallback e m with
    | (out, .going) => let r := statusAll e ms; (out ++ r.1, r.2)
    | r => r

/-- What the kernel does: whether there is a netlink family "nbd" (16-33), and the answer to NBD_CMD_STATUS with this NBD_ATTR_INDEX: the
messages, and whether `nl_send_sync` then succeeds. -/
structure StKernel where
  family : Bool
  answer : Option Nat → List (List Byte) × Bool

/-- nbd-get-status.c 66-94 `main`: what it asks the kernel (if it gets there), what it prints on standard output, and its end. `argv` are the
words after the name of the program. Allocation does not fail. -/
def getStatus (e : Endian) (k : StKernel) (argv : List (List Byte)) : Option (Option Nat) × List Byte × StEnd :=
  let index : Option Int := match argv with
    | [] => some (-1)
    | dev :: _ => netlinkIndex dev
  match index with
  | none => (none, [], .exit 1)
  | some i =>
    if !k.family then (none, [], .exit 1)
    else
      let ask : Option Nat := if 0 ≤ i then some i.toNat else none
      match statusAll e (k.answer ask).1 with
      | (out, .going) => (some ask, out, .exit (if (k.answer ask).2 then 0 else 1))
      | (out, r) => (some ask, out, r)

end Nbd
