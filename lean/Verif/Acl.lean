import Verif.CliMain
/-!
# Access control (`address_matches`, `authorized_client`)

nbdsrv.c 28-180. `getaddrinfo` with AI_NUMERICHOST is a parameter `gai`: for a text, `none` (it is not an address) or the
list of addresses returned (the same address several times, once per socket type).
-/

set_option autoImplicit false

namespace Nbd

/-- A socket address: the 4 or 16 bytes of an internet address in network order, or some other family (AF_UNIX). -/
inductive Sock where
  | inet (a : List Byte)
  | inet6 (a : List Byte)
  | other
deriving DecidableEq, Repr

/-- nbdsrv.c 129-132: the loop of `getmaskbyte`, `i` counting down. -/
def maskLoop (masklen : Nat) : Nat → Byte → Byte
  | 0, acc => if 0 + masklen > 7 then acc ||| 1 else acc
  | i + 1, acc => if i + 1 + masklen > 7 then maskLoop masklen i (acc ||| (1 <<< UInt8.ofNat (i + 1))) else acc

/-- nbdsrv.c 125-135 `getmaskbyte` (never called with a negative number). -/
def getmaskbyte (masklen : Nat) : Byte := if masklen ≥ 8 then 0xFF else maskLoop masklen 7 0

/-- nbdsrv.c 101-114: comparing the first `n` bits of two arrays; reading past the end of either is `ub`. -/
def cmpBits : List Byte → List Byte → Nat → Out Bool
  | a :: s, b :: t, n =>
    if 8 ≤ n then (if a ≠ b then .val false else cmpBits s t (n - 8))
    else if n ≠ 0 then .val (a &&& getmaskbyte n = b &&& getmaskbyte n)
    else .val true
  | _, _, n => if n = 0 then .val true else .ub

/-- nbdsrv.c 38-40, 83 and 91: `ipv4_mapped`. -/
def ipv4Mapped (a : List Byte) : List Byte := [0, 0, 0, 0, 0, 0, 0, 0, 0, 0, 255, 255] ++ a

/-- nbdsrv.c 66-118: one result of `getaddrinfo`; `Out.exit` is the failed assertion. -/
def matchOne (masklen : Nat) : Sock → Sock → Out Bool
  | .inet a, .inet b => cmpBits a b masklen
  | .inet6 a, .inet6 b => cmpBits a b masklen
  | .inet a, .inet6 b => cmpBits (ipv4Mapped a) b (masklen + 96)
  | .inet6 a, .inet b => cmpBits a (ipv4Mapped b) (masklen + 96)
  | .other, _ => .exit
  | _, .other => .val false

/-- nbdsrv.c 65-122: the loop over the results. -/
def matchAny (masklen : Nat) (peer : Sock) : List Sock → Out Bool
  | [] => .val false
  | r :: rs =>
    match matchOne masklen peer r with
    | .val true => .val true
    | .val false => matchAny masklen peer rs
    | .ub => .ub
    | .exit => .exit

/-- nbdsrv.c 37 `addrlen`, in bits. -/
def addrBits : Sock → Int
  | .inet _ => 32
  | _ => 128

/-- nbdsrv.c 48-53: `masklen`. -/
def maskLen (mask : List Byte) (peer : Sock) : Int :=
  match mask.dropWhile (· ≠ 47) with
  | [] => addrBits peer
  | _ :: len => strtolInt len

/-- nbdsrv.c 32-123 `address_matches`. -/
def addressMatches (gai : List Byte → Option (List Sock)) (mask : List Byte) (peer : Sock) : Out Bool :=
  let masklen := maskLen mask peer
  if masklen > addrBits peer ∨ masklen < 0 then .val false
  else
    match gai (mask.takeWhile (· ≠ 47)) with
    | none => .val false
    | some rs => matchAny masklen.toNat peer rs

/-- C library `fgets(line, 256, f)`: the next bytes, up to and including a newline, at most 255; and what remains. -/
def fgetsOne (bs : List Byte) : List Byte × List Byte :=
  let l := (bs.take 255).takeWhile (· ≠ 10)
  let n := if l.length < (bs.take 255).length then l.length + 1 else l.length
  (bs.take n, bs.drop n)

theorem fgetsOne_lt {bs : List Byte} (h : bs ≠ []) : (fgetsOne bs).2.length < bs.length := by
  have hl : 0 < bs.length := List.length_pos_iff.mpr h
  unfold fgetsOne
  simp only [List.length_drop]
  split
  · omega
  · rename_i hn
    have : (bs.take 255).length ≤ ((bs.take 255).takeWhile (· ≠ 10)).length := by omega
    rw [List.length_take] at this
    omega

/-- nbdsrv.c 151: `while (fgets(…) != NULL)`, the pieces the file is read in. -/
def fgetsAll (bs : List Byte) : List (List Byte) :=
  if h : bs = [] then [] else (fgetsOne bs).1 :: fgetsAll (fgetsOne bs).2
termination_by bs.length
decreasing_by exact fgetsOne_lt h

/-- C library `isspace` (in the C locale). Called at nbdsrv.c 156. -/
def isSpace (b : Byte) : Bool := b = 32 ∨ (9 ≤ b ∧ b ≤ 13)

/-- nbdsrv.c 152-171: the text of a line that is looked at, if there is one. -/
def aclToken (line : List Byte) : Option (List Byte) :=
  let s := ((cstr line).takeWhile (· ≠ 35)).dropWhile isSpace
  if s = [] then none else some (s.takeWhile (fun b => !isSpace b))

/-- nbdsrv.c 151-177: the loop over the lines. -/
def authLoop (gai : List Byte → Option (List Sock)) (peer : Sock) : List (List Byte) → Out Bool
  | [] => .val false
  | l :: ls =>
    match aclToken l with
    | none => authLoop gai peer ls
    | some t =>
      match addressMatches gai t peer with
      | .val true => .val true
      | .val false => authLoop gai peer ls
      | .ub => .ub
      | .exit => .exit

/-- nbdsrv.c 137-180 `authorized_client`: `auth` is the configured ACL file, if there is one: `some none` if it cannot be
opened, otherwise its contents. -/
def authorizedClient (gai : List Byte → Option (List Sock)) (auth : Option (Option (List Byte))) (peer : Sock) : Out Bool :=
  match auth with
  | none => .val true
  | some none => .val true
  | some (some content) => authLoop gai peer (fgetsAll content)

end Nbd
