import Verif.TrLog
import Verif.CliRun
/-!
# nbd-trplay's command line

`main` of nbd-trplay.c. `getopt` has turned the command line into a list of options.
-/

set_option autoImplicit false

namespace Nbd

/-- nbd-trplay.c 264-310: an option of the command line "i:l:m:b:hv". `usage` is `-h`, an option
that is not in the list, or one whose argument is missing (272-276). -/
inductive PlayOpt where
  | verbose
  | usage
  | max (v : List Byte)
  | block (v : List Byte)
  | image (name : List Byte)
  | log (name : List Byte)
deriving DecidableEq, Repr

/-- What the file system says: the file to write to and the bytes of the log. `none` if `open`
fails. (The log is taken as it is when the replay starts; it is not the image.) For nbd-trplay.c 256-330. -/
structure PlayEnv where
  openImage : List Byte → Option FileId
  openLog : List Byte → Option (List Byte)

/-- The variables `main` sets: `imagefd`, `logfd`, `g_max_blocks` (43), `g_blocksize` (41).
`g_verbose` only matters for what is printed. -/
structure PlayVars where
  image : Option FileId
  log : Option (List Byte)
  max : Nat
  block : Nat

/-- nbd-trplay.c 41-43, 258-260. -/
def PlayVars.init : PlayVars := ⟨none, none, 2 ^ 64 - 1, 512⟩

/-- nbd-trplay.c 27: `BUFSIZE`. -/
def PLAYBUF : Nat := 131072

/-- nbd-trplay.c 268-309: one option; the left case is the status `main` returns with.
(`strtoul` is `strtoull` on a machine with a 64-bit `long`.) -/
def playOpt (env : PlayEnv) (v : PlayVars) : PlayOpt → Sum Nat PlayVars
  | .verbose => .inr v
  | .usage => .inl 0
  | .max a => if strtoull0 a = 0 then .inl 1 else .inr { v with max := strtoull0 a }
  | .block a =>
    if strtoull0 a = 0 then .inl 1
    else if strtoull0 a > PLAYBUF then .inl 1
    else .inr { v with block := strtoull0 a }
  | .image name =>
    match env.openImage name with
    | none => .inl 1
    | some id => .inr { v with image := some id }
  | .log name =>
    match env.openLog name with
    | none => .inl 1
    | some bs => .inr { v with log := some bs }

/-- nbd-trplay.c 264-310: the loop over the options. -/
def playOpts (env : PlayEnv) : List PlayOpt → PlayVars → Sum Nat PlayVars
  | [], v => .inr v
  | o :: os, v =>
    match playOpt env v o with
    | .inl code => .inl code
    | .inr v => playOpts env os v

/-- nbd-trplay.c 257-327 `main`. -/
def playMain (e : Endian) (env : PlayEnv) (opts : List PlayOpt) (w : World) : Played :=
  match playOpts env opts .init with
  | .inl code => ⟨w, 0, code⟩
  | .inr v =>
    match v.log with
    | none => ⟨w, 0, 1⟩
    | some log =>
      match v.image with
      | none => ⟨w, 0, 1⟩
      | some id => trplay e v.block v.max id log false w 0

end Nbd
