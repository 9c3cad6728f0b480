import Verif.Model.Strl
import Verif.Model.Parent
import Verif.Model.Main
/-!
# System information

/repo/src/sysinfo.c, built for Linux (`HAVE_SYSFS`, `HAVE_PROC_SYS_NET`, neither `CTL_HW` nor `CTL_NET`).
-/

namespace Ladvd

/-- `struct utsname`, as far as /repo/src/sysinfo.c lines 122-167 look at it; C strings. -/
structure Uname where
  sysname : Bytes
  nodename : Bytes
  release : Bytes
  version : Bytes
  machine : Bytes
  deriving Repr, DecidableEq

/-- The inventory files, /repo/src/sysinfo.c lines 32-39. -/
inductive Dmi where
  | hw | fw | serial | manufacturer | model
  deriving Repr, DecidableEq

/-- What `sysinfo_fetch` asks the system: whether `lsb_release` can be started (`pipe`, `fork`, `fdopen`), its output and whether it exits with 0,
`uname`, `gethostbyname`, and the contents of files that can be opened. -/
structure SysEnv where
  lsbRun : Bool := true
  lsbOut : Bytes := []
  lsbOk : Bool := false
  uname : Option Uname
  hostByName : Bytes → Option Bytes := fun _ => none
  dmi : Dmi → Option Bytes := fun _ => none
  forward4 : Option Bytes := none
  forward6 : Option Bytes := none

/-- The C string at offset `p` of an object; without a NUL the load leaves the object. -/
def cstrAt (m : Bytes) (p : Nat) : Res Bytes := if (0 : UInt8) ∈ m.drop p then .ok (cstr (m.drop p)) else .oob

/-- The body of the `fgets` loop for the first line, /repo/src/sysinfo.c lines 94-107: end of line and quotes removed, a space appended; `t` is
what `fgets` stored, without the NUL. -/
def lsbLine (t : Bytes) : Res Bytes := do
  let m := t ++ [0]
  let m ← wr m (m.takeWhile (fun b => b ≠ 0x0a && b ≠ 0)).length [0]
  let s := cstr m
  if s.head? = some 0x22 ∧ s.getLast? = some 0x22 then do
    let m ← wr m (s.length - 1) [0]
    let s ← cstrAt m 1
    pure (s ++ lit " ")
  else pure (s ++ lit " ")

/-- `descr`, /repo/src/sysinfo.c lines 90-119: only the first line counts, and nothing if the program failed. -/
def lsbDescr (e : SysEnv) : Res (Option Bytes) :=
  if e.lsbOut = [] then .ok none
  else do
    let d ← lsbLine (fgetsText 512 e.lsbOut)
    pure (if e.lsbOk then some d else none)

/-- The digits at the start of a text. -/
def digitsOf (s : Bytes) : Bytes := s.takeWhile (fun b => 0x30 ≤ b && b ≤ 0x39)

/-- Value of a digit string. -/
def digitVal (ds : Bytes) : Nat := ds.foldl (fun acc b => acc * 10 + (b.toNat - 48)) 0

/-- `strtol(s, &endptr, 10)` on a 64-bit machine (libc): the value, saturated, and the number of characters used, 0 if there is no number. -/
def strtol (s : Bytes) : Int × Nat :=
  let sp := (s.takeWhile isSpace).length
  let r := s.drop sp
  let neg := r.head? = some 0x2d
  let sg := if neg ∨ r.head? = some 0x2b then 1 else 0
  let ds := digitsOf (r.drop sg)
  if ds = [] then (0, 0)
  else
    let v : Int := if neg then - (digitVal ds : Int) else digitVal ds
    (max (-9223372036854775808) (min 9223372036854775807 v), sp + sg + ds.length)

/-- The loop that takes the release apart, /repo/src/sysinfo.c lines 150-161; `fuel` bounds the iterations. -/
def relLoop : Nat → Bytes → Nat → Bytes → Res Bytes
  | 0, _, _, _ => .stuck
  | fuel + 1, r, i, rel =>
    if r = [] ∨ ¬ i < 3 then .ok rel
    else do
      let p := strtol r
      let rel ← wr rel i [UInt8.ofInt p.1]
      relLoop fuel ((r.drop p.2).drop 1) (if p.2 ≠ 0 then i + 1 else i) rel

/-- `snprintf` into a buffer of 256 bytes. -/
def snprintf256 (s : Bytes) : Bytes := s.take 255

/-- `uts_str`, /repo/src/sysinfo.c lines 126-129. -/
def utsText (descr : Option Bytes) (u : Uname) : Bytes :=
  snprintf256 (descr.getD [] ++ u.sysname ++ lit " " ++ u.release ++ lit " " ++ u.version ++ lit " " ++ u.machine)

/-- `platform`, /repo/src/sysinfo.c lines 137-148. -/
def platformText (descr : Option Bytes) (u : Uname) : Bytes :=
  match descr with
  | some d => snprintf256 (d ++ u.sysname ++ lit " " ++ u.machine)
  | none => snprintf256 (u.sysname ++ lit " " ++ u.release ++ lit " " ++ u.machine)

/-- `hostname`, /repo/src/sysinfo.c lines 163-168. -/
def hostText (e : SysEnv) (u : Uname) : Res Bytes := do
  let name := match e.hostByName u.nodename with
    | some h => if h ≠ lit "localhost" then h else u.nodename
    | none => u.nodename
  let (m, _) ← strlcpy (List.replicate 256 0) name 256
  cstrAt m 0

/-- `LLDP_INVENTORY_SIZE` + 1. -/
def INV_SIZE : Nat := 33

/-- One inventory file, /repo/src/sysinfo.c lines 173-177, read into zeroed memory. -/
def dmiMem (e : SysEnv) (f : Dmi) : Res Bytes := do
  let (m, _) ← readLine (List.replicate INV_SIZE 0) INV_SIZE (e.dmi f)
  pure m

/-- `struct hinv`, /repo/src/sysinfo.c lines 170-178: the texts, and whether a byte of the structure is not zero (line 237). -/
def hinvFetch (e : SysEnv) (u : Uname) : Res (Hinv × Bool) := do
  let (sw, _) ← strlcpy (List.replicate INV_SIZE 0) u.release INV_SIZE
  let hw ← dmiMem e .hw
  let fw ← dmiMem e .fw
  let se ← dmiMem e .serial
  let ma ← dmiMem e .manufacturer
  let mo ← dmiMem e .model
  let swT ← cstrAt sw 0
  let hwT ← cstrAt hw 0
  let fwT ← cstrAt fw 0
  let seT ← cstrAt se 0
  let maT ← cstrAt ma 0
  let moT ← cstrAt mo 0
  pure ({ hwRevision := hwT, fwRevision := fwT, swRevision := swT, serialNumber := seT, manufacturer := maT, modelName := moT },
    (hw ++ fw ++ sw ++ se ++ ma ++ mo).any (fun b => b != 0))

/-- `atoi` (libc). -/
def atoiIs1 (s : Bytes) : Bool := decide ((strtol s).1 % 4294967296 = 1)

/-- One file of `sysinfo_forwarding`, /repo/src/sysinfo.c lines 260-267 and 269-276: whether it has a line, and whether that is 1.  `line` has
256 bytes. -/
def forwardFile (content : Option Bytes) : Res (Bool × Bool) := do
  let (m, n) ← readLine (List.replicate 256 0) 256 content
  if n = 0 then pure (false, false)
  else do
    let s ← cstrAt m 0
    pure (true, atoiIs1 s)

/-- `sysinfo_forwarding`, /repo/src/sysinfo.c lines 245-306; bit 3 is `CAP_ROUTER`. -/
def forwarding (e : SysEnv) (s : SysInfo) : Res SysInfo := do
  let (r4, a4) ← forwardFile e.forward4
  let s := if r4 then { s with cap := s.cap ||| 8 } else s
  if a4 then pure { s with capActive := s.capActive ||| 8 }
  else do
    let (r6, a6) ← forwardFile e.forward6
    let s := if r6 then { s with cap := s.cap ||| 8 } else s
    pure (if a6 then { s with capActive := s.capActive ||| 8 } else s)

/-- `sysinfo_fetch`, /repo/src/sysinfo.c lines 48-241; `s` has the country and location of the command line. -/
def sysinfoFetch (e : SysEnv) (s : SysInfo) : Res SysInfo :=
  if !e.lsbRun then .abort
  else do
    let d ← lsbDescr e
    match e.uname with
    | none => .abort
    | some u => do
      let rel ← relLoop (u.release.length + 1) u.release 0 s.utsRel
      let host ← hostText e u
      let (hv, inv) ← hinvFetch e u
      forwarding e { s with
        utsStr := utsText d u, platform := platformText d u, utsRel := rel, hostname := host, hinv := hv, cap := 4, capActive := 4
        lldpmedDevtype := if s.lldpmedDevtype = -1 then 1 else s.lldpmedDevtype
        capLldpmed := 1 + (if s.country ≠ [] ∧ s.location ≠ [] then 4 else 0) + (if inv then 32 else 0) }

/-- The start up to the fork, /repo/src/main.c lines 84-217: the settings, the ids of the user, and the state of the unprivileged process. -/
def startUp (h : Host) (e : SysEnv) (os : List Opt) (args : List Bytes) : Res (Conf × Option (Nat × Nat) × Daemon) := do
  let (s, pwd) ← mainStart h os args
  let sys ← sysinfoFetch e s.sys
  pure (s.conf args, pwd, { sys := sys })

end Ladvd
