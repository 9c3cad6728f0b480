import Verif.Model.Sysinfo
/-!
# System information on FreeBSD

/repo/src/sysinfo.c, built for FreeBSD (`__FreeBSD__`, `HAVE_KENV_H`, `CTL_NET`; none of the `HW_*` names of OpenBSD).
-/

namespace Ladvd

/-- What `sysinfo_fetch` asks a FreeBSD system: `uname`, `gethostbyname`, variables of the kernel's environment, and the two forwarding sysctls. -/
structure BsdSysEnv where
  uname : Option Uname
  hostByName : Bytes → Option Bytes := fun _ => none
  kenv : Dmi → Option Bytes := fun _ => none
  forward4 : Option Int := none
  forward6 : Option Int := none

/-- The part that is the same on all systems. -/
def BsdSysEnv.common (e : BsdSysEnv) : SysEnv := { uname := e.uname, hostByName := e.hostByName }

/-- `kenv(KENV_GET, ...)` with length 32 into a zeroed buffer of 33 bytes, /repo/src/sysinfo.c lines 209-213: the kernel copies the value and its
NUL as far as they fit. -/
def kenvMem (v : Option Bytes) : Bytes :=
  let out := match v with | none => [] | some s => (s ++ [0]).take 32
  out ++ List.replicate (INV_SIZE - out.length) 0

/-- `struct hinv` on FreeBSD, /repo/src/sysinfo.c lines 170 and 208-214, and whether a byte of it is not zero. -/
def bsdHinv (e : BsdSysEnv) (u : Uname) : Res (Hinv × Bool) := do
  let (sw, _) ← strlcpy (List.replicate INV_SIZE 0) u.release INV_SIZE
  let hw := kenvMem (e.kenv .hw)
  let fw := kenvMem (e.kenv .fw)
  let se := kenvMem (e.kenv .serial)
  let ma := kenvMem (e.kenv .manufacturer)
  let mo := kenvMem (e.kenv .model)
  let swT ← cstrAt sw 0
  let hwT ← cstrAt hw 0
  let fwT ← cstrAt fw 0
  let seT ← cstrAt se 0
  let maT ← cstrAt ma 0
  let moT ← cstrAt mo 0
  pure ({ hwRevision := hwT, fwRevision := fwT, swRevision := swT, serialNumber := seT, manufacturer := maT, modelName := moT },
    (hw ++ fw ++ sw ++ se ++ ma ++ mo).any (fun b => b != 0))

/-- `uts_str` on FreeBSD, /repo/src/sysinfo.c lines 131-132. -/
def bsdUtsText (u : Uname) : Bytes := snprintf256 (u.version ++ lit " " ++ u.machine)

/-- `sysinfo_forwarding` on FreeBSD, /repo/src/sysinfo.c lines 279-305. -/
def bsdForwarding (e : BsdSysEnv) (s : SysInfo) : SysInfo :=
  let s := if e.forward4.isSome then { s with cap := s.cap ||| 8 } else s
  if e.forward4 = some 1 then { s with capActive := s.capActive ||| 8 }
  else
    let s := if e.forward6.isSome then { s with cap := s.cap ||| 8 } else s
    if e.forward6 = some 1 then { s with capActive := s.capActive ||| 8 } else s

/-- `sysinfo_fetch` on FreeBSD, /repo/src/sysinfo.c lines 48-241. -/
def bsdSysinfo (e : BsdSysEnv) (s : SysInfo) : Res SysInfo :=
  match e.uname with
  | none => .abort
  | some u => do
    let rel ← relLoop (u.release.length + 1) u.release 0 s.utsRel
    let host ← hostText e.common u
    let (hv, inv) ← bsdHinv e u
    pure (bsdForwarding e { s with
      utsStr := bsdUtsText u, platform := platformText none u, utsRel := rel, hostname := host, hinv := hv, cap := 4, capActive := 4
      lldpmedDevtype := if s.lldpmedDevtype = -1 then 1 else s.lldpmedDevtype
      capLldpmed := 1 + (if s.country ≠ [] ∧ s.location ≠ [] then 4 else 0) + (if inv then 32 else 0) })

end Ladvd
