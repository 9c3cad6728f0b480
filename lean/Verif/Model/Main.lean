import Verif.Model.Send
/-!
# Start of the daemon: options

/repo/src/main.c lines 76-230, built for Linux (`HAVE_SYSFS`).
-/

namespace Ladvd

/-- One option as `getopt` returns it, /repo/src/main.c line 84: its letter and, for the letters followed by a colon, its argument.  `getopt`
itself (libc) is not modelled. -/
structure Opt where
  ch : Char
  arg : Bytes := []
  deriving Repr, DecidableEq

/-- What option processing asks libc: `if_nametoindex`, `inet_pton` for both families, and `getpwnam` (user and group id). -/
structure Host where
  hasIf : Bytes → Bool := fun _ => false
  pton4 : Bytes → Option Bytes := fun _ => none
  pton6 : Bytes → Option Bytes := fun _ => none
  user : Bytes → Option (Nat × Nat) := fun _ => none

/-- The variables set by option processing: `options` (/repo/src/main.c line 29), `username`, `exclifs`, the management selection, country and
location in `sysinfo`, and a bit for each `protos[p].enabled`. -/
structure MainSt where
  opts : Opts := 3
  user : Bytes := lit "ladvd"
  excl : List Bytes := []
  mgmt : Mgmt := {}
  country : Bytes := []
  location : Bytes := []
  protos : Nat := 0
  deriving Repr, DecidableEq

/-- `options |= 1 << b`. -/
def MainSt.on (s : MainSt) (b : Nat) : MainSt := { s with opts := s.opts ||| (1 <<< b) }

/-- `options &= ~(1 << b)`. -/
def MainSt.off (s : MainSt) (b : Nat) : MainSt := { s with opts := s.opts ^^^ (s.opts &&& (1 <<< b)) }

/-- `toupper` in the C locale on a (signed) `char`: for bytes from 0x80 on, except 0xff which equals `EOF`, the call is undefined. -/
def toUpper (c : UInt8) : Res UInt8 :=
  if 0x80 ≤ c ∧ c ≠ 0xff then .oob
  else .ok (if 0x61 ≤ c ∧ c ≤ 0x7a then c - 0x20 else c)

/-- `-m`, /repo/src/main.c lines 107-122. -/
def mainMgmt (h : Host) (s : MainSt) (arg : Bytes) : Res MainSt :=
  let s := s.on OPT_MNETIF
  if h.hasIf arg then .ok { s with mgmt := { s.mgmt with mifname := some arg } }
  else
    match h.pton4 arg, h.pton6 arg with
    | some a, _ => .ok { s with mgmt := { s.mgmt with maddr4 := a } }
    | none, some a => .ok { s with mgmt := { s.mgmt with maddr6 := a } }
    | none, none => .fail

/-- `-c`, /repo/src/main.c lines 160-167. -/
def mainCountry (s : MainSt) (arg : Bytes) : Res MainSt :=
  match arg with
  | [a, b] => do
    let a ← toUpper a
    let b ← toUpper b
    pure { s with country := [a, b] }
  | _ => .fail

/-- The body of the option loop, /repo/src/main.c lines 85-190; `fail` is `usage()`.  Simplification: `-v` only changes logging. -/
def mainOpt (h : Host) (s : MainSt) (o : Opt) : Res MainSt :=
  match o.ch with
  | 'a' => .ok ((s.on OPT_AUTO).on OPT_RECV)
  | 'd' => .ok ((s.on OPT_DEBUG).off OPT_DAEMON)
  | 'e' => if h.hasIf o.arg then .ok { s with excl := s.excl ++ [o.arg.take 15] } else .fail
  | 'f' => .ok (s.off OPT_DAEMON)
  | 'm' => mainMgmt h s o.arg
  | 'n' => .ok (s.on OPT_MADDR)
  | 'o' => .ok (s.on OPT_ONCE)
  | 'q' => .ok (s.on OPT_CHASSIS_IF)
  | 'r' => .ok (s.on OPT_RECV)
  | 's' => .ok (s.off OPT_SEND)
  | 't' => .ok (s.on OPT_TAP)
  | 'u' => .ok { s with user := o.arg }
  | 'v' => .ok s
  | 'w' => .ok (s.on OPT_WIRELESS)
  | 'y' => .ok (((s.on OPT_USEDESCR).on OPT_RECV).on OPT_IFDESCR)
  | 'z' => .ok ((s.on OPT_RECV).on OPT_IFDESCR)
  | 'c' => mainCountry s o.arg
  | 'l' => if o.arg.length = 0 then .fail else .ok { s with location := o.arg.take 255 }
  | 'L' => .ok { s with protos := s.protos ||| (1 <<< 0) }
  | 'C' => .ok { s with protos := s.protos ||| (1 <<< 1) }
  | 'E' => .ok { s with protos := s.protos ||| (1 <<< 2) }
  | 'F' => .ok { s with protos := s.protos ||| (1 <<< 3) }
  | 'N' => .ok { s with protos := s.protos ||| (1 <<< 4) }
  | _ => .fail

/-- The option loop, /repo/src/main.c lines 84-191. -/
def mainLoop (h : Host) : List Opt → MainSt → Res MainSt
  | [], s => .ok s
  | o :: os, s => (mainOpt h s o).bind (mainLoop h os)

/-- Options and their validation, /repo/src/main.c lines 84-216: the settings and the ids of the user to switch to (`pwd`, `NULL` in a debug run);
`fail` is `usage()`, `abort` is `my_fatal`.  `args` are the interfaces. -/
def mainStart (h : Host) (os : List Opt) (args : List Bytes) : Res (MainSt × Option (Nat × Nat)) := do
  let s ← mainLoop h os {}
  let s := if args.length ≠ 0 then s.on OPT_ARGV else s
  if !s.opts.has OPT_AUTO && s.protos == 0 then .fail
  else if s.opts.has OPT_DEBUG then pure (s, none)
  else
    match h.user s.user with
    | none => .abort
    | some pwd => pure (s, some pwd)

/-- The settings as the two processes see them. -/
def MainSt.conf (s : MainSt) (args : List Bytes) : Conf :=
  { opts := s.opts, names := args, mgmt := s.mgmt, excl := s.excl, enabled := fun p => s.protos.testBit p.num }

/-- The part of `sysinfo` set by the options, before `sysinfo_fetch` (/repo/src/main.c lines 63-65). -/
def MainSt.sys (s : MainSt) : SysInfo := { country := s.country, location := s.location, cap := 0, capActive := 0, lldpmedDevtype := -1 }

end Ladvd
