import Verif.Model.Basic
/-!
# `vis` and `strnvis` of /repo/src/compat/vis.c
-/

namespace Ladvd

/-- The `flag` argument of `vis` and `strnvis` as separate bits, /repo/src/compat/vis.h lines 48-65. -/
structure VisFlags where
  octal : Bool := false
  cstyle : Bool := false
  sp : Bool := false
  tab : Bool := false
  nl : Bool := false
  safe : Bool := false
  noslash : Bool := false
  glob : Bool := false
  deriving Repr, DecidableEq

/-- `isgraph` in the C locale (the process never calls `setlocale`). -/
def isgraph (c : UInt8) : Bool := 0x21 ≤ c && c ≤ 0x7e

/-- `iscntrl` in the C locale. -/
def iscntrl (c : UInt8) : Bool := c < 0x20 || c == 0x7f

/-- The four characters encoded under `VIS_GLOB`: `*`, `?`, `[`, `#`
(/repo/src/compat/vis.c lines 47 and 115). -/
def isglob (c : UInt8) : Bool := c == 0x2a || c == 0x3f || c == 0x5b || c == 0x23

/-- `isvisible(c)`, /repo/src/compat/vis.c lines 45-54.  `c` was loaded through a signed
`char`, so bytes from 0x80 are negative and neither `isascii` nor equal to any of the
character constants; in the C locale `isgraph` is false for them as well. -/
def isvisible (f : VisFlags) (c : UInt8) : Bool :=
  (c < 0x80 && (!isglob c || !f.glob) && isgraph c) ||
  (!f.sp && c == 0x20) ||
  (!f.tab && c == 0x09) ||
  (!f.nl && c == 0x0a) ||
  (f.safe && (c == 0x08 || c == 0x07 || c == 0x0d || isgraph c))

/-- The three octal digits written by `vis`, /repo/src/compat/vis.c lines 116-119. -/
def octalEsc (c : UInt8) : Bytes :=
  [0x5c, UInt8.ofNat (c.toNat / 64 % 8) + 0x30, UInt8.ofNat (c.toNat / 8 % 8) + 0x30,
   UInt8.ofNat (c.toNat % 8) + 0x30]

/-- The `VIS_CSTYLE` table of `vis`, /repo/src/compat/vis.c lines 70-113. -/
def cstyleEsc (c nextc : UInt8) : Option Bytes :=
  if c == 0x0a then some [0x5c, 0x6e]
  else if c == 0x0d then some [0x5c, 0x72]
  else if c == 0x08 then some [0x5c, 0x62]
  else if c == 0x07 then some [0x5c, 0x61]
  else if c == 0x0b then some [0x5c, 0x76]
  else if c == 0x09 then some [0x5c, 0x74]
  else if c == 0x0c then some [0x5c, 0x66]
  else if c == 0x20 then some [0x5c, 0x73]
  else if c == 0 then
    if 0x30 ≤ nextc && nextc ≤ 0x37 then some [0x5c, 0x30, 0x30, 0x30] else some [0x5c, 0x30]
  else none

/-- `vis(dst, c, flag, nextc)`, /repo/src/compat/vis.c lines 59-141; returns the characters
stored before the terminating NUL. -/
def vis (f : VisFlags) (c nextc : UInt8) : Bytes :=
  if isvisible f c then
    c :: (if c == 0x5c && !f.noslash then [0x5c] else [])
  else
    match (if f.cstyle then cstyleEsc c nextc else none) with
    | some e => e
    | none =>
      if (c &&& 0x7f) == 0x20 || f.octal || (f.glob && isglob c) then octalEsc c
      else
        let c' := c &&& 0x7f
        (if f.noslash then [] else [0x5c]) ++ (if c ≥ 0x80 then [0x4d] else []) ++
        (if iscntrl c' then 0x5e :: (if c' == 0x7f then [0x3f] else [c' + 0x40])
         else [0x2d, c'])

/-- First byte of the rest of a C string, NUL at its end (`*++src`). -/
def nextc (rest : Bytes) : UInt8 := rest.headD 0

/-- The main loop of `strnvis`, /repo/src/compat/vis.c lines 175-201.  `out` is what has been
stored at `start..dst`, `i` the size of the last item.  Result: stored bytes, unread source,
last `i`.  Pointer comparisons `dst < end` with `end = start + siz - 1` become comparisons of
`out.length + 1` with `siz`. -/
def strnvisLoop (f : VisFlags) (siz : Nat) : Bytes → Bytes → Nat → Bytes × Bytes × Nat
  | [], out, i => (out, [], i)
  | c :: src, out, i =>
    if out.length + 1 < siz then
      if isvisible f c then
        if c == 0x5c && !f.noslash then
          if out.length + 1 + 1 < siz then strnvisLoop f siz src (out ++ [c, 0x5c]) 1
          else (out, c :: src, 2)
        else strnvisLoop f siz src (out ++ [c]) 1
      else
        let e := vis f c (nextc src)
        if out.length + e.length + 1 ≤ siz then strnvisLoop f siz src (out ++ e) e.length
        else (out, c :: src, e.length)
    else (out, c :: src, i)

/-- Total encoded size of the unread source, /repo/src/compat/vis.c lines 206-207. -/
def visLen (f : VisFlags) : Bytes → Nat
  | [] => 0
  | c :: src => (vis f c (nextc src)).length + visLen f src

/-- `strnvis(dst, src, siz, flag)`, /repo/src/compat/vis.c lines 168-210.  Returns the string left in
`dst` (without its NUL; nothing is stored when `siz` is 0) and the return value. -/
def strnvis (f : VisFlags) (src : Bytes) (siz : Nat) : Bytes × Nat :=
  let (out, rest, i) := strnvisLoop f siz src [] 0
  let ret := if siz < out.length + i + 1 then out.length + visLen f rest else out.length
  (out, ret)

/-- Flags used for peer strings by `tlv_value_str`, /repo/src/proto/tlv.c line 48. -/
def VALUE_FLAGS : VisFlags := { nl := true, tab := true, glob := true, octal := true }

/-- Flags used for peer strings by `tlv_str_copy`, /repo/src/proto/tlv.c line 101. -/
def COPY_FLAGS : VisFlags := { safe := true, octal := true }

end Ladvd
