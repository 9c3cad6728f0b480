import Verif.Model.Basic
/-!
# Specification of the text shown for peer-supplied bytes

Written without reference to `vis`/`strnvis`: a byte is either shown as itself or as a
backslash followed by three octal digits; a backslash is doubled.
-/

namespace Ladvd.Spec

/-- Backslash and three octal digits. -/
def octal (c : UInt8) : Bytes :=
  [0x5c, 0x30 + c / 64, 0x30 + c / 8 % 8, 0x30 + c % 8]

/-- Printable ASCII including space. -/
def printable (c : UInt8) : Bool := 0x20 ≤ c && c ≤ 0x7e

/-- The control characters that `ladvd` lets through in displayed text: BEL, BS, TAB, LF, CR. -/
def harmlessCtl (c : UInt8) : Bool := c == 0x07 || c == 0x08 || c == 0x09 || c == 0x0a || c == 0x0d

/-- Shell glob characters and `#`. -/
def globChar (c : UInt8) : Bool := c == 0x2a || c == 0x3f || c == 0x5b || c == 0x23

/-- How one byte of a CDP/LLDP text is shown. -/
def showByte (c : UInt8) : Bytes :=
  if c = 0x5c then [0x5c, 0x5c]
  else if printable c || harmlessCtl c then [c]
  else octal c

/-- How one byte of an EDP/FDP text is shown. -/
def showByteGlob (c : UInt8) : Bytes :=
  if c = 0x5c then [0x5c, 0x5c]
  else if printable c && !globChar c then [c]
  else octal c

/-- The peer's text: the bytes before the first NUL, at most 511 of them. -/
def peerText (v : Bytes) : Bytes := (v.take 511).takeWhile (· ≠ 0)

/-- Text shown for a CDP/LLDP string value. -/
def shown (v : Bytes) : Bytes := (peerText v).flatMap showByte

/-- Text shown for an EDP/FDP string value. -/
def shownGlob (v : Bytes) : Bytes := (peerText v).flatMap showByteGlob

/-- Inverse of the display encoding (the `unvis` grammar restricted to `\\` and `\ddd`). -/
def unshow : Bytes → Option Bytes
  | [] => some []
  | 0x5c :: 0x5c :: r => (unshow r).map (0x5c :: ·)
  | 0x5c :: a :: b :: c :: r =>
    if 0x30 ≤ a ∧ a ≤ 0x33 ∧ 0x30 ≤ b ∧ b ≤ 0x37 ∧ 0x30 ≤ c ∧ c ≤ 0x37 then
      (unshow r).map (((a - 0x30) * 64 + (b - 0x30) * 8 + (c - 0x30)) :: ·)
    else none
  | c :: r => if c = 0x5c then none else (unshow r).map (c :: ·)

end Ladvd.Spec
