import Verif.Model.Basic
/-!
# Reading visually encoded text

The grammar of the manual page vis(3), read from left to right: a backslash starts an escape, everything else stands for
itself.  Written without reference to the encoder.
-/

namespace Ladvd.Spec

/-- An octal digit. -/
def octDigit (c : UInt8) : Bool := 0x30 ≤ c && c ≤ 0x37

/-- The value of up to `n` octal digits in front of `s`, added to `acc`, and what follows them. -/
def octDigits : Nat → Nat → Bytes → Nat × Bytes
  | 0, acc, s => (acc, s)
  | n + 1, acc, c :: s => if octDigit c then octDigits n (acc * 8 + (c.toNat - 0x30)) s else (acc, c :: s)
  | _ + 1, acc, [] => (acc, [])

/-- The letters that stand for a control character or a space after a backslash. -/
def letterEsc (c : UInt8) : Option UInt8 :=
  if c = 0x6e then some 10          -- n
  else if c = 0x72 then some 13     -- r
  else if c = 0x62 then some 8      -- b
  else if c = 0x61 then some 7      -- a
  else if c = 0x76 then some 11     -- v
  else if c = 0x74 then some 9      -- t
  else if c = 0x66 then some 12     -- f
  else if c = 0x73 then some 32     -- s
  else if c = 0x5c then some 0x5c   -- the backslash itself
  else none

/-- The control character written as `^c`: `^?` is DEL, `^@` to `^_` are 0 to 31. -/
def caret (c : UInt8) : Option UInt8 :=
  if c = 0x3f then some 0x7f
  else if 0x40 ≤ c ∧ c ≤ 0x5f then some (c - 0x40)
  else none

/-- Reads one item: the byte it stands for and the rest of the text. -/
def unvisItem : Bytes → Option (UInt8 × Bytes)
  | [] => none
  | c :: s =>
    if c ≠ 0x5c then some (c, s)
    else match s with
      | [] => none
      | d :: s =>
        if octDigit d then
          let v := octDigits 2 (d.toNat - 0x30) s
          if v.1 < 256 then some (UInt8.ofNat v.1, v.2) else none
        else if d = 0x5e then
          match s with
          | [] => none
          | e :: s => (caret e).map (·, s)
        else if d = 0x4d then
          match s with
          | m :: e :: s =>
            if m = 0x5e then (caret e).map (fun b => (b + 0x80, s))
            else if m = 0x2d ∧ e < 0x80 then some (e + 0x80, s)
            else none
          | _ => none
        else (letterEsc d).map (·, s)

/-- Reads a whole text of at most `n` items. -/
def unvisN : Nat → Bytes → Option Bytes
  | _, [] => some []
  | 0, _ :: _ => none
  | n + 1, c :: s =>
    match unvisItem (c :: s) with
    | some (b, r) => (unvisN n r).map (b :: ·)
    | none => none

/-- What an encoded text stands for, if it is well formed. -/
def unvis (s : Bytes) : Option Bytes := unvisN s.length s

end Ladvd.Spec
