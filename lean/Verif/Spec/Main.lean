import Verif.Model.Main
/-!
# Specification of the daemon's command line, after /repo/doc/ladvd.8.in
-/

namespace Ladvd.Spec

/-- One of the letters was given. -/
def given (os : List Opt) (letters : List Char) : Prop := ∃ o ∈ os, o.ch ∈ letters

instance (os : List Opt) (letters : List Char) : Decidable (given os letters) := by unfold given; infer_instance

/-- The letters that turn a setting on. -/
def onLetters : Nat → List Char
  | 2 => ['a', 'r', 'y', 'z'] | 3 => ['a'] | 4 => ['o'] | 6 => ['d'] | 7 => ['m'] | 8 => ['n'] | 9 => ['w'] | 10 => ['t'] | 11 => ['y', 'z']
  | 12 => ['y'] | 13 => ['q'] | _ => []

/-- The arguments given with a letter, in order. -/
def argsOf (ch : Char) (os : List Opt) : List Bytes := (os.filter (fun o => o.ch = ch)).map (·.arg)

/-- The letter that enables a protocol; the version 1 variant of CDP has none. -/
def protoLetter : Proto → Option Char
  | .lldp => some 'L' | .cdp => some 'C' | .edp => some 'E' | .fdp => some 'F' | .ndp => some 'N' | .cdp1 => none

/-- What the manual allows for one option: a known letter, and with an argument: an existing interface to exclude, a management interface or
address, two (ASCII) characters as country, a non-empty location. -/
def ValidOpt (h : Host) (o : Opt) : Prop :=
  o.ch ∈ ['a', 'd', 'f', 'n', 'o', 'q', 'r', 's', 't', 'u', 'v', 'w', 'y', 'z', 'L', 'C', 'E', 'F', 'N'] ∨
  (o.ch = 'e' ∧ h.hasIf o.arg = true) ∨
  (o.ch = 'm' ∧ (h.hasIf o.arg = true ∨ (h.pton4 o.arg).isSome ∨ (h.pton6 o.arg).isSome)) ∨
  (o.ch = 'c' ∧ o.arg.length = 2 ∧ ∀ b ∈ o.arg, b < 0x80 ∨ b = 0xff) ∨
  (o.ch = 'l' ∧ o.arg ≠ [])

/-- A text in capital letters. -/
def capitals (t : Bytes) : Bytes := t.map (fun b => if 0x61 ≤ b ∧ b ≤ 0x7a then b - 0x20 else b)

end Ladvd.Spec
