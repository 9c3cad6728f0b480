import Verif.Model.Sysinfo
import Verif.Spec.Parent
import Verif.Spec.Send
import Verif.Spec.Main
/-!
# Specification of the system information

Written from the manual and from what the texts are; from the model only the record of the system's answers (`SysEnv`, `Uname`) is used.
-/

namespace Ladvd.Spec

/-- What libc guarantees: C strings, and non-empty names from `uname`. -/
structure SysEnvOk (e : SysEnv) : Prop where
  uts : ∀ u ∈ e.uname, ∀ t ∈ [u.sysname, u.nodename, u.release, u.version, u.machine], t ≠ [] ∧ ∀ b ∈ t, b ≠ 0
  host : ∀ n h, e.hostByName n = some h → ∀ b ∈ h, b ≠ 0

/-- A line with the quotes around it removed, if it has any; a line that is a single quote becomes empty. -/
def Unquoted (t r : Bytes) : Prop :=
  (t = [0x22] ∧ r = []) ∨ t = [0x22] ++ r ++ [0x22] ∨ (r = t ∧ ¬ (t.head? = some 0x22 ∧ t.getLast? = some 0x22))

/-- The description of the distribution: the first line of `lsb_release -s -d`, without quotes; none if the command fails or prints nothing. -/
def Distribution (e : SysEnv) : Option Bytes → Prop
  | none => e.lsbOk = false ∨ e.lsbOut = []
  | some d => e.lsbOk = true ∧ e.lsbOut ≠ [] ∧ Unquoted (firstLine 511 e.lsbOut) d

/-- Words separated by single spaces. -/
def words (l : List Bytes) : Bytes := (lit " ").intercalate l

/-- The name of the host: what the resolver calls it, unless it does not know it or calls it localhost. -/
def HostName (e : SysEnv) (u : Uname) (h : Bytes) : Prop :=
  (∃ n, e.hostByName u.nodename = some n ∧ n ≠ lit "localhost" ∧ h = n.take 255) ∨
  ((e.hostByName u.nodename = none ∨ e.hostByName u.nodename = some (lit "localhost")) ∧ h = u.nodename.take 255)

/-- A decimal digit. -/
def Digit (b : UInt8) : Prop := 0x30 ≤ b ∧ b ≤ 0x39

instance (b : UInt8) : Decidable (Digit b) := by unfold Digit; infer_instance

/-- Value of a sequence of digits. -/
def numValue : Bytes → Nat
  | [] => 0
  | b :: r => (b.toNat - 48) * 10 ^ r.length + numValue r

/-- `t` starts, after white space, with the numeral of `v`. -/
def Numeral (t : Bytes) (v : Int) : Prop :=
  ∃ ws sg ds rest, t = ws ++ sg ++ ds ++ rest ∧ (∀ b ∈ ws, White b) ∧ (sg = [] ∨ sg = [0x2b] ∨ sg = [0x2d]) ∧ ds ≠ [] ∧
    (∀ b ∈ ds, Digit b) ∧ (∀ b, rest.head? = some b → ¬ Digit b) ∧ v = if sg = [0x2d] then - (numValue ds : Int) else numValue ds

/-- The numbers in a text: its maximal runs of digits. -/
inductive Numbers : Bytes → List Bytes → Prop where
  | nil : Numbers [] []
  | skip {b : UInt8} {r : Bytes} {l : List Bytes} : ¬ Digit b → Numbers r l → Numbers (b :: r) l
  | run {ds r : Bytes} {l : List Bytes} : ds ≠ [] → (∀ b ∈ ds, Digit b) → (∀ b, r.head? = some b → ¬ Digit b) → Numbers r l →
      Numbers (ds ++ r) (ds :: l)

/-- A minus sign in front of a number follows directly on a number (as in `6.1.0-13-amd64`), so that it is not part of the number. -/
def NoMinus (t : Bytes) : Prop :=
  ∀ a b, t = a ++ 0x2d :: b → (∃ c, b.head? = some c ∧ Digit c) → ∃ c, a.getLast? = some c ∧ Digit c

/-- The first line of a file of the system, or nothing. -/
def fileLine (n : Nat) (content : Option Bytes) : Bytes := (content.map (firstLine n)).getD []

/-- Arguments are C strings. -/
def OptsOk (os : List Opt) : Prop := ∀ o ∈ os, ∀ b ∈ o.arg, b ≠ 0

/-- The kernel lists an Ethernet interface of kind `t` (1 wireless, 13 bridge). -/
def HasKind (k : Kernel) (addrs : List IfAddr) (t : Int) : Prop :=
  ∃ ia ∈ addrs, ∃ i hw, ia.addr = .link true i hw ∧ kindOf (k.probe i ia.name) = some t

/-- One that is up. -/
def HasKindUp (k : Kernel) (addrs : List IfAddr) (t : Int) : Prop :=
  ∃ ia ∈ addrs, ∃ i hw, ia.addr = .link true i hw ∧ kindOf (k.probe i ia.name) = some t ∧ k.up ia.name = true

/-- The regular Ethernet interfaces the kernel lists. -/
def regulars (k : Kernel) (addrs : List IfAddr) : List IfAddr := addrs.filter (fun ia =>
  match ia.addr with | .link true i _ => kindOf (k.probe i ia.name) = some 0 | _ => false)

end Ladvd.Spec
