import Verif.Model.Http
import Verif.Spec.Output
/-!
# Specification of posting: URLs and forms
-/

namespace Ladvd.Spec

/-- A URL of the scheme `http`. -/
structure Url where
  host : Bytes
  port : Option Nat := none
  path : Bytes := []
  deriving Repr, DecidableEq

/-- Neither the host has a slash or colon; the path is empty or begins with a slash. -/
def Url.Ok (u : Url) : Prop := (∀ b ∈ u.host, b ≠ 0x2f ∧ b ≠ 0x3a) ∧ (u.path = [] ∨ ∃ r, u.path = 0x2f :: r)

/-- Host and port as written. -/
def Url.authority (u : Url) : Bytes := u.host ++ (match u.port with | none => [] | some n => lit ":" ++ numeral n)

/-- The URL as written. -/
def Url.text (u : Url) : Bytes := lit "http://" ++ u.authority ++ u.path

/-- The value of a hexadecimal digit. -/
def hexValue (b : UInt8) : Option Nat :=
  if 0x30 ≤ b ∧ b ≤ 0x39 then some (b.toNat - 48)
  else if 0x41 ≤ b ∧ b ≤ 0x46 then some (b.toNat - 55)
  else if 0x61 ≤ b ∧ b ≤ 0x66 then some (b.toNat - 87)
  else none

/-- What a server makes of an encoded value: `+` is a space, `%` introduces two hexadecimal digits. -/
def formValue : Bytes → Option Bytes
  | [] => some []
  | b :: r =>
    if b = 0x2b then (formValue r).map (0x20 :: ·)
    else if b = 0x25 then
      match r with
      | h :: l :: r' => do
        let x ← hexValue h
        let y ← hexValue l
        let v ← formValue r'
        pure (UInt8.ofNat (16 * x + y) :: v)
      | _ => none
    else (formValue r).map (b :: ·)

/-- One field: name and value are separated by the first `=`. -/
def formField (f : Bytes) : Option (Bytes × Bytes) := do
  let name ← formValue (f.takeWhile (· ≠ 0x3d))
  let value ← formValue ((f.dropWhile (· ≠ 0x3d)).drop 1)
  pure (name, value)

/-- The fields of a form. -/
def formFields (body : Bytes) : Option (List (Bytes × Bytes)) := (splitAtByte 0x26 body).mapM formField

/-- A name that needs no encoding. -/
def Unencoded (t : Bytes) : Prop := ∀ b ∈ t, b ≠ 0x26 ∧ b ≠ 0x25 ∧ b ≠ 0x2b

instance (t : Bytes) : Decidable (Unencoded t) := by unfold Unencoded; infer_instance

/-- What is posted about a neighbour. -/
def posted (own : Bytes) (s : Shown) : List (Bytes × Bytes) :=
  [(lit "hostname", own), (lit "interface", s.name), (lit "peer_hostname", s.peer.hostname.getD []), (lit "peer_portname", s.peer.portname.getD []),
   (lit "protocol", protocolName s.proto), (lit "capabilities", s.peer.cap.getD []), (lit "ttl", numeral s.ttl),
   (lit "holdtime", numeral s.hold ++ lit "\r\n\r\n")]

/-- Replies that are no errors. -/
def Answered (server : Nat → Option Nat) (i : Nat) : Prop := ∃ code, server i = some code ∧ 0 < code ∧ code < 400

end Ladvd.Spec
