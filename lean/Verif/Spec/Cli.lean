import Verif.Model.Cli
import Verif.Spec.Advert
/-!
# Specification of what the command line client shows
-/

namespace Ladvd.Spec

/-- The frame announces a lifetime of `ttl` seconds.  EDP and NDP frames carry none; they are taken to be valid for three minutes. -/
def Announces (p : Proto) (f : Bytes) (ttl : Nat) : Prop :=
  match p with
  | .lldp => ∃ chassis port t0 t1 rest, chassis.length < 512 ∧ port.length < 512 ∧
      LldpFrame f (lldpEnc [(1, chassis), (2, port), (3, [t0, t1])] ++ rest) ∧ ttl = t0.toNat * 256 + t1.toNat
  | .cdp | .cdp1 => ∃ ver t k0 k1 rest, CdpFrame f ([ver, t, k0, k1] ++ rest) ∧ ttl = t.toNat
  | .fdp => ∃ t k0 k1 rest, FdpFrame f ([1, t, k0, k1] ++ rest) ∧ ttl = t.toNat
  | .edp | .ndp => ttl = 180

/-- The entries a run is about: a known protocol, the size of an Ethernet frame, on one of the interfaces named on the command line (if any
are), and of a protocol asked for. -/
structure Selected (c : CliConf) (e : CliIn) : Prop where
  proto : e.proto < 6
  size : 60 ≤ e.len ∧ e.len ≤ 1518
  index : ∀ l, c.indexes = some l → e.index ∈ l
  wanted : c.protos.testBit e.proto = true

/-- More seconds have passed since the frame was received than it announces as its lifetime. -/
def Expired (now : Int) (e : CliIn) : Prop :=
  ∃ p ttl, Proto.ofNum e.proto = some p ∧ Announces p (e.msg.take e.len.toNat) ttl ∧ (ttl : Int) < now - e.received

/-! ## What a shell makes of the batch output -/

/-- A byte that may occur in the name of a shell variable as used here. -/
def nameByte (b : UInt8) : Bool := (0x41 ≤ b && b ≤ 0x5a) || (0x30 ≤ b && b ≤ 0x39) || b == 0x5f

/-- Where the reader is: in a name, behind the `=`, inside quotes, behind the closing quote. -/
inductive Reading where
  | name (read : Bytes)
  | equals (name : Bytes)
  | quoted (name read : Bytes)
  | closed (name value : Bytes)

/-- Read a script that consists of nothing but lines `NAME='value'`, where the quotes end at the next single quote, whatever is between them.
Anything else (`none`) would be a command. -/
def shellGo : Reading → Bytes → Option (List (Bytes × Bytes))
  | .name n, [] => if n = [] then some [] else none
  | .name n, b :: r => if b = 0x3d then (if n = [] then none else shellGo (.equals n) r) else if nameByte b then shellGo (.name (n ++ [b])) r else none
  | .equals n, b :: r => if b = 0x27 then shellGo (.quoted n []) r else none
  | .quoted n v, b :: r => if b = 0x27 then shellGo (.closed n v) r else shellGo (.quoted n (v ++ [b])) r
  | .closed n v, b :: r => if b = 0x0a then (shellGo (.name []) r).map ((n, v) :: ·) else none
  | .equals _, [] => none
  | .quoted _ _, [] => none
  | .closed _ _, [] => none

/-- The assignments made by a script. -/
def shellRun (script : Bytes) : Option (List (Bytes × Bytes)) := shellGo (.name []) script

/-- A text with its single quotes replaced by double quotes. -/
def requoted (t : Option Bytes) : Bytes := (t.getD []).map (fun b => if b = 0x27 then 0x22 else b)

/-! ## Lines and form fields -/

/-- Number of line ends. -/
def lineEnds (t : Bytes) : Nat := t.count 0x0a

/-- Split at a byte. -/
def splitAtByte (d : UInt8) : Bytes → List Bytes
  | [] => [[]]
  | b :: r =>
    if b = d then [] :: splitAtByte d r
    else match splitAtByte d r with
      | [] => [[b]]
      | f :: fs => (b :: f) :: fs

end Ladvd.Spec
