import Verif.Spec.Main
import Verif.Spec.Send
/-!
# Specification of what a command line asks for

In terms of the letters and words typed only.
-/

namespace Ladvd.Spec

/-- The user asked for this kind of interface and did not exclude this one: never VLANs, wireless ones with `-w`, taps with `-t`, and no name given
with `-e` (of which 15 bytes count). -/
def AskedFor (os : List Opt) (e : Link) : Prop :=
  e.kind ≥ 0 ∧ (e.kind = 1 → given os ['w']) ∧ (e.kind = 2 → given os ['t']) ∧ ∀ a ∈ argsOf 'e' os, e.name ≠ a.take 15

instance (os : List Opt) (e : Link) : Decidable (AskedFor os e) := by unfold AskedFor; infer_instance

/-- A frame with protocol `p` is to leave interface `i`: for an interface named as operand, or without operands for one that is no port of another, and on it
or if it is an aggregate on its ports, if the letter of the protocol was typed or the protocol was received (`known`, one bit per protocol). -/
def TypedDue (os : List Opt) (args : List Bytes) (k : Kernel) (us : List Link) (known : Nat → Nat) (i : Nat) (p : Proto) : Prop :=
  ∃ e ∈ us, AskedFor os e ∧ (if args = [] then ∀ a ∈ us, e.index ∉ portsAt k us a else e.name ∈ args) ∧
    ∃ s ∈ us, s.index = i ∧ AskedFor os s ∧ (if e.kind > 10 then i ∈ portsAt k us e else s = e) ∧
      ((∃ c, protoLetter p = some c ∧ given os [c]) ∨ (known e.index).testBit p.num = true)

/-- The words of a user of the client ask for what was heard with protocol `p` on interface `i`: no protocols or interfaces were named, or these were. -/
def ClientAsks (os : List Opt) (ix : Bytes → Option Nat) (args : List Bytes) (i : Nat) (p : Proto) : Prop :=
  (¬ given os ['L', 'C', 'E', 'F', 'N'] ∨ ∃ c, protoLetter p = some c ∧ given os [c]) ∧ (args ≠ [] → ∃ a ∈ args, ix a = some i)

end Ladvd.Spec
