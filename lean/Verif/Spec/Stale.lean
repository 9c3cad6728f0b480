import Verif.Spec.Network
import Verif.Spec.Typed
/-!
# Specification of what an expired entry can spoil

In terms of the order in which the client is handed the entries.
-/

namespace Ladvd.Spec

/-- `y` is the last one of interest among those that come `before`. -/
def DirectlyBefore {α : Type} (interest : α → Prop) (y : α) (before : List α) : Prop :=
  ∃ pre mid, before = pre ++ y :: mid ∧ interest y ∧ ∀ z ∈ mid, ¬ interest z

/-- The user asks for this entry. -/
def EntryAsked (opts : List Opt) (ix : Bytes → Option Nat) (args : List Bytes) (x : Entry) : Prop :=
  ∃ p : Proto, x.proto = p.num ∧ ClientAsks opts ix args x.index p

end Ladvd.Spec
