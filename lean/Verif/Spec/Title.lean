import Verif.Model.Title
import Verif.Spec.Text
/-!
# Specification of process titles
-/

namespace Ladvd.Spec

/-- Address `a` belongs to the string at `p`: no NUL comes before it. -/
def Within (mem : Bytes) (p a : Nat) : Prop := p ≤ a ∧ ∀ b, p ≤ b → b < a → mem[b]? ≠ some 0

/-- There is a string at `p`. -/
def IsString (mem : Bytes) (p : Nat) : Prop := ∃ a, p ≤ a ∧ mem[a]? = some 0

/-- Strings one behind the other, each with its NUL. -/
def packed : List Bytes → Bytes
  | [] => []
  | s :: ss => s ++ 0 :: packed ss

/-- Where they start. -/
def starts (base : Nat) : List Bytes → List Nat
  | [] => []
  | s :: ss => base :: starts (base + s.length + 1) ss

/-- Characters that appear in a title as they are. -/
def Plain (s : Bytes) : Prop := ∀ c ∈ s, printable c = true ∧ c ≠ 0x5c

instance (s : Bytes) : Decidable (Plain s) := by unfold Plain; infer_instance

/-- What the strings behind some pointers are. -/
def readAll (mem : Bytes) (ps : List Str) : List (Res Bytes) := ps.map (Str.get mem)

end Ladvd.Spec
