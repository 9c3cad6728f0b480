import Verif.Model.FdTable
/-!
# Specification: what a process has of descriptors
-/

namespace Ladvd.Spec

open Ladvd

/-- No number is open twice. -/
def TableOk (t : FdTable) : Prop := (t.map (·.1)).Nodup

instance (t : FdTable) : Decidable (TableOk t) := inferInstanceAs (Decidable (List.Nodup _))

/-- There are `n` numbers below the limit that are not open. -/
def HasFree (limit n : Nat) (t : FdTable) : Prop := ∃ s : List Nat, s.Nodup ∧ s.length = n ∧ ∀ k ∈ s, k < limit ∧ ∀ f, (k, f) ∉ t

end Ladvd.Spec
