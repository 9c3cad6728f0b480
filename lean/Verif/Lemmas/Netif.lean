import Verif.Model.Netif
/-!
# Traversal of the interface list
-/

namespace Ladvd

theorem netifTraverse_eq (o : Opts) (l : List Netif) :
    netifTraverse o l = l.filter (fun n => !netifSkip o n) := by
  induction l with
  | nil => rw [netifTraverse]; rfl
  | cons n l ih =>
    rw [netifTraverse]
    by_cases h : netifSkip o n = true
    · rw [List.filter_cons_of_neg (by simp [h]), ← ih]
      rw [netifTraverse]
      have e : netifIter o (n :: l) = netifIter o l := by simp [netifIter, h]
      split
      · rename_i h1
        rw [e] at h1
        split
        · rfl
        · rename_i h2; rw [h1] at h2; cases h2
      · rename_i h1
        rw [e] at h1
        split
        · rename_i h2; rw [h1] at h2; cases h2
        · rename_i h2; rw [h1] at h2
          simp only [List.cons.injEq] at h2
          obtain ⟨rfl, rfl⟩ := h2; rfl
    · rw [List.filter_cons_of_pos (by simp [h]), ← ih]
      have e : netifIter o (n :: l) = n :: l := by simp [netifIter, h]
      split
      · rename_i h1; rw [e] at h1; cases h1
      · rename_i h1; rw [e] at h1
        simp only [List.cons.injEq] at h1
        obtain ⟨rfl, rfl⟩ := h1; rfl

end Ladvd
