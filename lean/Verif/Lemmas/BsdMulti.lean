import Verif.Model.BsdMulti
import Verif.Spec.BsdMulti
/-!
# Lemmas about the multicast groups on FreeBSD
-/

namespace Ladvd

open Spec

theorem joined_map (on : Proto → Bool) (auto : Bool) : joined on auto = (protoTable.filter (fun p => on p || auto)).map Proto.dst := by
  have key : ∀ l : List Proto, (l.map (fun p => (p, p.dst))).filterMap (fun x => if on x.1 || auto then some x.2 else none) =
      (l.filter (fun p => on p || auto)).map Proto.dst := by
    intro l
    induction l with
    | nil => rfl
    | cons p l ih =>
      rw [List.map_cons, List.filterMap_cons, List.filter_cons]
      cases h : (on p || auto)
      · simp only [ih]; rfl
      · simp only [ih]; rfl
  exact key protoTable

theorem bsdMultiLoop_filter (c : Conf) (op : Nat) (ps : List Proto) :
    bsdMultiLoop c op ps = (((ps.filter (fun p => c.enabled p || c.opts.has OPT_AUTO)).map Proto.dst).filter etherMulticast).map
      (fun g => (decide (op ≠ 0), g)) := by
  induction ps with
  | nil => rfl
  | cons p ps ih =>
    unfold bsdMultiLoop
    rw [List.filter_cons]
    cases h1 : c.enabled p <;> cases h2 : c.opts.has OPT_AUTO <;> cases h3 : etherMulticast p.dst <;> simp [h2, h3, ih]

theorem bsdMultiLoop_eq (c : Conf) (op : Nat) :
    bsdMultiLoop c op protoTable = (bsdGroups c.enabled (c.opts.has OPT_AUTO)).map (fun g => (decide (op ≠ 0), g)) := by
  rw [bsdMultiLoop_filter, bsdGroups, joined_map, List.filter_map, List.filter_map]
  congr 2
  apply List.filter_congr
  intro p _
  cases p <;> decide

theorem bsdMember_add (gs : List Bytes) : ∀ l x, x ∈ (gs.map (fun g => (true, g))).foldl bsdMember l ↔ x ∈ l ∨ x ∈ gs := by
  induction gs with
  | nil => simp
  | cons g gs ih =>
    intro l x
    rw [List.map_cons, List.foldl_cons, ih]
    unfold bsdMember
    rw [if_pos rfl]
    dsimp only
    split
    · rename_i h
      constructor
      · rintro (h' | h')
        · exact .inl h'
        · exact .inr (List.mem_cons_of_mem _ h')
      · rintro (h' | h')
        · exact .inl h'
        · rcases List.mem_cons.mp h' with rfl | h'
          · exact .inl h
          · exact .inr h'
    · simp only [List.mem_append, List.mem_cons, List.not_mem_nil, or_false]
      exact or_assoc

theorem bsdMember_nodup (a : Bool) (gs : List Bytes) : ∀ l : List Bytes, l.Nodup → ((gs.map (fun g => (a, g))).foldl bsdMember l).Nodup := by
  induction gs with
  | nil => exact fun l h => h
  | cons g gs ih =>
    intro l h
    rw [List.map_cons, List.foldl_cons]
    apply ih
    unfold bsdMember
    split
    · split
      · exact h
      · rename_i hg
        rw [List.nodup_append]
        refine ⟨h, by simp, ?_⟩
        intro x hx y hy
        simp only [List.mem_cons, List.not_mem_nil, or_false] at hy
        subst hy
        exact fun e => hg (e ▸ hx)
    · exact h.erase _

theorem bsdMember_del (gs : List Bytes) : ∀ l : List Bytes, l.Nodup → ∀ x, x ∈ (gs.map (fun g => (false, g))).foldl bsdMember l ↔ x ∈ l ∧ x ∉ gs := by
  induction gs with
  | nil => simp
  | cons g gs ih =>
    intro l h x
    rw [List.map_cons, List.foldl_cons, ih _ (by unfold bsdMember; rw [if_neg (by simp)]; exact h.erase _)]
    unfold bsdMember
    rw [if_neg (by simp)]
    dsimp only
    rw [h.mem_erase_iff]
    simp only [List.mem_cons, not_or]
    constructor
    · rintro ⟨⟨a, b⟩, c⟩; exact ⟨b, a, c⟩
    · rintro ⟨b, a, c⟩; exact ⟨⟨a, b⟩, c⟩

end Ladvd
