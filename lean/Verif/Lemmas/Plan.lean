import Verif.Lemmas.Total
import Verif.Lemmas.Caps
import Verif.Spec.Send
/-!
# What a round sends, in terms of the kernel's answers
-/

namespace Ladvd

open Spec

/-- The ports of an interface. -/
def portsBy (k : Kernel) (l : List Netif) (n : Netif) : List Nat :=
  if n.type > 10 then portsOf k l n else if n.type < 0 then [] else [n.index]

/-- A list whose traversal agrees with the kernel. -/
structure Consistent (k : Kernel) (l : List Netif) : Prop where
  nodup : (l.map (·.index)).Nodup
  type : ∀ n ∈ l, TypeOk n
  kernel : KernelOk k l
  ports : ∀ n ∈ l, portIdx l n = .ok (portsBy k l n)

theorem portsBy_nodup {k : Kernel} {l : List Netif} (h : Consistent k l) {n : Netif} (hn : n ∈ l) : (portsBy k l n).Nodup := by
  unfold portsBy
  split
  · exact h.kernel.nodup n hn
  · split
    · exact List.nodup_nil
    · exact List.nodup_cons.mpr ⟨by simp, List.nodup_nil⟩

theorem portsBy_mem {k : Kernel} {l : List Netif} (h : Consistent k l) {n : Netif} (hn : n ∈ l) {j : Nat} (hj : j ∈ portsBy k l n) :
    ∃ s ∈ l, s.index = j ∧ s.type < 10 ∧ (n.type < 10 → s = n) := by
  unfold portsBy at hj
  split at hj
  · next ht =>
    obtain ⟨⟨s, hs, h1, h2⟩, -⟩ := portsOf_mem hj
    exact ⟨s, hs, h1, h2, fun h => by omega⟩
  · next ht =>
    split at hj
    · cases hj
    · refine ⟨n, hn, (List.mem_singleton.mp hj).symm, ?_, fun _ => rfl⟩
      have := h.type n hn
      unfold TypeOk at this
      omega

/-- The interfaces visited on behalf of a list of interfaces. -/
def visited (c : Conf) (k : Kernel) (l T : List Netif) : List Nat :=
  T.flatMap (fun n => if sendSkip c n then [] else portsBy k l n)

theorem visit_eq {c : Conf} {k : Kernel} {l : List Netif} (h : Consistent k l) {n : Netif} (hn : n ∈ l) :
    visit c l n.index = if sendSkip c n then [] else portsBy k l n := by
  unfold visit
  rw [byIndex_of_mem h.nodup hn]
  dsimp only
  rw [h.ports n hn]
  rfl

theorem visited_eq {c : Conf} {k : Kernel} {l : List Netif} (h : Consistent k l) (T : List Netif) (hT : ∀ n ∈ T, n ∈ l) :
    (T.map (·.index)).flatMap (visit c l) = visited c k l T := by
  unfold visited
  rw [List.flatMap_map]
  induction T with
  | nil => rfl
  | cons n T ih =>
    rw [List.flatMap_cons, List.flatMap_cons, ih (fun x hx => hT x (List.mem_cons_of_mem _ hx)), visit_eq h (hT n List.mem_cons_self)]

theorem nodup_flatMap' {α β : Type} {f : α → List β} {T : List α} (h1 : ∀ a ∈ T, (f a).Nodup)
    (h2 : T.Pairwise (fun a b => ∀ x ∈ f a, x ∉ f b)) : (T.flatMap f).Nodup := by
  unfold List.Nodup
  rw [List.pairwise_flatMap]
  refine ⟨h1, h2.imp ?_⟩
  intro a b h x hx y hy e
  exact h x hx (e ▸ hy)

theorem pairwise_of_nodup {l T : List Netif} (hnd : (l.map (·.index)).Nodup) (hT : T.Sublist l) :
    T.Pairwise (fun a b => a ∈ l ∧ b ∈ l ∧ a.index ≠ b.index) := by
  have h1 : (T.map (·.index)).Nodup := (hT.map _).nodup hnd
  unfold List.Nodup at h1
  rw [List.pairwise_map] at h1
  refine List.Pairwise.imp_of_mem ?_ h1
  intro a b ha hb h
  exact ⟨hT.subset ha, hT.subset hb, h⟩

/-- Two interfaces visit a common one only if one of them is a port of the other. -/
theorem disjoint_ports {k : Kernel} {l : List Netif} (h : Consistent k l) {a b : Netif} (ha : a ∈ l) (hb : b ∈ l)
    (hab : a.index ≠ b.index) {j : Nat} (hja : j ∈ portsBy k l a) (hjb : j ∈ portsBy k l b) :
    a.index ∈ portsOf k l b ∨ b.index ∈ portsOf k l a := by
  unfold portsBy at hja hjb
  split at hja
  · split at hjb
    · exact absurd (congrArg (·.index) (h.kernel.once a ha b hb j hja hjb)) hab
    · split at hjb
      · cases hjb
      · rw [List.mem_singleton.mp hjb] at hja; exact Or.inr hja
  · split at hja
    · cases hja
    · split at hjb
      · rw [List.mem_singleton.mp hja] at hjb; exact Or.inl hjb
      · split at hjb
        · cases hjb
        · exact absurd ((List.mem_singleton.mp hja).symm.trans (List.mem_singleton.mp hjb)) hab

theorem skip_mem {c : Conf} {k : Kernel} {l : List Netif} {n : Netif} {x : Nat} (h : x ∈ (if sendSkip c n then [] else portsBy k l n)) :
    sendSkip c n = false ∧ x ∈ portsBy k l n := by
  split at h
  · cases h
  · next hs => exact ⟨Bool.not_eq_true _ |>.mp hs, h⟩

/-- Without ports among the traversed interfaces nothing is visited twice. -/
theorem visited_nodup {c : Conf} {k : Kernel} {l : List Netif} (h : Consistent k l) {T : List Netif} (hT : T.Sublist l)
    (hfree : ∀ n ∈ T, ∀ a ∈ T, n.index ∉ portsOf k l a) : (visited c k l T).Nodup := by
  apply nodup_flatMap'
  · intro n hn
    split
    · exact List.nodup_nil
    · exact portsBy_nodup h (hT.subset hn)
  · refine List.Pairwise.imp_of_mem ?_ (pairwise_of_nodup h.nodup hT)
    rintro a b ha hb ⟨hal, hbl, hne⟩ x hxa hxb
    rcases disjoint_ports h hal hbl hne (skip_mem hxa).2 (skip_mem hxb).2 with hc | hc
    · exact hfree a ha b hb hc
    · exact hfree b hb a ha hc

theorem count_flatMap_split {α : Type} (f : α → List Nat) (q : α → Bool) (j : Nat) (T : List α) :
    (T.flatMap f).count j = ((T.filter q).flatMap f).count j + ((T.filter (fun a => !q a)).flatMap f).count j := by
  induction T with
  | nil => rfl
  | cons a T ih =>
    rw [List.flatMap_cons, List.count_append, ih]
    cases hq : q a with
    | true =>
      rw [List.filter_cons_of_pos hq, List.filter_cons_of_neg (by simp [hq]), List.flatMap_cons, List.count_append]
      omega
    | false =>
      rw [List.filter_cons_of_neg (by simp [hq]), List.filter_cons_of_pos (by simp [hq]), List.flatMap_cons, List.count_append]
      omega

/-- In any traversal an interface is visited at most twice: as a port and for itself. -/
theorem visited_count {c : Conf} {k : Kernel} {l : List Netif} (h : Consistent k l) {T : List Netif} (hT : T.Sublist l) (j : Nat) :
    (visited c k l T).count j ≤ 2 := by
  have part : ∀ q : Netif → Bool, (∀ a b, q a = true → q b = true → ∀ x ∈ portsBy k l a, x ∈ portsBy k l b → a ∈ l → b ∈ l → a.index = b.index) →
      (visited c k l (T.filter q)).count j ≤ 1 := by
    intro q hq
    have hsub : (T.filter q).Sublist l := List.filter_sublist.trans hT
    have : (visited c k l (T.filter q)).Nodup := by
      apply nodup_flatMap'
      · intro n hn
        split
        · exact List.nodup_nil
        · exact portsBy_nodup h (hsub.subset hn)
      · refine List.Pairwise.imp_of_mem ?_ (pairwise_of_nodup h.nodup hsub)
        rintro a b ha hb ⟨hal, hbl, hne⟩ x hxa hxb
        exact hne (hq a b (List.mem_filter.mp ha).2 (List.mem_filter.mp hb).2 x (skip_mem hxa).2 (skip_mem hxb).2 hal hbl)
    exact List.nodup_iff_count.mp this j
  unfold visited
  rw [count_flatMap_split _ (fun n => decide (n.type > 10)) j T]
  have h1 := part (fun n => decide (n.type > 10)) (by
    intro a b ha hb x hxa hxb hal hbl
    have ha := of_decide_eq_true ha
    have hb := of_decide_eq_true hb
    unfold portsBy at hxa hxb
    rw [if_pos ha] at hxa
    rw [if_pos hb] at hxb
    exact congrArg (·.index) (h.kernel.once a hal b hbl x hxa hxb))
  have h2 := part (fun n => !decide (n.type > 10)) (by
    intro a b ha hb x hxa hxb hal hbl
    have ha : ¬ a.type > 10 := by simpa using ha
    have hb : ¬ b.type > 10 := by simpa using hb
    unfold portsBy at hxa hxb
    rw [if_neg ha] at hxa
    rw [if_neg hb] at hxb
    split at hxa
    · cases hxa
    · split at hxb
      · cases hxb
      · exact (List.mem_singleton.mp hxa).symm.trans (List.mem_singleton.mp hxb))
  unfold visited at h1 h2
  omega

/-! ## The frames -/

theorem planPort_mem {c : Conf} {link : Option Nat} {l : List Netif} {n : Netif} {j : Nat} {x : Nat × Proto} :
    x ∈ planPort c link l n j ↔ x.1 = j ∧ (link = none ∨ link = some j) ∧ c.opts.has OPT_SEND = true ∧ wanted c n x.2 = true ∧
      ∃ s, netifByIndex l j = some s ∧ sendSkip c s = false := by
  obtain ⟨i, p⟩ := x
  have hall : ∀ p : Proto, p ∈ Proto.all := by intro p; cases p <;> decide
  unfold planPort
  by_cases hl : link ≠ none ∧ link ≠ some j
  · rw [if_pos hl]
    simp only [List.not_mem_nil, false_iff]
    rintro ⟨-, h | h, -⟩
    · exact hl.1 h
    · exact hl.2 h
  · rw [if_neg hl]
    have hl' : link = none ∨ link = some j := by
      by_cases h0 : link = none
      · exact Or.inl h0
      · exact Or.inr (Decidable.not_not.mp (fun h1 => hl ⟨h0, h1⟩))
    cases e : netifByIndex l j with
    | none => simp
    | some s =>
      dsimp only
      cases hs : sendSkip c s with
      | true =>
        simp only [if_true, List.not_mem_nil, false_iff]
        rintro ⟨-, -, -, -, s', h', hs'⟩
        injection h' with h'
        rw [h', hs'] at hs
        cases hs
      | false =>
        rw [if_neg Bool.false_ne_true]
        cases ho : c.opts.has OPT_SEND with
        | true =>
          rw [if_pos rfl, List.mem_map]
          constructor
          · rintro ⟨q, hq, h⟩
            cases h
            exact ⟨rfl, hl', rfl, (List.mem_filter.mp hq).2, s, rfl, hs⟩
          · rintro ⟨h, -, -, hw, -⟩
            exact ⟨p, List.mem_filter.mpr ⟨hall p, hw⟩, by rw [h]⟩
        | false => simp

theorem planPort_nodup {c : Conf} {link : Option Nat} {l : List Netif} {n : Netif} {j : Nat} : (planPort c link l n j).Nodup := by
  have h0 : Proto.all.Nodup := by decide
  unfold planPort
  split
  · exact List.nodup_nil
  · split
    · exact List.nodup_nil
    · split
      · exact List.nodup_nil
      · split
        · unfold List.Nodup
          rw [List.pairwise_map]
          exact (List.Pairwise.filter _ h0).imp (fun h e => h (Prod.mk.inj e).2)
        · exact List.nodup_nil

theorem planNetif_mem {c : Conf} {k : Kernel} {link : Option Nat} {l : List Netif} (h : Consistent k l) {n : Netif} (hn : n ∈ l)
    {x : Nat × Proto} : x ∈ planNetif c link l n.index ↔ sendSkip c n = false ∧ x.1 ∈ portsBy k l n ∧ x ∈ planPort c link l n x.1 := by
  unfold planNetif
  rw [byIndex_of_mem h.nodup hn]
  dsimp only
  cases hs : sendSkip c n with
  | true => simp
  | false =>
    rw [if_neg Bool.false_ne_true, h.ports n hn]
    show x ∈ (portsBy k l n).flatMap _ ↔ _
    rw [List.mem_flatMap]
    constructor
    · rintro ⟨j, hj, hx⟩
      have := (planPort_mem.mp hx).1
      subst this
      exact ⟨rfl, hj, hx⟩
    · rintro ⟨-, hj, hx⟩
      exact ⟨_, hj, hx⟩

theorem planNetif_nodup {c : Conf} {k : Kernel} {link : Option Nat} {l : List Netif} (h : Consistent k l) {n : Netif} (hn : n ∈ l) :
    (planNetif c link l n.index).Nodup := by
  unfold planNetif
  rw [byIndex_of_mem h.nodup hn]
  dsimp only
  split
  · exact List.nodup_nil
  · rw [h.ports n hn]
    show ((portsBy k l n).flatMap _).Nodup
    apply nodup_flatMap'
    · intro j _; exact planPort_nodup
    · refine (portsBy_nodup h hn).imp ?_
      intro a b hne x hxa hxb
      exact hne ((planPort_mem.mp hxa).1.symm.trans (planPort_mem.mp hxb).1)

theorem plan_nodup {c : Conf} {k : Kernel} {link : Option Nat} {l : List Netif} (h : Consistent k l) {T : List Netif} (hT : T.Sublist l)
    (hfree : ∀ n ∈ T, ∀ a ∈ T, n.index ∉ portsOf k l a) : ((T.map (·.index)).flatMap (planNetif c link l)).Nodup := by
  rw [List.flatMap_map]
  apply nodup_flatMap'
  · intro n hn; exact planNetif_nodup h (hT.subset hn)
  · refine List.Pairwise.imp_of_mem ?_ (pairwise_of_nodup h.nodup hT)
    rintro a b ha hb ⟨hal, hbl, hne⟩ x hxa hxb
    rcases disjoint_ports h hal hbl hne ((planNetif_mem h hal).mp hxa).2.1 ((planNetif_mem h hbl).mp hxb).2.1 with hc | hc
    · exact hfree a ha b hb hc
    · exact hfree b hb a ha hc

theorem noSub_ports (l : List Netif) {n : Netif} (ht : n.type > 10) (hn : n.subif = none) : portIdx l n = .ok [] := by
  unfold portIdx ports
  rw [show l.length + 2 = (l.length + 1) + 1 from rfl, subifLoop]
  have : subifIter l none n = none := by
    unfold subifIter
    dsimp only
    rw [if_pos (by unfold NETIF_PARENT; omega), hn]
    rfl
  rw [this]
  rfl

end Ladvd
