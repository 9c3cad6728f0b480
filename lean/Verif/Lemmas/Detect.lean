import Verif.Lemmas.Chain
import Verif.Spec.Ifs
/-!
# Interface detection: the settings loop
-/

namespace Ladvd

open Spec

theorem withName_eq (l : List Netif) (s : Bytes) : withName l s = netifByName l s := by
  unfold withName netifByName
  rw [List.head?_filter]
  apply congrArg (fun p => List.find? p l)
  funext n
  by_cases h : n.name = s <;> simp [h]

theorem withIndex_eq (l : List Netif) (i : Nat) : withIndex l i = netifByIndex l i := by
  unfold withIndex netifByIndex
  rw [List.head?_filter]
  apply congrArg (fun p => List.find? p l)
  funext n
  by_cases h : n.index = i <;> simp [h]

theorem filterMap_congr' {α β : Type} {f g : α → Option β} {l : List α} (h : ∀ a ∈ l, f a = g a) :
    l.filterMap f = l.filterMap g := by
  induction l with
  | nil => rfl
  | cons a l ih =>
    rw [List.filterMap_cons, List.filterMap_cons, h a List.mem_cons_self,
      ih (fun b hb => h b (List.mem_cons_of_mem _ hb))]

/-! ## Ports of the three kinds of aggregates -/

/-- The ports of a bond as linked by the model. -/
def bondSpecs (slaves : List (Option (Bytes × Bool))) : List PortSpec :=
  slaves.zipIdx.filterMap (fun (s, i) => s.map (fun (name, backup) =>
      ((fun (l : List Netif) => netifByName l name),
       fun (n : Netif) => { n with child := if backup then 2 else 1, lacpIndex := i % 256 })))

/-- The ports of a bridge as linked by the model. -/
def bridgeSpecs (is : List Nat) : List PortSpec :=
  (is.take 1024).map (fun i =>
      ((fun (l : List Netif) => netifByIndex l i), fun (n : Netif) => { n with child := 1 }))

/-- The ports of a team as linked by the model. -/
def teamSpecs (mode : Nat) (is : List Nat) : List PortSpec :=
  is.map (fun i =>
      ((fun (l : List Netif) => netifByIndex l i),
       fun (n : Netif) => { n with child := if mode % 256 = 2 then 2 else 1 }))

/-- What `linkPorts` needs to know. -/
def GoodSpecs (ps : List PortSpec) : Prop :=
  (∀ p ∈ ps, Looks p.1 ∧ Tame p.2) ∧ (∀ p ∈ ps, ∀ l s, p.1 l = some s → s ∈ l)

theorem bondSpecs_good (slaves : List (Option (Bytes × Bool))) : GoodSpecs (bondSpecs slaves) := by
  constructor
  · intro p hp
    obtain ⟨⟨s, i⟩, _, he⟩ := List.mem_filterMap.mp hp
    cases s with
    | none => simp at he
    | some s =>
      simp only [Option.map_some, Option.some.injEq] at he
      subst he
      refine ⟨fun l l' h => byName_core h _, fun n => ⟨rfl, rfl, ?_⟩⟩
      dsimp only
      split <;> decide
  · intro p hp l s h
    obtain ⟨⟨s', i⟩, _, he⟩ := List.mem_filterMap.mp hp
    cases s' with
    | none => simp at he
    | some s' =>
      simp only [Option.map_some, Option.some.injEq] at he
      subst he
      exact byName_mem h

theorem bridgeSpecs_good (is : List Nat) : GoodSpecs (bridgeSpecs is) := by
  constructor
  · intro p hp
    obtain ⟨i, _, rfl⟩ := List.mem_map.mp hp
    exact ⟨fun l l' h => byIndex_core h _, fun n => ⟨rfl, rfl, Nat.one_ne_zero⟩⟩
  · intro p hp l s h
    obtain ⟨i, _, rfl⟩ := List.mem_map.mp hp
    exact byIndex_mem h

theorem teamSpecs_good (mode : Nat) (is : List Nat) : GoodSpecs (teamSpecs mode is) := by
  constructor
  · intro p hp
    obtain ⟨i, _, rfl⟩ := List.mem_map.mp hp
    refine ⟨fun l l' h => byIndex_core h _, fun n => ⟨rfl, rfl, ?_⟩⟩
    dsimp only
    split <;> decide
  · intro p hp l s h
    obtain ⟨i, _, rfl⟩ := List.mem_map.mp hp
    exact byIndex_mem h

theorem filter_ports (found : List (Option Netif)) :
    ((found.filterMap id).filter (fun s => decide (canBePort s))).map (·.index) = found.filterMap portIndex := by
  induction found with
  | nil => rfl
  | cons a found ih =>
    cases a with
    | none => rw [List.filterMap_cons_none rfl, List.filterMap_cons_none rfl]; exact ih
    | some s =>
      rw [List.filterMap_cons_some (f := id) (b := s) rfl]
      by_cases h : s.type < NETIF_PARENT
      · rw [List.filter_cons_of_pos (by rw [decide_eq_true_eq]; exact h), List.map_cons, ih,
          List.filterMap_cons_some (b := s.index) (by simp only [portIndex, Option.bind_some]; rw [if_pos h])]
      · rw [List.filter_cons_of_neg (by rw [decide_eq_true_eq]; exact h), ih,
          List.filterMap_cons_none (by simp only [portIndex, Option.bind_some]; rw [if_neg h])]

theorem bondSpecs_members (l : List Netif) (slaves : List (Option (Bytes × Bool))) :
    members l (bondSpecs slaves) =
      ((slaves.filterMap id).map (fun s => withName l s.1)).filterMap portIndex := by
  unfold members bondSpecs
  rw [List.filterMap_filterMap, List.filterMap_map, List.filterMap_filterMap]
  have : ∀ n, (slaves.zipIdx n).filterMap (fun x : Option (Bytes × Bool) × Nat =>
      (x.1.map (fun s => (((fun (l : List Netif) => netifByName l s.1),
       fun (n : Netif) => { n with child := if s.2 then 2 else 1, lacpIndex := x.2 % 256 }) : PortSpec))).bind
         (fun p => portIndex (p.1 l))) =
      slaves.filterMap (fun s => (id s).bind (portIndex ∘ fun s => withName l s.1)) := by
    induction slaves with
    | nil => intro n; rfl
    | cons s slaves ih =>
      intro n
      rw [List.zipIdx_cons]
      cases s with
      | none =>
        rw [List.filterMap_cons_none rfl, List.filterMap_cons_none rfl]
        exact ih (n + 1)
      | some s =>
        rw [List.filterMap_cons, List.filterMap_cons]
        dsimp only [Option.map_some, Option.bind_some, id_eq, Function.comp_apply]
        rw [withName_eq, ih (n + 1)]
        rfl
  exact this 0

theorem bridgeSpecs_members (l : List Netif) (is : List Nat) :
    members l (bridgeSpecs is) = ((is.take 1024).map (withIndex l)).filterMap portIndex := by
  unfold members bridgeSpecs
  rw [List.filterMap_map, List.filterMap_map]
  apply filterMap_congr'
  intro i _
  simp only [Function.comp_apply, withIndex_eq]

theorem teamSpecs_members (l : List Netif) (mode : Nat) (is : List Nat) :
    members l (teamSpecs mode is) = (is.map (withIndex l)).filterMap portIndex := by
  unfold members teamSpecs
  rw [List.filterMap_map, List.filterMap_map]
  apply filterMap_congr'
  intro i _
  simp only [Function.comp_apply, withIndex_eq]

theorem withIndex_core {l l' : List Netif} (h : l'.map core = l.map core) (i : Nat) :
    (withIndex l' i).map core = (withIndex l i).map core := by
  rw [withIndex_eq, withIndex_eq]; exact byIndex_core h i

theorem withName_core {l l' : List Netif} (h : l'.map core = l.map core) (s : Bytes) :
    (withName l' s).map core = (withName l s).map core := by
  rw [withName_eq, withName_eq]; exact byName_core h s

theorem portsOf_core (k : Kernel) {l l' : List Netif} (h : l'.map core = l.map core) {n n' : Netif}
    (hn : core n' = core n) : portsOf k l' n' = portsOf k l n := by
  unfold portsOf
  dsimp only
  rw [filter_ports, filter_ports, core_type hn, core_index hn, core_name hn]
  have hi : ∀ is : List Nat, (is.map (withIndex l')).filterMap portIndex = (is.map (withIndex l)).filterMap portIndex := by
    intro is
    rw [List.filterMap_map, List.filterMap_map]
    apply filterMap_congr'
    intro i _
    exact portIndex_core (withIndex_core h i)
  have hs : ∀ ss : List (Bytes × Bool), (ss.map (fun s => withName l' s.1)).filterMap portIndex =
      (ss.map (fun s => withName l s.1)).filterMap portIndex := by
    intro is
    rw [List.filterMap_map, List.filterMap_map]
    apply filterMap_congr'
    intro i _
    exact portIndex_core (withName_core h i.1)
  split
  · split
    · exact hi _
    · rfl
  · split
    · split
      · exact hs _
      · rfl
    · split
      · split
        · exact hi _
        · rfl
      · rfl

/-! ## One iteration -/

/-- The fields that describe the aggregation of an interface. -/
def links (n : Netif) : Option Nat × Option Nat × Nat := (n.subif, n.parent, n.child)

/-- Those of the interface with an index. -/
def linksOf (l : List Netif) (j : Nat) : Option (Option Nat × Option Nat × Nat) := (netifByIndex l j).map links

theorem linksOf_set {l : List Netif} {i : Nat} {f : Netif → Netif} (hf : ∀ n, core (f n) = core n ∧ links (f n) = links n)
    (j : Nat) : linksOf (setNetif l i f) j = linksOf l j := by
  unfold linksOf
  rw [byIndex_set l i f (fun n => core_index (hf n).1)]
  cases netifByIndex l j with
  | none => rfl
  | some n =>
    simp only [Option.map_some]
    split
    · rw [(hf n).2]
    · rfl

theorem subOf_links (l : List Netif) (j : Nat) : subOf l j = (linksOf l j).bind (·.1) := by
  unfold subOf linksOf
  cases netifByIndex l j <;> rfl

theorem links_subOf {l l' : List Netif} {j : Nat} (h : linksOf l' j = linksOf l j) : subOf l' j = subOf l j := by
  rw [subOf_links, subOf_links, h]

/-- Linking, in terms of `links`. -/
theorem linkPorts_links {parent : Nat} {ps : List PortSpec} (hg : GoodSpecs ps) (l : List Netif) (M : List Nat)
    (hM : members l ps = M) (hnd : M.Nodup) (hcur : parent ∉ M) (hin : parent ∈ l.map (·.index))
    (hsub : ∀ j, j = parent ∨ j ∈ M → subOf l j = none) :
    Chain (subOf (linkPorts parent ps l parent)) parent M ∧
    (∀ j, j ≠ parent → j ∉ M → linksOf (linkPorts parent ps l parent) j = linksOf l j) ∧
    (∃ o, linksOf (linkPorts parent ps l parent) parent = (linksOf l parent).map (fun x => (o, x.2))) ∧
    (∀ m ∈ M, ∃ o c, linksOf (linkPorts parent ps l parent) m = some (o, some parent, c) ∧ c ≠ 0) := by
  subst hM
  obtain ⟨h1, h2, ⟨o, h3⟩, h4⟩ := linkPorts_chain hg.1 hg.2 l parent hnd hcur hin hsub
  refine ⟨h1, ?_, ⟨o, ?_⟩, ?_⟩
  · intro j hj hm
    unfold linksOf
    rw [h2 j hj hm]
  · unfold linksOf
    rw [h3]
    cases netifByIndex l parent <;> rfl
  · intro m hm
    obtain ⟨n, hn, hp, hc⟩ := h4 m hm
    refine ⟨n.subif, n.child, ?_, hc⟩
    unfold linksOf
    rw [hn, ← hp]
    rfl

theorem teamActive_core (t : TeamInfo) (l : List Netif) : (teamActive t l).map core = l.map core := by
  unfold teamActive
  split
  · split
    · exact setNetif_map core _ _ _ (by intro n; rfl)
    · rfl
  · rfl

theorem teamActive_links {t : TeamInfo} {l l2 : List Netif} {i : Nat} {M : List Nat} (hc : l2.map core = l.map core)
    (hm : t.mode % 256 = 2 → (netifByIndex l t.active).isSome → t.active ∈ M)
    (h : Chain (subOf l2) i M ∧ (∀ j, j ≠ i → j ∉ M → linksOf l2 j = linksOf l j) ∧
      (∃ o, linksOf l2 i = (linksOf l i).map (fun x => (o, x.2))) ∧
      (∀ m ∈ M, ∃ o c, linksOf l2 m = some (o, some i, c) ∧ c ≠ 0)) (hi : i ∉ M) :
    Chain (subOf (teamActive t l2)) i M ∧ (∀ j, j ≠ i → j ∉ M → linksOf (teamActive t l2) j = linksOf l j) ∧
      (∃ o, linksOf (teamActive t l2) i = (linksOf l i).map (fun x => (o, x.2))) ∧
      (∀ m ∈ M, ∃ o c, linksOf (teamActive t l2) m = some (o, some i, c) ∧ c ≠ 0) := by
  unfold teamActive
  by_cases hmode : t.mode % 256 = 2
  · rw [if_pos hmode]
    cases e : netifByIndex l2 t.active with
    | none => exact h
    | some s =>
      dsimp only
      have hsi := byIndex_index e
      have hact : t.active ∈ M := by
        refine hm hmode ?_
        have := byIndex_core hc t.active
        rw [e] at this
        cases e' : netifByIndex l t.active with
        | none => rw [e'] at this; cases this
        | some _ => rfl
      rw [hsi]
      have hne : ∀ j, j ≠ t.active →
          linksOf (setNetif l2 t.active (fun n => { n with child := 1 })) j = linksOf l2 j := by
        intro j hj
        unfold linksOf
        rw [byIndex_set_ne _ _ _ (by intro _; rfl) hj]
      have heq : linksOf (setNetif l2 t.active (fun n => { n with child := 1 })) t.active =
          (linksOf l2 t.active).map (fun x => (x.1, x.2.1, 1)) := by
        unfold linksOf
        rw [byIndex_set_eq _ _ _ (by intro _; rfl)]
        cases netifByIndex l2 t.active <;> rfl
      have hsub : ∀ j, subOf (setNetif l2 t.active (fun n => { n with child := 1 })) j = subOf l2 j := by
        intro j
        rw [subOf_links, subOf_links]
        by_cases hj : j = t.active
        · rw [hj, heq]
          cases linksOf l2 t.active <;> rfl
        · rw [hne j hj]
      refine ⟨h.1.congr (fun j _ => hsub j), ?_, ?_, ?_⟩
      · intro j h1 h2
        rw [hne j (fun e => h2 (e ▸ hact))]
        exact h.2.1 j h1 h2
      · rw [hne i (fun e => hi (e ▸ hact))]
        exact h.2.2.1
      · intro m hmM
        obtain ⟨o, c, hl, hcne⟩ := h.2.2.2 m hmM
        by_cases hj : m = t.active
        · rw [hj, heq, ← hj, hl]
          exact ⟨o, 1, rfl, by decide⟩
        · rw [hne m hj]
          exact ⟨o, c, hl, hcne⟩
  · rw [if_neg hmode]; exact h

theorem detectOne_core (k : Kernel) (l : List Netif) (i : Nat) : (detectOne k l i).map core = l.map core := by
  unfold detectOne
  split
  · rfl
  · rename_i n hn
    split
    · unfold netifTeam
      split
      · rfl
      · dsimp only
        rename_i t _
        refine (teamActive_core t _).trans ?_
        exact (linkPorts_core (teamSpecs_good t.mode t.ports).1 _ _).trans (setNetif_map core _ _ _ (by intro n; rfl))
    · split
      · unfold netifBond
        split
        · rfl
        · dsimp only
          rename_i b _
          exact (linkPorts_core (bondSpecs_good b.slaves).1 _ _).trans (setNetif_map core _ _ _ (by intro n; rfl))
      · split
        · unfold netifBridge
          split
          · rfl
          · rename_i is _
            exact linkPorts_core (bridgeSpecs_good is).1 _ _
        · split
          · unfold netifVlan
            split
            · rfl
            · split
              · rfl
              · exact setNetif_map core _ _ _ (by intro n; rfl)
          · split
            · unfold netifDeviceId
              split
              · rfl
              · exact setNetif_map core _ _ _ (by intro n; rfl)
            · rfl

/-- The settings of an aggregate: its ports form a chain, other interfaces keep their place. -/
theorem detectOne_links (k : Kernel) (l : List Netif) (i : Nat) (n : Netif) (hn : netifByIndex l i = some n)
    (hnd : (portsOf k l n).Nodup) (hi : i ∉ portsOf k l n) (ht : TeamOk k l n)
    (hsub : ∀ j, j = i ∨ j ∈ portsOf k l n → subOf l j = none) :
    Chain (subOf (detectOne k l i)) i (portsOf k l n) ∧
    (∀ j, j ≠ i → j ∉ portsOf k l n → linksOf (detectOne k l i) j = linksOf l j) ∧
    (∃ o, linksOf (detectOne k l i) i = (linksOf l i).map (fun x => (o, x.2))) ∧
    (∀ m ∈ portsOf k l n, ∃ o c, linksOf (detectOne k l i) m = some (o, some i, c) ∧ c ≠ 0) := by
  have hni : n.index = i := byIndex_index hn
  have hin : i ∈ l.map (·.index) := List.mem_map.mpr ⟨n, byIndex_mem hn, hni⟩
  -- nothing linked
  have nothing : ∀ l', (∀ j, linksOf l' j = linksOf l j) → portsOf k l n = [] →
      Chain (subOf l') i (portsOf k l n) ∧
      (∀ j, j ≠ i → j ∉ portsOf k l n → linksOf l' j = linksOf l j) ∧
      (∃ o, linksOf l' i = (linksOf l i).map (fun x => (o, x.2))) ∧
      (∀ m ∈ portsOf k l n, ∃ o c, linksOf l' m = some (o, some i, c) ∧ c ≠ 0) := by
    intro l' h hp
    rw [hp]
    refine ⟨?_, fun j _ _ => h j, ⟨(subOf l i), ?_⟩, fun m hm => by cases hm⟩
    · show subOf l' i = none
      rw [links_subOf (h i)]
      exact hsub i (.inl rfl)
    · rw [h i, subOf_links]
      cases linksOf l i <;> rfl
  -- ports linked after a change of the mode
  have linked : ∀ (ps : List PortSpec) (l1 : List Netif), GoodSpecs ps → l1.map core = l.map core →
      (∀ j, linksOf l1 j = linksOf l j) → members l ps = portsOf k l n →
      Chain (subOf (linkPorts i ps l1 i)) i (portsOf k l n) ∧
      (∀ j, j ≠ i → j ∉ portsOf k l n → linksOf (linkPorts i ps l1 i) j = linksOf l j) ∧
      (∃ o, linksOf (linkPorts i ps l1 i) i = (linksOf l i).map (fun x => (o, x.2))) ∧
      (∀ m ∈ portsOf k l n, ∃ o c, linksOf (linkPorts i ps l1 i) m = some (o, some i, c) ∧ c ≠ 0) := by
    intro ps l1 hg hc hl hm
    have := linkPorts_links hg l1 (portsOf k l n) ((members_core hc (fun p hp => (hg.1 p hp).1)).trans hm) hnd hi
      (by rw [map_index_of_core hc]; exact hin) (fun j hj => by rw [links_subOf (hl j)]; exact hsub j hj)
    rw [hl i] at this
    refine ⟨this.1, ?_, this.2.2.1, this.2.2.2⟩
    intro j h1 h2
    rw [this.2.1 j h1 h2, hl j]
  unfold detectOne
  rw [hn]
  dsimp only
  by_cases h11 : n.type = NETIF_TEAMING
  · rw [if_pos h11]
    unfold netifTeam
    have h11' : n.type = 11 := h11
    cases e : k.team n.index with
    | none =>
      refine nothing _ (fun _ => rfl) ?_
      unfold portsOf
      dsimp only
      rw [if_pos h11', e]; rfl
    | some t =>
      dsimp only
      have hp : portsOf k l n = members l (teamSpecs t.mode t.ports) := by
        rw [teamSpecs_members]
        unfold portsOf
        dsimp only
        rw [if_pos h11', e, filter_ports]
      obtain ⟨a1, a2, a3, a4⟩ := linked (teamSpecs t.mode t.ports)
        (setNetif l n.index (fun n => { n with bondingMode := t.mode % 256 })) (teamSpecs_good _ _)
        (setNetif_map core _ _ _ (by intro n; rfl)) (linksOf_set (by intro n; exact ⟨rfl, rfl⟩)) hp.symm
      have hl2 : (linkPorts i (teamSpecs t.mode t.ports)
          (setNetif l n.index (fun n => { n with bondingMode := t.mode % 256 })) i).map core = l.map core :=
        (linkPorts_core (teamSpecs_good t.mode t.ports).1 _ i).trans (setNetif_map core _ _ _ (by intro n; rfl))
      have hgoal := teamActive_links (t := t) hl2 (fun hm hs => ht t h11' e hm (by rw [withIndex_eq]; exact hs))
        ⟨a1, a2, a3, a4⟩ hi
      rw [hni] at hgoal ⊢
      exact hgoal
  · rw [if_neg h11]
    have n11 : ¬ n.type = 11 := h11
    by_cases h12 : n.type = NETIF_BONDING
    · rw [if_pos h12]
      have h12' : n.type = 12 := h12
      unfold netifBond
      cases e : k.bond n.name with
      | none =>
        refine nothing _ (fun _ => rfl) ?_
        unfold portsOf
        dsimp only
        rw [if_neg n11, if_pos h12', e]; rfl
      | some b =>
        dsimp only
        have hp : portsOf k l n = members l (bondSpecs b.slaves) := by
          rw [bondSpecs_members]
          unfold portsOf
          dsimp only
          rw [if_neg n11, if_pos h12', e, filter_ports]
        have hgoal := linked (bondSpecs b.slaves)
          (setNetif l n.index (fun n =>
            { n with bondingMode := if b.mode = 4 then 1 else if b.mode = 1 then 2 else n.bondingMode }))
          (bondSpecs_good _) (setNetif_map core _ _ _ (by intro n; rfl)) (linksOf_set (by intro n; exact ⟨rfl, rfl⟩))
          hp.symm
        rw [hni] at hgoal ⊢
        exact hgoal
    · rw [if_neg h12]
      have n12 : ¬ n.type = 12 := h12
      by_cases h13 : n.type = NETIF_BRIDGE
      · rw [if_pos h13]
        have h13' : n.type = 13 := h13
        unfold netifBridge
        cases e : k.bridge n.name with
        | none =>
          refine nothing _ (fun _ => rfl) ?_
          unfold portsOf
          dsimp only
          rw [if_neg n11, if_neg n12, if_pos h13', e]; rfl
        | some is =>
          dsimp only
          have hp : portsOf k l n = members l (bridgeSpecs is) := by
            rw [bridgeSpecs_members]
            unfold portsOf
            dsimp only
            rw [if_neg n11, if_neg n12, if_pos h13', e, filter_ports]
          have hgoal := linked (bridgeSpecs is) l (bridgeSpecs_good _) rfl (fun _ => rfl) hp.symm
          rw [hni]
          exact hgoal
      · rw [if_neg h13]
        have n13 : ¬ n.type = 13 := h13
        have hp : portsOf k l n = [] := by
          unfold portsOf
          dsimp only
          rw [if_neg n11, if_neg n12, if_neg n13]; rfl
        refine nothing _ ?_ hp
        intro j
        split
        · unfold netifVlan
          split
          · rfl
          · split
            · rfl
            · exact linksOf_set (by intro n; exact ⟨rfl, rfl⟩) j
        · split
          · unfold netifDeviceId
            split
            · rfl
            · exact linksOf_set (by intro n; exact ⟨rfl, rfl⟩) j
          · rfl

/-- The settings of an interface that is not an aggregate do not concern the chains. -/
theorem detectOne_plain (k : Kernel) (l : List Netif) (i : Nat) (n : Netif) (hn : netifByIndex l i = some n)
    (ht : n.type < 10) (j : Nat) : linksOf (detectOne k l i) j = linksOf l j := by
  unfold detectOne
  rw [hn]
  dsimp only
  rw [if_neg (by unfold NETIF_TEAMING; omega), if_neg (by unfold NETIF_BONDING; omega),
    if_neg (by unfold NETIF_BRIDGE; omega)]
  split
  · unfold netifVlan
    split
    · rfl
    · split
      · rfl
      · exact linksOf_set (by intro n; exact ⟨rfl, rfl⟩) j
  · split
    · unfold netifDeviceId
      split
      · rfl
      · exact linksOf_set (by intro n; exact ⟨rfl, rfl⟩) j
    · rfl

/-! ## The loop -/

/-- Types are those of `netifType`. -/
def TypeOk (n : Netif) : Prop := n.type < 10 ∨ n.type = 11 ∨ n.type = 12 ∨ n.type = 13

theorem portsOf_mem {k : Kernel} {l : List Netif} {n : Netif} {m : Nat} (h : m ∈ portsOf k l n) :
    (∃ s ∈ l, s.index = m ∧ s.type < 10) ∧ (n.type = 11 ∨ n.type = 12 ∨ n.type = 13) := by
  unfold portsOf at h
  dsimp only at h
  obtain ⟨s, hs, rfl⟩ := List.mem_map.mp h
  obtain ⟨hs, hp⟩ := List.mem_filter.mp hs
  have hp' : s.type < 10 := of_decide_eq_true hp
  obtain ⟨a, ha, hae⟩ := List.mem_filterMap.mp hs
  simp only [id_eq] at hae
  subst hae
  have key : ∀ i, withIndex l i = some s → s ∈ l := fun i h => byIndex_mem (by rw [← withIndex_eq]; exact h)
  have key' : ∀ i, withName l i = some s → s ∈ l := fun i h => byName_mem (by rw [← withName_eq]; exact h)
  by_cases h11 : n.type = 11
  · rw [if_pos h11] at ha
    refine ⟨⟨s, ?_, rfl, hp'⟩, .inl h11⟩
    split at ha
    · obtain ⟨i, _, hi⟩ := List.mem_map.mp ha; exact key i hi
    · cases ha
  · rw [if_neg h11] at ha
    by_cases h12 : n.type = 12
    · rw [if_pos h12] at ha
      refine ⟨⟨s, ?_, rfl, hp'⟩, .inr (.inl h12)⟩
      split at ha
      · obtain ⟨i, _, hi⟩ := List.mem_map.mp ha; exact key' i.1 hi
      · cases ha
    · rw [if_neg h12] at ha
      by_cases h13 : n.type = 13
      · rw [if_pos h13] at ha
        refine ⟨⟨s, ?_, rfl, hp'⟩, .inr (.inr h13)⟩
        split at ha
        · obtain ⟨i, _, hi⟩ := List.mem_map.mp ha; exact key i hi
        · cases ha
      · rw [if_neg h13] at ha; cases ha

/-- State of the settings loop after the interfaces `ds`. -/
structure DetectInv (k : Kernel) (l0 : List Netif) (ds : List Nat) (l : List Netif) : Prop where
  core : l.map core = l0.map core
  chain : ∀ n ∈ l0, n.index ∈ ds → n.type > 10 → Chain (subOf l) n.index (portsOf k l0 n)
  rest : ∀ j, (∀ n ∈ l0, n.index ∈ ds → n.type > 10 → j ≠ n.index ∧ j ∉ portsOf k l0 n) → linksOf l j = linksOf l0 j
  port : ∀ n ∈ l0, n.index ∈ ds → ∀ m ∈ portsOf k l0 n, ∃ o c, linksOf l m = some (o, some n.index, c) ∧ c ≠ 0
  own : ∀ j, (∀ n ∈ l0, n.index ∈ ds → j ∉ portsOf k l0 n) → (linksOf l j).map (·.2) = (linksOf l0 j).map (·.2)

theorem TypeOk.agg {n : Netif} (h : TypeOk n) (hn : ¬ n.type < 10) : n.type > 10 := by
  unfold TypeOk at h; omega

theorem teamOk_core {k : Kernel} {l l' : List Netif} (h : l'.map Ladvd.core = l.map Ladvd.core) {n n' : Netif}
    (hn : Ladvd.core n' = Ladvd.core n) (ht : TeamOk k l n) : TeamOk k l' n' := by
  intro t h11 hk hm hs
  rw [portsOf_core k h hn]
  refine ht t ((core_type hn) ▸ h11) ((core_index hn) ▸ hk) hm ?_
  have := withIndex_core h t.active
  cases e : withIndex l t.active with
  | some _ => rfl
  | none =>
    rw [e] at this
    cases e' : withIndex l' t.active with
    | none => rw [e'] at hs; cases hs
    | some _ => rw [e'] at this; cases this

theorem detect_step {k : Kernel} {l0 : List Netif} (hnd : (l0.map (·.index)).Nodup) (hty : ∀ n ∈ l0, TypeOk n)
    (hk : KernelOk k l0) (hfresh : ∀ n ∈ l0, n.subif = none) {ds : List Nat} {l : List Netif}
    (h : DetectInv k l0 ds l) {n : Netif} (hn : n ∈ l0) (hnew : n.index ∉ ds) :
    DetectInv k l0 (ds ++ [n.index]) (detectOne k l n.index) := by
  have hl0 := byIndex_of_mem hnd hn
  have hcn := byIndex_core h.core n.index
  rw [hl0] at hcn
  obtain ⟨n', hn'⟩ : ∃ n', netifByIndex l n.index = some n' := by
    cases e : netifByIndex l n.index with
    | none => rw [e] at hcn; cases hcn
    | some n' => exact ⟨n', rfl⟩
  rw [hn'] at hcn
  have hcn' : Ladvd.core n' = Ladvd.core n := by simpa using hcn
  have hP : portsOf k l n' = portsOf k l0 n := portsOf_core k h.core hcn'
  have huniq : ∀ a ∈ l0, a.index = n.index → a = n := by
    intro a ha e
    have := byIndex_of_mem hnd ha
    rw [e, hl0] at this
    exact (Option.some.inj this).symm
  have hmems : ∀ a, a ∈ l0 → a.index ∈ ds ++ [n.index] → a.index ∈ ds ∨ a = n := by
    intro a ha hm
    rcases List.mem_append.mp hm with h | h
    · exact .inl h
    · exact .inr (huniq a ha (by simpa using h))
  have hcore : (detectOne k l n.index).map Ladvd.core = l0.map Ladvd.core := (detectOne_core k l n.index).trans h.core
  have hP0 : n.type < 10 → portsOf k l0 n = [] := by
    intro hp
    cases e : portsOf k l0 n with
    | nil => rfl
    | cons m ms =>
      have := (portsOf_mem (k := k) (l := l0) (n := n) (m := m) (by rw [e]; exact List.mem_cons_self)).2
      omega
  by_cases hplain : n.type < 10
  · have hl := detectOne_plain k l n.index n' hn' (by rw [core_type hcn']; exact hplain)
    refine ⟨hcore, ?_, ?_, ?_, ?_⟩
    · intro a ha hm hgt
      rcases hmems a ha hm with hm | rfl
      · exact (h.chain a ha hm hgt).congr (fun j _ => links_subOf (hl j))
      · omega
    · intro j hj
      rw [hl j]
      exact h.rest j (fun a ha hm => hj a ha (List.mem_append_left _ hm))
    · intro a ha hm m hmp
      rw [hl m]
      rcases hmems a ha hm with hm | rfl
      · exact h.port a ha hm m hmp
      · rw [hP0 hplain] at hmp; cases hmp
    · intro j hj
      rw [hl j]
      exact h.own j (fun a ha hm => hj a ha (List.mem_append_left _ hm))
  · have hgt := (hty n hn).agg hplain
    -- an aggregate is nobody's port
    have hagg : ∀ a, n.index ∉ portsOf k l0 a := by
      intro a hm
      obtain ⟨⟨s, hs, hsi, hst⟩, _⟩ := portsOf_mem hm
      have := huniq s hs hsi
      subst this; omega
    -- the aggregate and its ports are untouched so far
    have hrestn : ∀ j, j = n.index ∨ j ∈ portsOf k l0 n → ∀ a ∈ l0, a.index ∈ ds → a.type > 10 →
        j ≠ a.index ∧ j ∉ portsOf k l0 a := by
      intro j hj a ha hm hat
      rcases hj with rfl | hj
      · exact ⟨fun e => hnew (e ▸ hm), hagg a⟩
      · constructor
        · intro e
          obtain ⟨⟨s, hs, hsi, hst⟩, _⟩ := portsOf_mem hj
          have h1 := byIndex_of_mem hnd hs
          have h2 := byIndex_of_mem hnd ha
          rw [hsi, e, h2] at h1
          have := Option.some.inj h1
          subst this; omega
        · intro hja
          have := hk.once n hn a ha j hj hja
          subst this
          exact hnew hm
    have hsub0 : ∀ j, subOf l0 j = none := by
      intro j
      unfold subOf
      cases e : netifByIndex l0 j with
      | none => rfl
      | some a => exact hfresh a (byIndex_mem e)
    have hsub : ∀ j, j = n.index ∨ j ∈ portsOf k l n' → subOf l j = none := by
      intro j hj
      rw [hP] at hj
      rw [links_subOf (h.rest j (hrestn j hj))]
      exact hsub0 j
    obtain ⟨c1, c2, ⟨o, c3⟩, c4⟩ := detectOne_links k l n.index n' hn' (by rw [hP]; exact hk.nodup n hn)
      (by rw [hP]; exact hagg n) (teamOk_core h.core hcn' (hk.team n hn)) hsub
    rw [hP] at c1 c2 c4
    refine ⟨hcore, ?_, ?_, ?_, ?_⟩
    · intro a ha hm hat
      rcases hmems a ha hm with hm | rfl
      · refine (h.chain a ha hm hat).congr ?_
        intro j hj
        have hjn : j ≠ n.index ∧ j ∉ portsOf k l0 n := by
          constructor
          · rintro rfl
            rcases hj with e | hj
            · exact hnew (e ▸ hm)
            · exact hagg a hj
          · intro hjn
            have := hrestn j (.inr hjn) a ha hm hat
            rcases hj with e | hj
            · exact this.1 e
            · exact this.2 hj
        exact links_subOf (c2 j hjn.1 hjn.2)
      · exact c1
    · intro j hj
      have hjn := hj n hn (by simp) hgt
      rw [c2 j hjn.1 hjn.2]
      exact h.rest j (fun a ha hm => hj a ha (List.mem_append_left _ hm))
    · intro a ha hm m hmp
      rcases hmems a ha hm with hm2 | rfl
      · obtain ⟨o', c, hl, hc⟩ := h.port a ha hm2 m hmp
        have hmn : m ≠ n.index := fun e => hagg a (e ▸ hmp)
        have hmP : m ∉ portsOf k l0 n := fun hm' => by
          have := hk.once a ha n hn m hmp hm'
          subst this
          exact hnew hm2
        rw [c2 m hmn hmP]
        exact ⟨o', c, hl, hc⟩
      · exact c4 m hmp
    · intro j hj
      have hjn := hj n hn (by simp)
      have hj' := h.own j (fun a ha hm => hj a ha (List.mem_append_left _ hm))
      by_cases e : j = n.index
      · subst e
        rw [c3, ← hj']
        cases linksOf l n.index <;> rfl
      · rw [c2 j e hjn]; exact hj'

theorem detect_fold {k : Kernel} {l0 : List Netif} (hnd : (l0.map (·.index)).Nodup) (hty : ∀ n ∈ l0, TypeOk n)
    (hk : KernelOk k l0) (hfresh : ∀ n ∈ l0, n.subif = none) (ns : List Netif) {ds : List Nat} {l : List Netif}
    (h : DetectInv k l0 ds l) (hns : ∀ n ∈ ns, n ∈ l0) (hds : (ds ++ ns.map (·.index)).Nodup) :
    DetectInv k l0 (ds ++ ns.map (·.index)) ((ns.map (·.index)).foldl (detectOne k) l) := by
  induction ns generalizing ds l with
  | nil => simpa using h
  | cons n ns ih =>
    have hnew : n.index ∉ ds := by
      intro hm
      rw [List.nodup_append] at hds
      exact hds.2.2 _ hm n.index (by simp) rfl
    have h1 := detect_step hnd hty hk hfresh h (hns n List.mem_cons_self) hnew
    have e : ds ++ (n :: ns).map (·.index) = (ds ++ [n.index]) ++ ns.map (·.index) := by simp
    rw [e] at hds ⊢
    rw [List.map_cons, List.foldl_cons]
    exact ih h1 (fun a ha => hns a (List.mem_cons_of_mem _ ha)) hds

/-- The settings loop makes, for every aggregate, a chain of exactly its reported ports. -/
theorem detect_all {k : Kernel} {l0 : List Netif} (hnd : (l0.map (·.index)).Nodup) (hty : ∀ n ∈ l0, TypeOk n)
    (hk : KernelOk k l0) (hfresh : ∀ n ∈ l0, n.subif = none) :
    DetectInv k l0 (l0.map (·.index)) ((l0.map (·.index)).foldl (detectOne k) l0) := by
  have h0 : DetectInv k l0 [] l0 := ⟨rfl, fun _ _ h => (nomatch h), fun _ _ => rfl, fun _ _ h => (nomatch h), fun _ _ => rfl⟩
  have := detect_fold hnd hty hk hfresh l0 h0 (fun _ h => h) (by simpa using hnd)
  simpa using this

theorem detect_fold_core (k : Kernel) (is : List Nat) (l : List Netif) :
    (is.foldl (detectOne k) l).map core = l.map core := by
  induction is generalizing l with
  | nil => rfl
  | cons i is ih => rw [List.foldl_cons, ih, detectOne_core]

end Ladvd
