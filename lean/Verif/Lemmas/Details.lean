import Verif.Lemmas.Refresh
import Verif.Spec.Details
/-!
# Interface detection: what the settings loop stores besides the chains
-/

namespace Ladvd

open Spec

set_option linter.unusedSimpArgs false

/-! ## Fields an interface gets on its own account -/

/-- Mode, VLAN and device of an interface. -/
def ownAttrs (n : Netif) : Nat × Nat × Nat × Bytes × Nat :=
  (n.bondingMode, n.vlanId, n.vlanParent, n.deviceName, n.deviceIdentified)

/-- Together with its identity. -/
def known (n : Netif) : (Nat × Bytes × Int × Nat × Nat × Bytes) × (Nat × Nat × Nat × Bytes × Nat) := (core n, ownAttrs n)

theorem known_index {a b : Netif} (h : known a = known b) : a.index = b.index := core_index (congrArg Prod.fst h)

theorem byIndex_known {l l' : List Netif} (h : l'.map known = l.map known) (i : Nat) :
    (netifByIndex l' i).map known = (netifByIndex l i).map known := by
  have e : ∀ l : List Netif, (netifByIndex l i).map known = (l.map known).find? (fun c => c.1.1 == i) := by
    intro l; unfold netifByIndex; rw [List.find?_map]; rfl
  rw [e, e, h]

theorem linkPorts_map {α : Type} (g : Netif → α) (hs : ∀ n o, g { n with subif := o } = g n)
    (hpar : ∀ n o, g { n with parent := o } = g n) {parent : Nat} :
    ∀ {ps : List PortSpec}, (∀ p ∈ ps, ∀ n, g (p.2 n) = g n) → ∀ (l : List Netif) (cur : Nat),
      (linkPorts parent ps l cur).map g = l.map g := by
  intro ps
  induction ps with
  | nil => intro _ l cur; rfl
  | cons p ps ih =>
    intro hp l cur
    obtain ⟨look, f⟩ := p
    have hps : ∀ p ∈ ps, ∀ n, g (p.2 n) = g n := fun p h => hp p (List.mem_cons_of_mem _ h)
    have hf : ∀ n, g (f n) = g n := hp _ List.mem_cons_self
    unfold linkPorts
    split
    · split
      · rw [ih hps]
        unfold linkPort
        rw [setNetif_map g _ _ _ (fun n => hs n _), setNetif_map g _ _ _ (fun n => (hpar _ _).trans (hf n))]
      · exact ih hps _ _
    · exact ih hps _ _

theorem bondSpecs_keep {α : Type} (g : Netif → α) (hg : ∀ n c i, g { n with child := c, lacpIndex := i } = g n)
    (slaves : List (Option (Bytes × Bool))) : ∀ p ∈ bondSpecs slaves, ∀ n, g (p.2 n) = g n := by
  intro p hp n
  obtain ⟨⟨s, i⟩, _, he⟩ := List.mem_filterMap.mp hp
  cases s with
  | none => simp at he
  | some s =>
    simp only [Option.map_some, Option.some.injEq] at he
    subst he
    exact hg _ _ _

theorem bridgeSpecs_keep {α : Type} (g : Netif → α) (hg : ∀ n c, g { n with child := c } = g n)
    (is : List Nat) : ∀ p ∈ bridgeSpecs is, ∀ n, g (p.2 n) = g n := by
  intro p hp n
  obtain ⟨i, _, rfl⟩ := List.mem_map.mp hp
  exact hg _ _

theorem teamSpecs_keep {α : Type} (g : Netif → α) (hg : ∀ n c, g { n with child := c } = g n)
    (mode : Nat) (is : List Nat) : ∀ p ∈ teamSpecs mode is, ∀ n, g (p.2 n) = g n := by
  intro p hp n
  obtain ⟨i, _, rfl⟩ := List.mem_map.mp hp
  exact hg _ _

theorem teamActive_known (t : TeamInfo) (l : List Netif) : (teamActive t l).map known = l.map known := by
  unfold teamActive
  split
  · split
    · exact setNetif_map known _ _ _ (by intro n; rfl)
    · rfl
  · rfl

/-- What the settings loop does to the interface itself. -/
def ownStep (k : Kernel) (l : List Netif) (n : Netif) : Netif :=
  if n.type = 11 then
    match k.team n.index with
    | none => n
    | some t => { n with bondingMode := t.mode % 256 }
  else if n.type = 12 then
    match k.bond n.name with
    | none => n
    | some b => { n with bondingMode := if b.mode = 4 then 1 else if b.mode = 1 then 2 else n.bondingMode }
  else if n.type = -1 then
    match k.vlan n.name with
    | none => n
    | some r =>
      match netifByName l r.1 with
      | none => n
      | some p => { n with vlanParent := p.index, vlanId := (r.2.map (· % 65536)).getD n.vlanId }
  else if n.type = 0 then
    if n.deviceIdentified ≠ 0 then n
    else { n with deviceIdentified := 1, deviceName := ((k.deviceId n.index).map (fun d => (cstr d).take 63)).getD n.deviceName }
  else n

theorem ownStep_congr (k : Kernel) {l l' : List Netif} (h : l'.map core = l.map core) {n n' : Netif} (hn : known n' = known n) :
    known (ownStep k l' n') = known (ownStep k l n) := by
  have hc : core n' = core n := congrArg Prod.fst hn
  have ho : ownAttrs n' = ownAttrs n := congrArg Prod.snd hn
  have hc' := hc
  unfold core at hc'
  simp only [Prod.mk.injEq] at hc'
  obtain ⟨c1, c2, c3, c4, c5, c6⟩ := hc'
  unfold ownAttrs at ho
  simp only [Prod.mk.injEq] at ho
  obtain ⟨o1, o2, o3, o4, o5⟩ := ho
  unfold ownStep
  rw [core_type hc, core_index hc, core_name hc]
  split
  · split
    · exact hn
    · refine Prod.ext (by unfold known core; simp only [c1, c2, c3, c4, c5, c6]) ?_
      unfold known ownAttrs; simp only [o2, o3, o4, o5]
  · split
    · split
      · exact hn
      · refine Prod.ext (by unfold known core; simp only [c1, c2, c3, c4, c5, c6]) ?_
        unfold known ownAttrs; simp only [o1, o2, o3, o4, o5]
    · split
      · split
        · exact hn
        · rename_i r _
          have hb := byName_core h r.1
          cases e : netifByName l r.1 with
          | none =>
            rw [e] at hb
            cases e' : netifByName l' r.1 with
            | none => exact hn
            | some x => rw [e'] at hb; cases hb
          | some y =>
            rw [e] at hb
            cases e' : netifByName l' r.1 with
            | none => rw [e'] at hb; cases hb
            | some x =>
              rw [e'] at hb
              have hxy : core x = core y := by simpa using hb
              refine Prod.ext (by unfold known core; simp only [c1, c2, c3, c4, c5, c6]) ?_
              unfold known ownAttrs; simp only [o1, o2, o4, o5, core_index hxy]
      · split
        · rw [o5]
          split
          · exact hn
          · refine Prod.ext (by unfold known core; simp only [c1, c2, c3, c4, c5, c6]) ?_
            unfold known ownAttrs; simp only [o1, o2, o3, o4]
        · exact hn

theorem known_set (k : Kernel) (l : List Netif) (i : Nat) {n : Netif} (hn : netifByIndex l i = some n)
    (f : Netif → Netif) (hf : ∀ x, (f x).index = x.index) (he : f n = ownStep k l n) (j : Nat) :
    (netifByIndex (setNetif l i f) j).map known =
      (netifByIndex l j).map (fun n => if n.index = i then known (ownStep k l n) else known n) := by
  rw [byIndex_set l i f hf j, Option.map_map]
  cases e : netifByIndex l j with
  | none => rfl
  | some x =>
    simp only [Option.map_some, Function.comp_apply, Option.some.injEq]
    by_cases hx : x.index = i
    · have hxj := byIndex_index e
      rw [← hxj, hx, hn] at e
      injection e with e
      subst e
      rw [if_pos hx, if_pos hx, he]
    · rw [if_neg hx, if_neg hx]

theorem known_id (k : Kernel) (l : List Netif) (i : Nat) {n : Netif} (hn : netifByIndex l i = some n)
    (he : n = ownStep k l n) (j : Nat) :
    (netifByIndex l j).map known = (netifByIndex l j).map (fun n => if n.index = i then known (ownStep k l n) else known n) := by
  cases e : netifByIndex l j with
  | none => rfl
  | some x =>
    simp only [Option.map_some, Option.some.injEq]
    by_cases hx : x.index = i
    · have hxj := byIndex_index e
      rw [← hxj, hx, hn] at e
      injection e with e
      subst e
      rw [if_pos hx, ← he]
    · rw [if_neg hx]

theorem detectOne_known (k : Kernel) (l : List Netif) (i : Nat) (j : Nat) :
    (netifByIndex (detectOne k l i) j).map known =
      (netifByIndex l j).map (fun n => if n.index = i then known (ownStep k l n) else known n) := by
  unfold detectOne
  cases hn : netifByIndex l i with
  | none =>
    dsimp only
    cases e : netifByIndex l j with
    | none => rfl
    | some x =>
      have hx : x.index ≠ i := by
        intro hx
        rw [← byIndex_index e, hx, hn] at e
        cases e
      rw [Option.map_some, Option.map_some, if_neg hx]
  | some n =>
    have hni := byIndex_index hn
    dsimp only
    unfold NETIF_TEAMING NETIF_BONDING NETIF_BRIDGE NETIF_VLAN NETIF_REGULAR
    by_cases h11 : n.type = 11
    · rw [if_pos h11]
      unfold netifTeam
      have hst : ownStep k l n = match k.team n.index with | none => n | some t => { n with bondingMode := t.mode % 256 } := by
        unfold ownStep; rw [if_pos h11]
      cases e : k.team n.index with
      | none => rw [e] at hst; exact known_id k l i hn hst.symm j
      | some t =>
        rw [e] at hst
        dsimp only at hst ⊢
        have hm := linkPorts_map known (by intros; rfl) (by intros; rfl) (parent := n.index)
          (teamSpecs_keep known (by intros; rfl) t.mode t.ports)
          (setNetif l n.index (fun n => { n with bondingMode := t.mode % 256 })) n.index
        refine (byIndex_known ((teamActive_known t _).trans hm) j).trans ?_
        rw [hni]
        exact known_set k l i hn _ (by intro x; rfl) hst.symm j
    · rw [if_neg h11]
      by_cases h12 : n.type = 12
      · rw [if_pos h12]
        unfold netifBond
        have hst : ownStep k l n = match k.bond n.name with
            | none => n
            | some b => { n with bondingMode := if b.mode = 4 then 1 else if b.mode = 1 then 2 else n.bondingMode } := by
          unfold ownStep; rw [if_neg h11, if_pos h12]
        cases e : k.bond n.name with
        | none => rw [e] at hst; exact known_id k l i hn hst.symm j
        | some b =>
          rw [e] at hst
          dsimp only at hst ⊢
          have hm := linkPorts_map known (by intros; rfl) (by intros; rfl) (parent := n.index)
            (bondSpecs_keep known (by intros; rfl) b.slaves)
            (setNetif l n.index (fun n => { n with bondingMode := if b.mode = 4 then 1 else if b.mode = 1 then 2 else n.bondingMode })) n.index
          refine (byIndex_known hm j).trans ?_
          rw [hni]
          exact known_set k l i hn _ (by intro x; rfl) hst.symm j
      · rw [if_neg h12]
        by_cases h13 : n.type = 13
        · rw [if_pos h13]
          unfold netifBridge
          have hst : ownStep k l n = n := by
            unfold ownStep; rw [if_neg h11, if_neg h12, if_neg (by omega), if_neg (by omega)]
          cases e : k.bridge n.name with
          | none => exact known_id k l i hn hst.symm j
          | some is =>
            have hm := linkPorts_map known (by intros; rfl) (by intros; rfl) (parent := n.index)
              (bridgeSpecs_keep known (by intros; rfl) is) l n.index
            refine (byIndex_known hm j).trans ?_
            exact known_id k l i hn hst.symm j
        · rw [if_neg h13]
          by_cases hv : n.type = -1
          · rw [if_pos hv]
            unfold netifVlan
            have hst : ownStep k l n = match k.vlan n.name with
                | none => n
                | some r => match netifByName l r.1 with
                  | none => n
                  | some p => { n with vlanParent := p.index, vlanId := (r.2.map (· % 65536)).getD n.vlanId } := by
              unfold ownStep; rw [if_neg h11, if_neg h12, if_pos hv]
            cases e : k.vlan n.name with
            | none => rw [e] at hst; exact known_id k l i hn hst.symm j
            | some r =>
              rw [e] at hst
              dsimp only at hst ⊢
              cases e2 : netifByName l r.1 with
              | none => rw [e2] at hst; exact known_id k l i hn hst.symm j
              | some p =>
                rw [e2] at hst
                dsimp only at hst ⊢
                rw [hni]
                exact known_set k l i hn _ (by intro x; rfl) hst.symm j
          · rw [if_neg hv]
            by_cases h0 : n.type = 0
            · rw [if_pos h0]
              unfold netifDeviceId
              have hst : ownStep k l n = if n.deviceIdentified ≠ 0 then n
                  else { n with deviceIdentified := 1, deviceName := ((k.deviceId n.index).map (fun d => (cstr d).take 63)).getD n.deviceName } := by
                unfold ownStep; rw [if_neg h11, if_neg h12, if_neg hv, if_pos h0]
              by_cases hd : n.deviceIdentified ≠ 0
              · rw [if_pos hd] at hst ⊢
                exact known_id k l i hn hst.symm j
              · rw [if_neg hd] at hst ⊢
                rw [hni]
                exact known_set k l i hn _ (by intro x; rfl) hst.symm j
            · rw [if_neg h0]
              refine known_id k l i hn ?_ j
              unfold ownStep; rw [if_neg h11, if_neg h12, if_neg hv, if_neg h0]

theorem detect_fold_known (k : Kernel) : ∀ (is : List Nat), is.Nodup → ∀ (l : List Netif) (j : Nat),
    (netifByIndex (is.foldl (detectOne k) l) j).map known =
      (netifByIndex l j).map (fun n => if n.index ∈ is then known (ownStep k l n) else known n) := by
  intro is
  induction is with
  | nil => intro _ l j; simp
  | cons i is ih =>
    intro hnd l j
    rw [List.nodup_cons] at hnd
    rw [List.foldl_cons, ih hnd.2]
    have h1 := detectOne_known k l i j
    have hc := detectOne_core k l i
    cases e : netifByIndex l j with
    | none =>
      rw [e] at h1
      cases e' : netifByIndex (detectOne k l i) j with
      | none => rfl
      | some x => rw [e'] at h1; cases h1
    | some n =>
      rw [e] at h1
      cases e' : netifByIndex (detectOne k l i) j with
      | none => rw [e'] at h1; cases h1
      | some x =>
        rw [e'] at h1
        simp only [Option.map_some, Option.some.injEq] at h1 ⊢
        have hx : x.index = n.index := (byIndex_index e').trans (byIndex_index e).symm
        rw [hx]
        by_cases hi : n.index = i
        · rw [if_pos hi] at h1
          rw [if_neg (by rw [hi]; exact hnd.1), if_pos (by rw [hi]; exact List.mem_cons_self)]
          exact h1
        · rw [if_neg hi] at h1
          by_cases hm : n.index ∈ is
          · rw [if_pos hm, if_pos (List.mem_cons_of_mem _ hm)]
            exact ownStep_congr k hc h1
          · rw [if_neg hm, if_neg (by simp [hi, hm])]
            exact h1

/-! ## The role of a port -/

/-- Role and position of a port. -/
def role (n : Netif) : Nat × Nat := (n.child, n.lacpIndex)

/-- Those of the interface with an index. -/
def roleAt (l : List Netif) (j : Nat) : Option (Nat × Nat) := (netifByIndex l j).map role

theorem roleAt_set {l : List Netif} {i : Nat} {f : Netif → Netif} (hf : ∀ n, (f n).index = n.index ∧ role (f n) = role n)
    (j : Nat) : roleAt (setNetif l i f) j = roleAt l j := by
  unfold roleAt
  rw [byIndex_set l i f (fun n => (hf n).1)]
  cases netifByIndex l j with
  | none => rfl
  | some n =>
    simp only [Option.map_some]
    split
    · rw [(hf n).2]
    · rfl

/-- The role a port gets depends on its role before only. -/
def RoleSpecs (ps : List PortSpec) : Prop := ∀ p ∈ ps, ∀ a b, role a = role b → role (p.2 a) = role (p.2 b)

theorem linkPort_role {parent : Nat} {f : Netif → Netif} (hf : Tame f) (l : List Netif) (cur s j : Nat) :
    roleAt (linkPort parent f l cur s) j = (netifByIndex l j).map (fun n => if j = s then role (f n) else role n) := by
  unfold linkPort
  rw [roleAt_set (by intro n; exact ⟨rfl, rfl⟩)]
  unfold roleAt
  rw [byIndex_set l s (fun n => { f n with parent := some parent }) (fun n => core_index (hf n).1)]
  cases e : netifByIndex l j with
  | none => rfl
  | some n =>
    simp only [Option.map_some, byIndex_index e]
    split <;> rfl

theorem linkPorts_role {parent : Nat} {ps : List PortSpec} (hg : GoodSpecs ps) (hr : RoleSpecs ps) (l : List Netif) (cur : Nat)
    (hnd : (members l ps).Nodup) :
    (∀ j, j ∉ members l ps → roleAt (linkPorts parent ps l cur) j = roleAt l j) ∧
    (∀ p ∈ ps, ∀ j, portIndex (p.1 l) = some j →
      roleAt (linkPorts parent ps l cur) j = (netifByIndex l j).map (fun n => role (p.2 n))) := by
  induction ps generalizing l cur with
  | nil => exact ⟨fun _ _ => rfl, fun p hp => (nomatch hp)⟩
  | cons p ps ih =>
    have hg' : GoodSpecs ps :=
      ⟨fun q hq => hg.1 q (List.mem_cons_of_mem _ hq), fun q hq => hg.2 q (List.mem_cons_of_mem _ hq)⟩
    have hr' : RoleSpecs ps := fun q hq => hr q (List.mem_cons_of_mem _ hq)
    cases e : p.1 l with
    | none =>
      have h0 : portIndex (p.1 l) = none := by rw [e]; rfl
      rw [members_skip h0] at hnd ⊢
      rw [linkPorts_skip h0]
      obtain ⟨i1, i2⟩ := ih hg' hr' l cur hnd
      refine ⟨i1, fun q hq j hj => ?_⟩
      rcases List.mem_cons.mp hq with rfl | hq
      · rw [h0] at hj; cases hj
      · exact i2 q hq j hj
    | some s =>
      by_cases ht : s.type < NETIF_PARENT
      · have h0 : portIndex (p.1 l) = some s.index := by rw [e]; simp only [portIndex, Option.bind_some, if_pos ht]
        rw [members_take h0] at hnd ⊢
        rw [linkPorts_take e ht]
        have hf := (hg.1 p List.mem_cons_self).2
        have hcore := linkPort_core (parent := parent) hf l cur s.index
        have hm1 : members (linkPort parent p.2 l cur s.index) ps = members l ps :=
          members_core hcore (fun q hq => (hg'.1 q hq).1)
        have hnd' := List.nodup_cons.mp hnd
        obtain ⟨i1, i2⟩ := ih hg' hr' (linkPort parent p.2 l cur s.index) s.index (by rw [hm1]; exact hnd'.2)
        rw [hm1] at i1
        refine ⟨fun j hj => ?_, fun q hq j hj => ?_⟩
        · rw [i1 j (fun h => hj (List.mem_cons_of_mem _ h)), linkPort_role hf]
          have hne : j ≠ s.index := fun h => hj (h ▸ List.mem_cons_self)
          simp only [if_neg hne]
          rfl
        · rcases List.mem_cons.mp hq with rfl | hq
          · rw [h0] at hj
            cases hj
            rw [i1 _ hnd'.1, linkPort_role hf]
            simp only [if_pos]
          · have hjm : j ∈ members l ps := List.mem_filterMap.mpr ⟨q, hq, hj⟩
            have hne : j ≠ s.index := fun h => hnd'.1 (h ▸ hjm)
            have hj' : portIndex (q.1 (linkPort parent p.2 l cur s.index)) = some j := by
              rw [portIndex_core ((hg'.1 q hq).1 _ _ hcore)]; exact hj
            rw [i2 q hq j hj']
            have hro := linkPort_role (parent := parent) hf l cur s.index j
            simp only [if_neg hne] at hro
            unfold roleAt at hro
            cases e1 : netifByIndex (linkPort parent p.2 l cur s.index) j with
            | none =>
              rw [e1] at hro
              cases e2 : netifByIndex l j with
              | none => rfl
              | some y => rw [e2] at hro; cases hro
            | some x =>
              rw [e1] at hro
              cases e2 : netifByIndex l j with
              | none => rw [e2] at hro; cases hro
              | some y =>
                rw [e2] at hro
                simp only [Option.map_some, Option.some.injEq] at hro ⊢
                exact hr' q hq _ _ hro
      · have h0 : portIndex (p.1 l) = none := by rw [e]; simp only [portIndex, Option.bind_some, if_neg ht]
        rw [members_skip h0] at hnd ⊢
        rw [linkPorts_skip h0]
        obtain ⟨i1, i2⟩ := ih hg' hr' l cur hnd
        refine ⟨i1, fun q hq j hj => ?_⟩
        rcases List.mem_cons.mp hq with rfl | hq
        · rw [h0] at hj; cases hj
        · exact i2 q hq j hj

theorem bondSpecs_roles (slaves : List (Option (Bytes × Bool))) : RoleSpecs (bondSpecs slaves) := by
  intro p hp a b _
  obtain ⟨⟨s, i⟩, _, he⟩ := List.mem_filterMap.mp hp
  cases s with
  | none => simp at he
  | some s =>
    simp only [Option.map_some, Option.some.injEq] at he
    subst he
    rfl

theorem bridgeSpecs_roles (is : List Nat) : RoleSpecs (bridgeSpecs is) := by
  intro p hp a b h
  obtain ⟨i, _, rfl⟩ := List.mem_map.mp hp
  have h2 : a.lacpIndex = b.lacpIndex := congrArg Prod.snd h
  exact Prod.ext rfl h2

theorem teamSpecs_roles (mode : Nat) (is : List Nat) : RoleSpecs (teamSpecs mode is) := by
  intro p hp a b h
  obtain ⟨i, _, rfl⟩ := List.mem_map.mp hp
  have h2 : a.lacpIndex = b.lacpIndex := congrArg Prod.snd h
  exact Prod.ext rfl h2

/-- A member comes from one of the specifications. -/
theorem members_spec {l : List Netif} {ps : List PortSpec} {j : Nat} (h : j ∈ members l ps) :
    ∃ p ∈ ps, portIndex (p.1 l) = some j := List.mem_filterMap.mp h

theorem portsOf_withIndex {l : List Netif} {is : List Nat} {j : Nat}
    (h : j ∈ (is.map (withIndex l)).filterMap portIndex) : j ∈ is := by
  obtain ⟨o, ho, he⟩ := List.mem_filterMap.mp h
  obtain ⟨i, hi, rfl⟩ := List.mem_map.mp ho
  rw [withIndex_eq] at he
  unfold portIndex at he
  cases e : netifByIndex l i with
  | none => rw [e] at he; cases he
  | some s =>
    rw [e] at he
    simp only [Option.bind_some] at he
    split at he
    · cases he
      rw [byIndex_index e]; exact hi
    · cases he

theorem roleIn_core {k : Kernel} {l l' : List Netif} (h : l'.map core = l.map core) {n n' : Netif} (hn : core n' = core n)
    {j c x : Nat} (hr : RoleIn k l n j c x) : RoleIn k l' n' j c x := by
  unfold RoleIn at hr ⊢
  rw [core_type hn, core_index hn, core_name hn]
  rcases hr with hr | ⟨h12, b, i, s, e1, e2, e3, e4⟩ | hr
  · exact .inl hr
  · refine .inr (.inl ⟨h12, b, i, s, e1, e2, ?_, e4⟩)
    have := congrArg (Option.map Prod.fst) (withName_core h s.1)
    rw [Option.map_map, Option.map_map] at this
    exact this.trans e3
  · exact .inr (.inr hr)

/-- The settings of one interface: its ports get their roles, other interfaces keep theirs. -/
theorem detectOne_role (k : Kernel) (l : List Netif) (i : Nat) (n : Netif) (hn : netifByIndex l i = some n)
    (hnd : (portsOf k l n).Nodup) (ht : TeamOk k l n)
    (hfresh : ∀ j ∈ portsOf k l n, ∀ y, netifByIndex l j = some y → y.lacpIndex = 0) :
    (∀ j, j ∉ portsOf k l n → roleAt (detectOne k l i) j = roleAt l j) ∧
    (∀ j ∈ portsOf k l n, ∃ c x, roleAt (detectOne k l i) j = some (c, x) ∧ RoleIn k l n j c x) := by
  have hni : n.index = i := byIndex_index hn
  have hin : ∀ j ∈ portsOf k l n, ∃ y, netifByIndex l j = some y := by
    intro j hj
    obtain ⟨⟨s, hs, hsi, _⟩, _⟩ := portsOf_mem hj
    cases e : netifByIndex l j with
    | some y => exact ⟨y, rfl⟩
    | none =>
      have := List.find?_eq_none.mp e s hs
      simp [hsi] at this
  have hno : n.type ≠ 11 → n.type ≠ 12 → n.type ≠ 13 → portsOf k l n = [] := by
    intro h1 h2 h3
    unfold portsOf
    dsimp only
    rw [if_neg h1, if_neg h2, if_neg h3]; rfl
  have nothing : ∀ l', (∀ j, roleAt l' j = roleAt l j) → portsOf k l n = [] →
      (∀ j, j ∉ portsOf k l n → roleAt l' j = roleAt l j) ∧
      (∀ j ∈ portsOf k l n, ∃ c x, roleAt l' j = some (c, x) ∧ RoleIn k l n j c x) := by
    intro l' h hp
    rw [hp]
    exact ⟨fun j _ => h j, fun j hj => (nomatch hj)⟩
  unfold detectOne
  rw [hn]
  dsimp only
  unfold NETIF_TEAMING NETIF_BONDING NETIF_BRIDGE NETIF_VLAN NETIF_REGULAR
  by_cases h11 : n.type = 11
  · rw [if_pos h11]
    unfold netifTeam
    cases e : k.team n.index with
    | none =>
      refine nothing _ (fun _ => rfl) ?_
      unfold portsOf
      dsimp only
      rw [if_pos h11, e]; rfl
    | some t =>
      dsimp only
      have hp : portsOf k l n = members l (teamSpecs t.mode t.ports) := by
        rw [teamSpecs_members]
        unfold portsOf
        dsimp only
        rw [if_pos h11, e, filter_ports]
      have hc1 : (setNetif l n.index (fun n => { n with bondingMode := t.mode % 256 })).map core = l.map core :=
        setNetif_map core _ _ _ (by intro n; rfl)
      have hg := teamSpecs_good t.mode t.ports
      have hm := members_core hc1 (fun p hp => (hg.1 p hp).1)
      obtain ⟨r1, r2⟩ := linkPorts_role (parent := n.index) hg (teamSpecs_roles t.mode t.ports)
        (setNetif l n.index (fun n => { n with bondingMode := t.mode % 256 })) n.index (by rw [hm, ← hp]; exact hnd)
      have hc2 := (linkPorts_core (parent := n.index) hg.1
        (setNetif l n.index (fun n => { n with bondingMode := t.mode % 256 })) n.index).trans hc1
      rw [hm, ← hp] at r1
      have r1' : ∀ j, j ∉ portsOf k l n → roleAt (linkPorts n.index (teamSpecs t.mode t.ports)
          (setNetif l n.index (fun n => { n with bondingMode := t.mode % 256 })) n.index) j = roleAt l j :=
        fun j hj => (r1 j hj).trans (roleAt_set (by intro n; exact ⟨rfl, rfl⟩) j)
      have r2' : ∀ j ∈ portsOf k l n, roleAt (linkPorts n.index (teamSpecs t.mode t.ports)
          (setNetif l n.index (fun n => { n with bondingMode := t.mode % 256 })) n.index) j =
            some (if t.mode % 256 = 2 then 2 else 1, 0) := by
        intro j hj
        obtain ⟨p, hpm, hpi⟩ := members_spec (hp ▸ hj)
        have hpi' : portIndex (p.1 (setNetif l n.index (fun n => { n with bondingMode := t.mode % 256 }))) = some j := by
          rw [portIndex_core ((hg.1 p hpm).1 _ _ hc1)]; exact hpi
        rw [r2 p hpm j hpi', byIndex_set _ _ _ (by intro n; rfl)]
        obtain ⟨y, hy⟩ := hin j hj
        have h0 := hfresh j hj y hy
        rw [hy]
        obtain ⟨a, _, rfl⟩ := List.mem_map.mp hpm
        simp only [Option.map_some]
        split <;> simp only [role, h0]
      change _ ∧ _
      generalize hL : linkPorts n.index (teamSpecs t.mode t.ports)
          (setNetif l n.index (fun n => { n with bondingMode := t.mode % 256 })) n.index = L at r1' r2' hc2
      have hL' : linkPorts n.index (t.ports.map (fun i => ((fun (l : List Netif) => netifByIndex l i),
          fun (n : Netif) => { n with child := if t.mode % 256 = 2 then 2 else 1 })))
          (setNetif l n.index (fun n => { n with bondingMode := t.mode % 256 })) n.index = L := hL
      rw [hL']
      unfold teamActive
      by_cases hmode : t.mode % 256 = 2
      · rw [if_pos hmode]
        simp only [if_pos hmode] at r2'
        cases ea : netifByIndex L t.active with
        | none =>
          refine ⟨r1', fun j hj => ⟨2, 0, r2' j hj, .inl ⟨h11, rfl, t, e, ?_⟩⟩⟩
          have hact : t.active ≠ j := by
            intro hact
            have := r2' j hj
            unfold roleAt at this
            rw [← hact, ea] at this
            cases this
          rw [if_pos ⟨hmode, hact⟩]
        | some s =>
          dsimp only
          have hsi := byIndex_index ea
          have hact : t.active ∈ portsOf k l n := by
            refine ht t h11 e hmode ?_
            have := byIndex_core hc2 t.active
            rw [ea] at this
            rw [withIndex_eq]
            cases e' : netifByIndex l t.active with
            | none => rw [e'] at this; cases this
            | some _ => rfl
          rw [hsi]
          have hset : ∀ j, roleAt (setNetif L t.active (fun n => { n with child := 1 })) j =
              (roleAt L j).map (fun r => if j = t.active then (1, r.2) else r) := by
            intro j
            unfold roleAt
            rw [byIndex_set _ _ _ (by intro n; rfl)]
            cases e' : netifByIndex L j with
            | none => rfl
            | some y =>
              simp only [Option.map_some, byIndex_index e']
              split <;> rfl
          refine ⟨fun j hj => ?_, fun j hj => ?_⟩
          · rw [hset, r1' j hj]
            have hne : j ≠ t.active := fun h => hj (h ▸ hact)
            simp only [if_neg hne]
            cases roleAt l j <;> rfl
          · rw [hset, r2' j hj]
            by_cases hja : j = t.active
            · refine ⟨1, 0, by rw [Option.map_some, if_pos hja], .inl ⟨h11, rfl, t, e, ?_⟩⟩
              rw [if_neg (fun h => h.2 hja.symm)]
            · refine ⟨2, 0, by rw [Option.map_some, if_neg hja], .inl ⟨h11, rfl, t, e, ?_⟩⟩
              rw [if_pos ⟨hmode, fun h => hja h.symm⟩]
      · rw [if_neg hmode]
        simp only [if_neg hmode] at r2'
        refine ⟨r1', fun j hj => ⟨1, 0, r2' j hj, .inl ⟨h11, rfl, t, e, ?_⟩⟩⟩
        rw [if_neg (fun h => hmode h.1)]
  · rw [if_neg h11]
    by_cases h12 : n.type = 12
    · rw [if_pos h12]
      unfold netifBond
      cases e : k.bond n.name with
      | none =>
        refine nothing _ (fun _ => rfl) ?_
        unfold portsOf
        dsimp only
        rw [if_neg h11, if_pos h12, e]; rfl
      | some b =>
        dsimp only
        have hp : portsOf k l n = members l (bondSpecs b.slaves) := by
          rw [bondSpecs_members]
          unfold portsOf
          dsimp only
          rw [if_neg h11, if_pos h12, e, filter_ports]
        have hc1 : (setNetif l n.index (fun n => { n with bondingMode := if b.mode = 4 then 1 else if b.mode = 1 then 2 else n.bondingMode })).map core = l.map core :=
          setNetif_map core _ _ _ (by intro n; rfl)
        have hg := bondSpecs_good b.slaves
        have hm := members_core hc1 (fun p hp => (hg.1 p hp).1)
        obtain ⟨r1, r2⟩ := linkPorts_role (parent := n.index) hg (bondSpecs_roles b.slaves)
          (setNetif l n.index (fun n => { n with bondingMode := if b.mode = 4 then 1 else if b.mode = 1 then 2 else n.bondingMode })) n.index (by rw [hm, ← hp]; exact hnd)
        rw [hm, ← hp] at r1
        refine ⟨fun j hj => (r1 j hj).trans (roleAt_set (by intro n; exact ⟨rfl, rfl⟩) j), fun j hj => ?_⟩
        obtain ⟨p, hpm, hpi⟩ := members_spec (hp ▸ hj)
        have hpi' : portIndex (p.1 (setNetif l n.index (fun n => { n with bondingMode := if b.mode = 4 then 1 else if b.mode = 1 then 2 else n.bondingMode }))) = some j := by
          rw [portIndex_core ((hg.1 p hpm).1 _ _ hc1)]; exact hpi
        have hrole := r2 p hpm j hpi'
        rw [byIndex_set _ _ _ (by intro n; rfl)] at hrole
        obtain ⟨y, hy⟩ := hin j hj
        rw [hy] at hrole
        obtain ⟨⟨s, pos⟩, hsm, he⟩ := List.mem_filterMap.mp hpm
        cases s with
        | none => simp at he
        | some s =>
          simp only [Option.map_some, Option.some.injEq] at he
          subst he
          refine ⟨if s.2 then 2 else 1, pos % 256, ?_, .inr (.inl ⟨h12, b, pos, s, e, ?_, ?_, rfl, rfl⟩)⟩
          · refine hrole.trans ?_
            simp only [Option.map_some]
            rfl
          · exact List.mem_zipIdx_iff_getElem?.mp hsm
          · dsimp only at hpi
            rw [withName_eq]
            unfold portIndex at hpi
            cases e' : netifByName l s.1 with
            | none => rw [e'] at hpi; cases hpi
            | some z =>
              rw [e'] at hpi
              simp only [Option.bind_some] at hpi
              split at hpi
              · exact hpi
              · cases hpi
    · rw [if_neg h12]
      by_cases h13 : n.type = 13
      · rw [if_pos h13]
        unfold netifBridge
        cases e : k.bridge n.name with
        | none =>
          refine nothing _ (fun _ => rfl) ?_
          unfold portsOf
          dsimp only
          rw [if_neg h11, if_neg h12, if_pos h13, e]; rfl
        | some is =>
          dsimp only
          have hp : portsOf k l n = members l (bridgeSpecs is) := by
            rw [bridgeSpecs_members]
            unfold portsOf
            dsimp only
            rw [if_neg h11, if_neg h12, if_pos h13, e, filter_ports]
          have hg := bridgeSpecs_good is
          obtain ⟨r1, r2⟩ := linkPorts_role (parent := n.index) hg (bridgeSpecs_roles is) l n.index (by rw [← hp]; exact hnd)
          rw [← hp] at r1
          refine ⟨r1, fun j hj => ?_⟩
          obtain ⟨p, hpm, hpi⟩ := members_spec (hp ▸ hj)
          have hrole := r2 p hpm j hpi
          obtain ⟨y, hy⟩ := hin j hj
          have h0 := hfresh j hj y hy
          rw [hy] at hrole
          obtain ⟨a, _, rfl⟩ := List.mem_map.mp hpm
          refine ⟨1, 0, ?_, .inr (.inr ⟨h13, rfl, rfl⟩)⟩
          refine hrole.trans ?_
          simp only [Option.map_some, role, h0]
      · rw [if_neg h13]
        refine nothing _ ?_ (hno h11 h12 h13)
        intro j
        split
        · unfold netifVlan
          split
          · rfl
          · split
            · rfl
            · exact roleAt_set (by intro n; exact ⟨rfl, rfl⟩) j
        · split
          · unfold netifDeviceId
            split
            · rfl
            · exact roleAt_set (by intro n; exact ⟨rfl, rfl⟩) j
          · rfl

/-- State of the settings loop after the interfaces `ds`. -/
structure RoleInv (k : Kernel) (l0 : List Netif) (ds : List Nat) (l : List Netif) : Prop where
  core : l.map core = l0.map core
  port : ∀ n ∈ l0, n.index ∈ ds → ∀ j ∈ portsOf k l0 n, ∃ c x, roleAt l j = some (c, x) ∧ RoleIn k l0 n j c x
  rest : ∀ j, (∀ n ∈ l0, n.index ∈ ds → j ∉ portsOf k l0 n) → roleAt l j = roleAt l0 j

theorem role_step {k : Kernel} {l0 : List Netif} (hnd : (l0.map (·.index)).Nodup) (hk : KernelOk k l0)
    (hfresh : ∀ n ∈ l0, n.lacpIndex = 0) {ds : List Nat} {l : List Netif} (h : RoleInv k l0 ds l) {n : Netif} (hn : n ∈ l0)
    (hnew : n.index ∉ ds) : RoleInv k l0 (ds ++ [n.index]) (detectOne k l n.index) := by
  have hl0 := byIndex_of_mem hnd hn
  have hcn := byIndex_core h.core n.index
  rw [hl0] at hcn
  obtain ⟨n', hn'⟩ : ∃ n', netifByIndex l n.index = some n' := by
    cases e : netifByIndex l n.index with
    | none => rw [e] at hcn; cases hcn
    | some n' => exact ⟨n', rfl⟩
  rw [hn'] at hcn
  have hcn' : Ladvd.core n' = Ladvd.core n := by simpa using hcn
  have hP : portsOf k l n' = portsOf k l0 n := portsOf_core k h.core hcn'
  have hmems : ∀ a, a ∈ l0 → a.index ∈ ds ++ [n.index] → a.index ∈ ds ∨ a = n := by
    intro a ha hm
    rcases List.mem_append.mp hm with h | h
    · exact .inl h
    · exact .inr (index_unique hnd ha hn (by simpa using h))
  have hother : ∀ j ∈ portsOf k l0 n, ∀ a ∈ l0, a.index ∈ ds → j ∉ portsOf k l0 a := by
    intro j hj a ha hm hja
    have := hk.once n hn a ha j hj hja
    subst this
    exact hnew hm
  obtain ⟨d1, d2⟩ := detectOne_role k l n.index n' hn' (by rw [hP]; exact hk.nodup n hn)
    (teamOk_core h.core hcn' (hk.team n hn)) (by
      intro j hj y hy
      rw [hP] at hj
      have hr := h.rest j (hother j hj)
      unfold roleAt at hr
      rw [hy] at hr
      cases e : netifByIndex l0 j with
      | none => rw [e] at hr; cases hr
      | some z =>
        rw [e] at hr
        simp only [Option.map_some, Option.some.injEq] at hr
        have h2 : y.lacpIndex = z.lacpIndex := congrArg Prod.snd hr
        rw [h2]; exact hfresh z (byIndex_mem e))
  rw [hP] at d1 d2
  refine ⟨(detectOne_core k l n.index).trans h.core, ?_, ?_⟩
  · intro a ha hm j hj
    rcases hmems a ha hm with hm | rfl
    · obtain ⟨c, x, h1, h2⟩ := h.port a ha hm j hj
      refine ⟨c, x, ?_, h2⟩
      rw [d1 j (fun hjn => hother j hjn a ha hm hj)]
      exact h1
    · obtain ⟨c, x, h1, h2⟩ := d2 j hj
      exact ⟨c, x, h1, roleIn_core h.core.symm hcn'.symm h2⟩
  · intro j hj
    rw [d1 j (hj n hn (by simp))]
    exact h.rest j (fun a ha hm => hj a ha (List.mem_append_left _ hm))

theorem role_all {k : Kernel} {l0 : List Netif} (hnd : (l0.map (·.index)).Nodup) (hk : KernelOk k l0)
    (hfresh : ∀ n ∈ l0, n.lacpIndex = 0) : RoleInv k l0 (l0.map (·.index)) ((l0.map (·.index)).foldl (detectOne k) l0) := by
  have key : ∀ (ns : List Netif) (ds : List Nat) (l : List Netif), RoleInv k l0 ds l → (∀ n ∈ ns, n ∈ l0) →
      (ds ++ ns.map (·.index)).Nodup → RoleInv k l0 (ds ++ ns.map (·.index)) ((ns.map (·.index)).foldl (detectOne k) l) := by
    intro ns
    induction ns with
    | nil => intro ds l h _ _; simpa using h
    | cons n ns ih =>
      intro ds l h hns hds
      have hnew : n.index ∉ ds := by
        intro hm
        rw [List.nodup_append] at hds
        exact hds.2.2 _ hm n.index (by simp) rfl
      have h1 := role_step hnd hk hfresh h (hns n List.mem_cons_self) hnew
      have e : ds ++ (n :: ns).map (·.index) = (ds ++ [n.index]) ++ ns.map (·.index) := by simp
      rw [e] at hds ⊢
      rw [List.map_cons, List.foldl_cons]
      exact ih _ _ h1 (fun a ha => hns a (List.mem_cons_of_mem _ ha)) hds
  have h0 : RoleInv k l0 [] l0 := ⟨rfl, fun _ _ h => (nomatch h), fun _ _ => rfl⟩
  have := key l0 [] l0 h0 (fun _ h => h) (by simpa using hnd)
  simpa using this

/-! ## The whole refresh -/

/-- Fields neither the addresses nor the command line change. -/
structure Fixed {α : Type} (g : Netif → α) : Prop where
  addr : ∀ n a b c d, g { n with ipaddr4 := a, ipaddr6 := b, hwaddr := c, argv := d } = g n

theorem addrsNetif_fixed {α : Type} {g : Netif → α} (hg : Fixed g) (addrs : List IfAddr) (n : Netif) :
    g (addrsNetif addrs n) = g n := by
  induction addrs generalizing n with
  | nil => rfl
  | cons ia addrs ih =>
    show g (addrsNetif addrs (addrNetif ia n)) = _
    rw [ih]
    unfold addrNetif
    split
    · split
      · split
        · rfl
        · exact hg.addr n _ _ _ _
      · split
        · rfl
        · exact hg.addr n _ _ _ _
      · exact hg.addr n _ _ _ _
      · rfl
    · rfl

theorem netifFetch_fixed {α : Type} {g : Netif → α} (hg : Fixed g) (o : Opts) (names : List Bytes) (m : Mgmt) (k : Kernel) (s : Ifs)
    {addrs : List IfAddr} (h : k.ifaddrs = some addrs) (hok : ListOk k addrs) (hs : (s.netifs.map (·.index)).Nodup) :
    (netifFetch o names m k s).1.netifs.map g = (detected k s.netifs (usables k addrs)).map g := by
  obtain ⟨e, -⟩ := netifFetch_eq o names m k s h hok hs
  rw [e]
  have hA : ((detected k s.netifs (usables k addrs)).map (addrsNetif addrs)).map g =
      (detected k s.netifs (usables k addrs)).map g := by
    rw [List.map_map]; exact List.map_congr_left (fun n _ => addrsNetif_fixed hg addrs n)
  generalize (detected k s.netifs (usables k addrs)).map (addrsNetif addrs) = A at hA ⊢
  generalize (addrs.foldl (addrStep m) (detected k s.netifs (usables k addrs), mnetifNamed m s (usables k addrs))).2 = mn
  have hB : (if o.has OPT_MADDR = true then
        match mn.bind (netifByIndex A) with
        | none => A
        | some x => A.map (fun n => { n with ipaddr4 := x.ipaddr4, ipaddr6 := x.ipaddr6 })
      else A).map g = A.map g := by
    split
    · split
      · rfl
      · rw [List.map_map]; exact List.map_congr_left (fun n _ => hg.addr n _ _ _ _)
    · rfl
  generalize (if o.has OPT_MADDR = true then
        match mn.bind (netifByIndex A) with
        | none => A
        | some x => A.map (fun n => { n with ipaddr4 := x.ipaddr4, ipaddr6 := x.ipaddr6 })
      else A) = B at hB ⊢
  split
  · rw [hB, hA]
  · rw [List.map_map]
    have : B.map (g ∘ argMark names) = B.map g := List.map_congr_left (fun n _ => by
      rw [Function.comp_apply]
      unfold argMark
      split
      · exact hg.addr n _ _ _ _
      · rfl)
    rw [this, hB, hA]

theorem known_fixed : Fixed known := ⟨by intros; rfl⟩
theorem role_fixed : Fixed (fun n => (core n, role n)) := ⟨by intros; rfl⟩

/-- Every record of the result, and the fresh record it comes from. -/
theorem fetch_known (o : Opts) (names : List Bytes) (m : Mgmt) (k : Kernel) (s : Ifs) {addrs : List IfAddr}
    (h : k.ifaddrs = some addrs) (hok : ListOk k addrs) (hs : (s.netifs.map (·.index)).Nodup) {n : Netif}
    (hn : n ∈ (netifFetch o names m k s).1.netifs) :
    ∃ x ∈ listed k s.netifs (usables k addrs), known n = known (ownStep k (listed k s.netifs (usables k addrs)) x) := by
  have hi0 := listed_index_nodup k hs hok.index
  have hf := netifFetch_fixed known_fixed o names m k s h hok hs
  obtain ⟨d, hd, e⟩ : ∃ d ∈ detected k s.netifs (usables k addrs), known d = known n := by
    have : known n ∈ (detected k s.netifs (usables k addrs)).map known := hf ▸ List.mem_map.mpr ⟨n, hn, rfl⟩
    obtain ⟨d, hd, e⟩ := List.mem_map.mp this
    exact ⟨d, hd, e⟩
  have hdi : ((detected k s.netifs (usables k addrs)).map (·.index)).Nodup := by
    rw [map_index_of_core (detected_core k _ _)]; exact hi0
  have h1 := detect_fold_known k ((listed k s.netifs (usables k addrs)).map (·.index)) hi0 (listed k s.netifs (usables k addrs)) d.index
  change (netifByIndex (detected k s.netifs (usables k addrs)) d.index).map known = _ at h1
  rw [byIndex_of_mem hdi hd] at h1
  cases ex : netifByIndex (listed k s.netifs (usables k addrs)) d.index with
  | none => rw [ex] at h1; cases h1
  | some x =>
    rw [ex] at h1
    simp only [Option.map_some, Option.some.injEq] at h1
    have hx := byIndex_mem ex
    refine ⟨x, hx, ?_⟩
    rw [if_pos (List.mem_map.mpr ⟨x, hx, rfl⟩)] at h1
    exact e.symm.trans h1

theorem filterMap_once {α β : Type} {f : α → Option β} {l : List α} (h : (l.filterMap f).Nodup) {i j : Nat} {a b : α} {y : β}
    (hi : l[i]? = some a) (hj : l[j]? = some b) (ha : f a = some y) (hb : f b = some y) : i = j := by
  induction l generalizing i j with
  | nil => simp at hi
  | cons x l ih =>
    have hin : ∀ {n : Nat} {c : α}, l[n]? = some c → f c = some y → y ∈ l.filterMap f := fun hn hc =>
      List.mem_filterMap.mpr ⟨_, List.mem_of_getElem? hn, hc⟩
    have h' : (l.filterMap f).Nodup := by
      cases hx : f x with
      | none => rwa [List.filterMap_cons_none hx] at h
      | some z => rw [List.filterMap_cons_some hx, List.nodup_cons] at h; exact h.2
    cases i with
    | zero =>
      cases j with
      | zero => rfl
      | succ j =>
        simp only [List.getElem?_cons_zero, Option.some.injEq] at hi
        simp only [List.getElem?_cons_succ] at hj
        subst hi
        rw [List.filterMap_cons_some ha, List.nodup_cons] at h
        exact absurd (hin hj hb) h.1
    | succ i =>
      simp only [List.getElem?_cons_succ] at hi
      cases j with
      | zero =>
        simp only [List.getElem?_cons_zero, Option.some.injEq] at hj
        subst hj
        rw [List.filterMap_cons_some hb, List.nodup_cons] at h
        exact absurd (hin hi ha) h.1
      | succ j =>
        simp only [List.getElem?_cons_succ] at hj
        rw [ih h' hi hj]

theorem fetchStep_hwaddr (k : Kernel) (m : Mgmt) (a : FetchAcc) (ia : IfAddr) : (fetchStep k m a ia).sys.hwaddr = a.sys.hwaddr := by
  have ht : ∀ t up s, (typeCaps t up s).hwaddr = s.hwaddr := by
    intro t up s
    unfold typeCaps
    repeat' split
    all_goals rfl
  unfold fetchStep
  split
  · dsimp only
    split
    · exact ht _ _ _
    · split
      · exact ht _ _ _
      · exact ht _ _ _
  · rfl

theorem fetch_fold_hwaddr (k : Kernel) (m : Mgmt) (addrs : List IfAddr) (a : FetchAcc) :
    (addrs.foldl (fetchStep k m) a).sys.hwaddr = a.sys.hwaddr := by
  induction addrs generalizing a with
  | nil => rfl
  | cons ia addrs ih => rw [List.foldl_cons, ih, fetchStep_hwaddr]

theorem markArgs_head (names : List Bytes) (l : List Netif) :
    ((markArgs names l).1.head?).map (·.hwaddr) = (l.head?).map (·.hwaddr) := by
  have h : ∀ (names : List Bytes) (s : List Netif × Nat), ((names.foldl (fun s name =>
      match netifByName s.1 name with
      | none => s
      | some n => if n.type = NETIF_VLAN then s
                  else (setNetif s.1 n.index (fun n => { n with argv := 1 }), s.2 + 1)) s).1).map (·.hwaddr) = s.1.map (·.hwaddr) := by
    intro names
    induction names with
    | nil => intro s; rfl
    | cons name names ih =>
      intro s
      rw [List.foldl_cons, ih]
      split
      · rfl
      · split
        · rfl
        · exact setNetif_map (·.hwaddr) _ _ _ (by intro n; rfl)
  have := congrArg List.head? (h names (l, 0))
  rw [List.head?_map, List.head?_map] at this
  exact this

theorem fetch_chassis (o : Opts) (names : List Bytes) (m : Mgmt) (k : Kernel) (s : Ifs) {addrs : List IfAddr}
    (h : k.ifaddrs = some addrs) :
    (netifFetch o names m k s).1.sys.hwaddr =
      (((netifFetch o names m k s).1.netifs.head?).map (·.hwaddr)).getD s.sys.hwaddr := by
  unfold netifFetch
  rw [h]
  dsimp only
  have hh := fetch_fold_hwaddr k m addrs ⟨s.netifs.map (fun n => { n with type := NETIF_OLD }),
    { s.sys with cap := s.sys.cap &&& 12, capActive := s.sys.capActive &&& 12, physifCount := 0 }, s.mnetif, 0⟩
  generalize addrs.foldl (fetchStep k m) ⟨s.netifs.map (fun n => { n with type := NETIF_OLD }),
    { s.sys with cap := s.sys.cap &&& 12, capActive := s.sys.capActive &&& 12, physifCount := 0 }, s.mnetif, 0⟩ = a at hh ⊢
  generalize netifAddrs o m addrs _ _ = q
  by_cases hn : names = []
  · rw [if_pos hn]
    dsimp only
    cases q.1 with
    | nil => exact hh
    | cons n l => rfl
  · rw [if_neg hn]
    dsimp only
    rw [markArgs_head]
    cases q.1 with
    | nil => exact hh
    | cons n l => rfl

end Ladvd
