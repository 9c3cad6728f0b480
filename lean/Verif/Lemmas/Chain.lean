import Verif.Lemmas.Fetch
/-!
# Interface detection: aggregates and their ports
-/

namespace Ladvd

/-! ## Fields that the settings, address and argument phases leave alone -/

/-- The fields set by the detection loop. -/
def core (n : Netif) : Nat × Bytes × Int × Nat × Nat × Bytes :=
  (n.index, n.name, n.type, n.protos, n.linkEvent, n.description)

theorem core_index {a b : Netif} (h : core a = core b) : a.index = b.index := by
  simp only [core, Prod.mk.injEq] at h; exact h.1
theorem core_name {a b : Netif} (h : core a = core b) : a.name = b.name := by
  simp only [core, Prod.mk.injEq] at h; exact h.2.1
theorem core_type {a b : Netif} (h : core a = core b) : a.type = b.type := by
  simp only [core, Prod.mk.injEq] at h; exact h.2.2.1

theorem map_index_of_core {l l' : List Netif} (h : l'.map core = l.map core) :
    l'.map (·.index) = l.map (·.index) := by
  have := congrArg (List.map (fun c : Nat × Bytes × Int × Nat × Nat × Bytes => c.1)) h
  rw [List.map_map, List.map_map] at this
  exact this

theorem map_name_of_core {l l' : List Netif} (h : l'.map core = l.map core) :
    l'.map (·.name) = l.map (·.name) := by
  have := congrArg (List.map (fun c : Nat × Bytes × Int × Nat × Nat × Bytes => c.2.1)) h
  rw [List.map_map, List.map_map] at this
  exact this

theorem find_core {l l' : List Netif} (h : l'.map core = l.map core) (p : Nat × Bytes × Int × Nat × Nat × Bytes → Bool) :
    (l'.find? (fun n => p (core n))).map core = (l.find? (fun n => p (core n))).map core := by
  have e : ∀ l : List Netif, (l.find? (fun n => p (core n))).map core = (l.map core).find? p := by
    intro l; rw [List.find?_map]; rfl
  rw [e, e, h]

theorem byIndex_core {l l' : List Netif} (h : l'.map core = l.map core) (i : Nat) :
    (netifByIndex l' i).map core = (netifByIndex l i).map core :=
  find_core h (fun c => c.1 == i)

theorem byName_core {l l' : List Netif} (h : l'.map core = l.map core) (s : Bytes) :
    (netifByName l' s).map core = (netifByName l s).map core :=
  find_core h (fun c => c.2.1 == s)

/-! ## Chains -/

/-- `subif` of the interface with an index. -/
def subOf (l : List Netif) (i : Nat) : Option Nat := (netifByIndex l i).bind (·.subif)

/-- Following `subif` from `p` visits exactly `ms`. -/
def Chain (sub : Nat → Option Nat) : Nat → List Nat → Prop
  | p, [] => sub p = none
  | p, m :: ms => sub p = some m ∧ Chain sub m ms

theorem Chain.congr {sub sub' : Nat → Option Nat} {p : Nat} {ms : List Nat} (h : Chain sub p ms)
    (e : ∀ j, j = p ∨ j ∈ ms → sub' j = sub j) : Chain sub' p ms := by
  induction ms generalizing p with
  | nil => exact (e p (.inl rfl)).trans h
  | cons m ms ih =>
    refine ⟨(e p (.inl rfl)).trans h.1, ih h.2 ?_⟩
    intro j hj
    refine e j (.inr ?_)
    rcases hj with rfl | hj
    · exact List.mem_cons_self
    · exact List.mem_cons_of_mem _ hj

/-- A way to look up a port: by index or by name. -/
def Looks (look : List Netif → Option Netif) : Prop :=
  ∀ l l' : List Netif, l'.map core = l.map core → (look l').map core = (look l).map core

/-- A change made to a port: not of the fields of the detection loop, nor of the chain. -/
def Tame (f : Netif → Netif) : Prop := ∀ n, core (f n) = core n ∧ (f n).subif = n.subif ∧ (f n).child ≠ 0

/-- The index of a reported port, if it can be a port. -/
def portIndex (s : Option Netif) : Option Nat := s.bind (fun s => if s.type < NETIF_PARENT then some s.index else none)

theorem portIndex_core {s s' : Option Netif} (h : s'.map core = s.map core) : portIndex s' = portIndex s := by
  cases s with
  | none => cases s' with
    | none => rfl
    | some a => simp at h
  | some b => cases s' with
    | none => simp at h
    | some a =>
      simp only [Option.map_some, Option.some.injEq] at h
      simp only [portIndex, Option.bind_some, core_type h, core_index h]

/-- Ports to be linked. -/
abbrev PortSpec := (List Netif → Option Netif) × (Netif → Netif)

/-- The members that result from a list of reported ports. -/
def members (l : List Netif) (ps : List PortSpec) : List Nat := ps.filterMap (fun p => portIndex (p.1 l))

theorem members_core {l l' : List Netif} (h : l'.map core = l.map core) {ps : List PortSpec}
    (hp : ∀ p ∈ ps, Looks p.1) : members l' ps = members l ps := by
  unfold members
  induction ps with
  | nil => rfl
  | cons p ps ih =>
    rw [List.filterMap_cons, List.filterMap_cons, portIndex_core (hp p List.mem_cons_self l l' h),
      ih (fun q hq => hp q (List.mem_cons_of_mem _ hq))]

theorem members_skip {l : List Netif} {p : PortSpec} {ps : List PortSpec} (h : portIndex (p.1 l) = none) :
    members l (p :: ps) = members l ps := by
  unfold members
  exact List.filterMap_cons_none (f := fun p : PortSpec => portIndex (p.1 l)) h

theorem members_take {l : List Netif} {p : PortSpec} {ps : List PortSpec} {i : Nat} (h : portIndex (p.1 l) = some i) :
    members l (p :: ps) = i :: members l ps := by
  unfold members
  exact List.filterMap_cons_some (f := fun p : PortSpec => portIndex (p.1 l)) h

theorem linkPorts_skip {parent : Nat} {p : PortSpec} {ps : List PortSpec} {l : List Netif} {cur : Nat}
    (h : portIndex (p.1 l) = none) : linkPorts parent (p :: ps) l cur = linkPorts parent ps l cur := by
  obtain ⟨look, f⟩ := p
  unfold portIndex at h
  conv => lhs; unfold linkPorts
  cases e : look l with
  | none => rfl
  | some s =>
    simp only [e, Option.bind_some] at h ⊢
    by_cases ht : s.type < NETIF_PARENT
    · rw [if_pos ht] at h; cases h
    · rw [if_neg ht]

theorem linkPorts_take {parent : Nat} {p : PortSpec} {ps : List PortSpec} {l : List Netif} {cur : Nat} {s : Netif}
    (h : p.1 l = some s) (ht : s.type < NETIF_PARENT) :
    linkPorts parent (p :: ps) l cur = linkPorts parent ps (linkPort parent p.2 l cur s.index) s.index := by
  obtain ⟨look, f⟩ := p
  dsimp only at h ⊢
  conv => lhs; unfold linkPorts
  rw [h]
  dsimp only
  rw [if_pos ht]

theorem linkPort_core {parent : Nat} {f : Netif → Netif} (hf : Tame f) (l : List Netif) (cur s : Nat) :
    (linkPort parent f l cur s).map core = l.map core := by
  unfold linkPort
  exact (setNetif_map core (fun n => { n with subif := some s }) _ _ (fun n => rfl)).trans
    (setNetif_map core (fun n => { f n with parent := some parent }) _ _ (fun n => (hf n).1))

theorem linkPorts_core {parent : Nat} {ps : List PortSpec} (hp : ∀ p ∈ ps, Looks p.1 ∧ Tame p.2) (l : List Netif)
    (cur : Nat) : (linkPorts parent ps l cur).map core = l.map core := by
  induction ps generalizing l cur with
  | nil => rfl
  | cons p ps ih =>
    obtain ⟨look, f⟩ := p
    unfold linkPorts
    have ih' := ih (fun q hq => hp q (List.mem_cons_of_mem _ hq))
    split
    · split
      · rw [ih', linkPort_core (hp _ List.mem_cons_self).2]
      · exact ih' l cur
    · exact ih' l cur

/-- Linking ports makes a chain of the members and changes nothing else. -/
theorem linkPorts_chain {parent : Nat} {ps : List PortSpec} (hp : ∀ p ∈ ps, Looks p.1 ∧ Tame p.2)
    (hmem : ∀ p ∈ ps, ∀ l s, p.1 l = some s → s ∈ l) (l : List Netif)
    (cur : Nat) (hnd : (members l ps).Nodup) (hcur : cur ∉ members l ps) (hin : cur ∈ l.map (·.index))
    (hsub : ∀ j, j = cur ∨ j ∈ members l ps → subOf l j = none) :
    Chain (subOf (linkPorts parent ps l cur)) cur (members l ps) ∧
    (∀ j, j ≠ cur → j ∉ members l ps → netifByIndex (linkPorts parent ps l cur) j = netifByIndex l j) ∧
    (∃ o, netifByIndex (linkPorts parent ps l cur) cur = (netifByIndex l cur).map (fun n => { n with subif := o })) ∧
    (∀ m ∈ members l ps, ∃ n, netifByIndex (linkPorts parent ps l cur) m = some n ∧
      n.parent = some parent ∧ n.child ≠ 0) := by
  induction ps generalizing l cur with
  | nil =>
    refine ⟨hsub cur (.inl rfl), fun _ _ _ => rfl, ?_, fun m hm => by cases hm⟩
    unfold linkPorts
    refine ⟨subOf l cur, ?_⟩
    unfold subOf
    cases e : netifByIndex l cur with
    | none => rfl
    | some n => simp
  | cons p ps ih =>
    obtain ⟨look, f⟩ := p
    have hp' := fun q hq => hp q (List.mem_cons_of_mem _ hq)
    have hmem' := fun q hq => hmem q (List.mem_cons_of_mem _ hq)
    cases e : look l with
    | none =>
      have h0 : portIndex (look l) = none := by rw [e]; rfl
      rw [members_skip h0] at hnd hcur hsub ⊢
      rw [linkPorts_skip h0]
      exact ih hp' hmem' l cur hnd hcur hin hsub
    | some s =>
      by_cases ht : s.type < NETIF_PARENT
      · have h0 : portIndex (look l) = some s.index := by rw [e]; simp only [portIndex, Option.bind_some, if_pos ht]
        rw [members_take h0] at hnd hcur hsub ⊢
        rw [linkPorts_take e ht]
        dsimp only
        have hsin : s.index ∈ l.map (·.index) := List.mem_map_of_mem (hmem _ List.mem_cons_self l s e)
        have hne : s.index ≠ cur := fun h => hcur (h ▸ List.mem_cons_self)
        obtain ⟨hf, hfs⟩ : Tame f ∧ True := ⟨(hp _ List.mem_cons_self).2, trivial⟩
        have hfi : ∀ n, (f n).index = n.index := fun n => core_index (hf n).1
        have hcore := linkPort_core (parent := parent) hf l cur s.index
        have hm1 : members (linkPort parent f l cur s.index) ps = members l ps :=
          members_core hcore (fun q hq => (hp' q hq).1)
        -- lookups after linking one port
        have hl1 : ∀ j, j ≠ cur → j ≠ s.index → netifByIndex (linkPort parent f l cur s.index) j = netifByIndex l j := by
          intro j h1 h2
          unfold linkPort
          rw [byIndex_set_ne _ _ _ (by intro _; rfl) h1,
            byIndex_set_ne _ _ (fun n => { f n with parent := some parent }) (fun n => hfi n) h2]
        have hlc : netifByIndex (linkPort parent f l cur s.index) cur =
            (netifByIndex l cur).map (fun n => { n with subif := some s.index }) := by
          unfold linkPort
          rw [byIndex_set_eq _ _ _ (by intro _; rfl),
            byIndex_set_ne _ _ (fun n => { f n with parent := some parent }) (fun n => hfi n) (Ne.symm hne)]
        have hls : netifByIndex (linkPort parent f l cur s.index) s.index =
            (netifByIndex l s.index).map (fun n => { f n with parent := some parent }) := by
          unfold linkPort
          rw [byIndex_set_ne _ _ _ (by intro _; rfl) hne,
            byIndex_set_eq _ _ (fun n => { f n with parent := some parent }) (fun n => hfi n)]
        have hnd' : (members (linkPort parent f l cur s.index) ps).Nodup := by
          rw [hm1]; exact (List.nodup_cons.mp hnd).2
        have hs' : s.index ∉ members (linkPort parent f l cur s.index) ps := by
          rw [hm1]; exact (List.nodup_cons.mp hnd).1
        have hsubs : subOf l s.index = none := hsub _ (.inr List.mem_cons_self)
        have hsub' : ∀ j, j = s.index ∨ j ∈ members (linkPort parent f l cur s.index) ps →
            subOf (linkPort parent f l cur s.index) j = none := by
          intro j hj
          rw [hm1] at hj
          unfold subOf
          rcases hj with rfl | hj
          · rw [hls]
            cases e' : netifByIndex l s.index with
            | none => rfl
            | some n =>
              simp only [Option.map_some, Option.bind_some]
              rw [(hf n).2.1]
              unfold subOf at hsubs
              rw [e'] at hsubs
              exact hsubs
          · have hjc : j ≠ cur := fun h => hcur (h ▸ List.mem_cons_of_mem _ hj)
            have hjs : j ≠ s.index := fun h => (List.nodup_cons.mp hnd).1 (h ▸ hj)
            rw [hl1 j hjc hjs]
            exact hsub j (.inr (List.mem_cons_of_mem _ hj))
        obtain ⟨hc, hrest, ⟨o, hcur'⟩, hpar⟩ := ih hp' hmem' (linkPort parent f l cur s.index) s.index hnd' hs'
          (by rw [map_index_of_core hcore]; exact hsin) hsub'
        rw [hm1] at hc hrest hpar
        have hcm : cur ∉ members l ps := fun h => hcur (List.mem_cons_of_mem _ h)
        have hfc := hrest cur (Ne.symm hne) hcm
        refine ⟨⟨?_, hc⟩, ?_, ?_, ?_⟩
        · unfold subOf
          rw [hfc, hlc]
          obtain ⟨n, hn⟩ := byIndex_exists hin
          rw [hn]; rfl
        · intro j h1 h2
          have hjs : j ≠ s.index := fun h => h2 (h ▸ List.mem_cons_self)
          have hjm : j ∉ members l ps := fun h => h2 (List.mem_cons_of_mem _ h)
          rw [hrest j hjs hjm, hl1 j h1 hjs]
        · exact ⟨some s.index, by rw [hfc, hlc]⟩
        · intro m hm
          rcases List.mem_cons.mp hm with rfl | hm
          · obtain ⟨n, hn⟩ := byIndex_exists hsin
            rw [hcur', hls, hn]
            exact ⟨_, rfl, rfl, (hf n).2.2⟩
          · exact hpar m hm
      · have h0 : portIndex (look l) = none := by rw [e]; simp only [portIndex, Option.bind_some, if_neg ht]
        rw [members_skip h0] at hnd hcur hsub ⊢
        rw [linkPorts_skip h0]
        exact ih hp' hmem' l cur hnd hcur hin hsub

end Ladvd
