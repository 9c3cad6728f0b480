import Verif.Lemmas.Details
import Verif.Props.Fetch
/-!
# C51: details of the interface records

Kind of aggregation, VLAN, device, role of the ports and the chassis address after a refresh of the interface list.
-/

namespace Ladvd.Props

open Spec

/-- A system with a failover team of eth0 and eth1, of which eth1 is active, an LACP bond of eth2 and eth3 (with a
failed query in front), a VLAN on the team and one on an unknown interface. -/
def teamKernel : Kernel where
  ifaddrs := some [
    ⟨lit "eth0", .link true 2 (sampleHw 1)⟩, ⟨lit "eth1", .link true 3 (sampleHw 2)⟩, ⟨lit "eth2", .link true 4 (sampleHw 3)⟩,
    ⟨lit "eth3", .link true 5 (sampleHw 4)⟩, ⟨lit "team0", .link true 6 (sampleHw 1)⟩, ⟨lit "bond0", .link true 7 (sampleHw 3)⟩,
    ⟨lit "vlan9", .link true 8 (sampleHw 1)⟩, ⟨lit "vlan8", .link true 9 (sampleHw 1)⟩]
  up := fun _ => true
  probe := fun i _ =>
    if i = 6 then { driver := lit "team" } else if i = 7 then { driver := lit "bonding" }
    else if i ≥ 8 then { vlan := true } else { device := true }
  alias := fun _ => none
  deviceId := fun i => if i = 2 then some (lit "82574L") else none
  team := fun i => if i = 6 then some { mode := 2, active := 3, ports := [2, 3] } else none
  bond := fun n => if n = lit "bond0" then some ⟨4, [none, some (lit "eth3", true), some (lit "eth2", false)]⟩ else none
  vlan := fun n => if n = lit "vlan9" then some (lit "team0", some 70000) else some (lit "ppp0", some 3)

/-- The announced kind of aggregation is that of the kernel. -/
theorem C51_mode (o : Opts) (names : List Bytes) (m : Mgmt) (k : Kernel) (s : Ifs) (addrs : List IfAddr)
    (h : k.ifaddrs = some addrs) (hok : ListOk k addrs) (hs : (s.netifs.map (·.index)).Nodup) :
    ∀ n ∈ (netifFetch o names m k s).1.netifs, n.bondingMode = modeOf k n := by
  intro n hn
  obtain ⟨x, hx, e⟩ := fetch_known o names m k s h hok hs hn
  obtain ⟨l, hl, rfl⟩ := listed_record hs hx
  have hc : core n = core (recordOf k (netifByIndex s.netifs l.index) l) := by
    refine (congrArg Prod.fst e).trans ?_
    show core (ownStep _ _ _) = _
    unfold ownStep; repeat' split
    all_goals rfl
  have hb : n.bondingMode = (ownStep k (listed k s.netifs (usables k addrs)) (recordOf k (netifByIndex s.netifs l.index) l)).bondingMode :=
    congrArg (fun x => x.2.1) e
  rw [hb]
  unfold modeOf
  rw [core_type hc, core_index hc, core_name hc]
  generalize recordOf k (netifByIndex s.netifs l.index) l = x at hx ⊢
  obtain ⟨y, hy, hyx⟩ := listed_record hs hx
  have h0 : x.bondingMode = 0 := by rw [hyx]; rfl
  unfold ownStep
  by_cases h11 : x.type = 11
  · rw [if_pos h11, if_neg (by omega), if_pos h11]
    cases k.team x.index with
    | none => exact h0
    | some t => rfl
  · rw [if_neg h11]
    by_cases h12 : x.type = 12
    · rw [if_pos h12, if_pos h12]
      cases k.bond x.name with
      | none => exact h0
      | some b =>
        dsimp only
        split
        · rename_i hm; rw [hm]; rfl
        · split
          · rename_i hm; rw [hm]; rfl
          · rename_i h4 h1
            split
            · rename_i hm; exact absurd hm h4
            · rename_i hm; exact absurd hm h1
            · exact h0
    · rw [if_neg h12, if_neg h12, if_neg h11]
      split
      · split
        · exact h0
        · split
          · exact h0
          · exact h0
      · split
        · split
          · exact h0
          · exact h0
        · exact h0

example : (netifFetch 0 [] {} teamKernel {}).1.netifs.map (fun n => (n.name, n.bondingMode)) =
    [(lit "eth0", 0), (lit "eth1", 0), (lit "eth2", 0), (lit "eth3", 0), (lit "team0", 2), (lit "bond0", 1), (lit "vlan9", 0),
     (lit "vlan8", 0)] := by decide +kernel
example : (netifFetch 0 [] {} sampleKernel sampleBefore).1.netifs.map (fun n => (n.name, n.bondingMode)) =
    [(lit "eth2", 0), (lit "eth0", 0), (lit "eth1", 0), (lit "bond0", 2), (lit "br0", 0), (lit "bond0.5", 0)] := by decide +kernel
example : ListOk teamKernel (teamKernel.ifaddrs.getD []) := by decide +kernel

/-- A VLAN interface knows the interface below it and its id, nothing else has them. -/
theorem C51_vlan (o : Opts) (names : List Bytes) (m : Mgmt) (k : Kernel) (s : Ifs) (addrs : List IfAddr)
    (h : k.ifaddrs = some addrs) (hok : ListOk k addrs) (hs : (s.netifs.map (·.index)).Nodup) :
    let l := (netifFetch o names m k s).1.netifs
    ∀ n ∈ l, (n.vlanParent, n.vlanId) = vlanOf k l n := by
  intro L n hn
  obtain ⟨x, hx, e⟩ := fetch_known o names m k s h hok hs hn
  have hc : core n = core x := by
    refine (congrArg Prod.fst e).trans ?_
    show core (ownStep _ _ _) = _
    unfold ownStep; repeat' split
    all_goals rfl
  have hLc : L.map core = (listed k s.netifs (usables k addrs)).map core := by
    have := core_of_ident (netifFetch_ident o names m k s h hok hs)
    exact this.trans (detected_core k _ _)
  have hp : n.vlanParent = (ownStep k (listed k s.netifs (usables k addrs)) x).vlanParent := congrArg (fun x => x.2.2.2.1) e
  have hi : n.vlanId = (ownStep k (listed k s.netifs (usables k addrs)) x).vlanId := congrArg (fun x => x.2.2.1) e
  rw [hp, hi]
  obtain ⟨y, hy, hyx⟩ := listed_record hs hx
  have h1 : x.vlanParent = 0 := by rw [hyx]; rfl
  have h2 : x.vlanId = 0 := by rw [hyx]; rfl
  unfold vlanOf
  rw [core_type hc, core_name hc]
  unfold ownStep
  by_cases hv : x.type = -1
  · rw [if_pos hv, if_neg (by omega), if_neg (by omega), if_pos hv]
    cases k.vlan x.name with
    | none => rw [h1, h2]
    | some r =>
      dsimp only
      have hw := withName_core hLc r.1
      rw [withName_eq (listed k s.netifs (usables k addrs))] at hw
      cases ew : withName L r.1 with
      | none =>
        rw [ew] at hw
        cases el : netifByName (listed k s.netifs (usables k addrs)) r.1 with
        | none => dsimp only; rw [h1, h2]
        | some p => rw [el] at hw; cases hw
      | some p' =>
        rw [ew] at hw
        cases el : netifByName (listed k s.netifs (usables k addrs)) r.1 with
        | none => rw [el] at hw; cases hw
        | some p =>
          rw [el] at hw
          have hpp : core p' = core p := by simpa using hw
          dsimp only
          rw [core_index hpp, h2]
          cases r.2 <;> rfl
  · rw [if_neg hv, if_neg hv]
    repeat' split
    all_goals rw [h1, h2]

example : (netifFetch 0 [] {} teamKernel {}).1.netifs.map (fun n => (n.vlanParent, n.vlanId)) =
    [(0, 0), (0, 0), (0, 0), (0, 0), (0, 0), (0, 0), (6, 4464), (0, 0)] := by decide +kernel

/-- The device of a physical interface is looked up once, and kept by later refreshes. -/
theorem C51_device (o : Opts) (names : List Bytes) (m : Mgmt) (k : Kernel) (s : Ifs) (addrs : List IfAddr)
    (h : k.ifaddrs = some addrs) (hok : ListOk k addrs) (hs : (s.netifs.map (·.index)).Nodup) :
    ∀ n ∈ (netifFetch o names m k s).1.netifs,
      let before := (withIndex s.netifs n.index).map (fun o => (o.deviceIdentified, o.deviceName))
      (n.deviceIdentified, n.deviceName) =
        if n.type = 0 ∧ (before.getD (0, [])).1 = 0 then
          (1, ((k.deviceId n.index).map (fun d => (d.takeWhile (· ≠ 0)).take 63)).getD (before.getD (0, [])).2)
        else before.getD (0, []) := by
  intro n hn before
  obtain ⟨x, hx, e⟩ := fetch_known o names m k s h hok hs hn
  have hc : core n = core x := by
    refine (congrArg Prod.fst e).trans ?_
    show core (ownStep _ _ _) = _
    unfold ownStep; repeat' split
    all_goals rfl
  have hp : n.deviceIdentified = (ownStep k (listed k s.netifs (usables k addrs)) x).deviceIdentified :=
    congrArg (fun x => x.2.2.2.2.2) e
  have hi : n.deviceName = (ownStep k (listed k s.netifs (usables k addrs)) x).deviceName := congrArg (fun x => x.2.2.2.2.1) e
  rw [hp, hi]
  obtain ⟨y, hy, hyx⟩ := listed_record hs hx
  have hxi : x.index = y.index := by rw [hyx]; rfl
  have hb : before.getD (0, []) = (x.deviceIdentified, x.deviceName) := by
    show ((withIndex s.netifs n.index).map _).getD _ = _
    rw [core_index hc, withIndex_eq, hxi, hyx]
    cases netifByIndex s.netifs y.index <;> rfl
  rw [hb, core_type hc, core_index hc]
  unfold ownStep
  by_cases h0 : x.type = 0
  · rw [if_neg (by omega), if_neg (by omega), if_neg (by omega), if_pos h0]
    by_cases hd : x.deviceIdentified = 0
    · rw [if_neg (by simp [hd]), if_pos ⟨h0, hd⟩]
      rfl
    · rw [if_pos hd, if_neg (fun h => hd h.2)]
  · have hr : ¬ (x.type = 0 ∧ (x.deviceIdentified, x.deviceName).1 = 0) := fun h => h0 h.1
    rw [if_neg h0, if_neg hr]
    repeat' split
    all_goals rfl

example : (netifFetch 0 [] {} teamKernel {}).1.netifs.map (fun n => (n.deviceIdentified, n.deviceName)) =
    [(1, lit "82574L"), (1, []), (1, []), (1, []), (0, []), (0, []), (0, []), (0, [])] := by decide +kernel
example : ((netifFetch 0 [] {} { teamKernel with deviceId := fun _ => none } (netifFetch 0 [] {} teamKernel {}).1).1.netifs.map
    (fun n => (n.deviceIdentified, n.deviceName))).take 2 = [(1, lit "82574L"), (1, [])] := by decide +kernel

/-- Every port has the role and position the kernel reports; interfaces that are not ports have none. -/
theorem C51_role (o : Opts) (names : List Bytes) (m : Mgmt) (k : Kernel) (s : Ifs) (addrs : List IfAddr)
    (h : k.ifaddrs = some addrs) (hok : ListOk k addrs) (hs : (s.netifs.map (·.index)).Nodup)
    (hk : KernelOk k (netifFetch o names m k s).1.netifs) :
    let l := (netifFetch o names m k s).1.netifs
    ∀ p ∈ l, (∀ a ∈ l, p.index ∈ portsOf k l a → RoleIn k l a p.index p.child p.lacpIndex) ∧
      ((∀ a ∈ l, p.index ∉ portsOf k l a) → p.child = 0 ∧ p.lacpIndex = 0) := by
  intro l p hp
  have hi0 := listed_index_nodup k hs hok.index
  have hf := netifFetch_fixed role_fixed o names m k s h hok hs
  have hlc : l.map core = (listed k s.netifs (usables k addrs)).map core :=
    (core_of_ident (netifFetch_ident o names m k s h hok hs)).trans (detected_core k _ _)
  have hk0 : KernelOk k (listed k s.netifs (usables k addrs)) := kernelOk_core hlc.symm hi0 hk
  have hI := role_all hi0 hk0 (by
    intro x hx
    obtain ⟨y, hy, hyx⟩ := listed_record hs hx
    rw [hyx]; rfl)
  change RoleInv k _ _ (detected k s.netifs (usables k addrs)) at hI
  have hdi : ((detected k s.netifs (usables k addrs)).map (·.index)).Nodup := by
    rw [map_index_of_core (detected_core k _ _)]; exact hi0
  obtain ⟨d, hd, e⟩ : ∃ d ∈ detected k s.netifs (usables k addrs), (core d, role d) = (core p, role p) := by
    have : (core p, role p) ∈ (detected k s.netifs (usables k addrs)).map (fun n => (core n, role n)) :=
      hf ▸ List.mem_map.mpr ⟨p, hp, rfl⟩
    obtain ⟨d, hd, e⟩ := List.mem_map.mp this
    exact ⟨d, hd, e⟩
  have hdp : core d = core p := congrArg Prod.fst e
  have hrp : roleAt (detected k s.netifs (usables k addrs)) p.index = some (p.child, p.lacpIndex) := by
    unfold roleAt
    rw [← core_index hdp, byIndex_of_mem hdi hd]
    exact congrArg some (congrArg Prod.snd e)
  constructor
  · intro a ha hpa
    obtain ⟨a0, ha0, ea⟩ := mem_of_core hlc ha
    rw [portsOf_core k hlc ea.symm] at hpa
    obtain ⟨c, x, h1, h2⟩ := hI.port a0 ha0 (List.mem_map.mpr ⟨a0, ha0, rfl⟩) _ hpa
    rw [hrp] at h1
    cases h1
    exact roleIn_core hlc ea.symm h2
  · intro hfree
    have hr := hI.rest p.index (by
      intro a0 ha0 _ hpa
      obtain ⟨a, ha, ea⟩ := mem_of_core hlc.symm ha0
      rw [portsOf_core k hlc.symm ea.symm] at hpa
      exact hfree a ha hpa)
    rw [hrp] at hr
    unfold roleAt at hr
    cases ex : netifByIndex (listed k s.netifs (usables k addrs)) p.index with
    | none => rw [ex] at hr; cases hr
    | some x =>
      rw [ex] at hr
      obtain ⟨y, hy, hyx⟩ := listed_record hs (byIndex_mem ex)
      simp only [Option.map_some, Option.some.injEq] at hr
      have h1 : p.child = x.child := congrArg Prod.fst hr
      have h2 : p.lacpIndex = x.lacpIndex := congrArg Prod.snd hr
      rw [h1, h2, hyx]
      exact ⟨rfl, rfl⟩

/-- The roles are determined by the kernel's answers. -/
theorem C51_role_unique {k : Kernel} {l : List Netif} {n : Netif} (hl : (l.map (·.index)).Nodup)
    (hk : (portsOf k l n).Nodup) {j c x c' x' : Nat}
    (hj : j ∈ portsOf k l n) (h : RoleIn k l n j c x) (h' : RoleIn k l n j c' x') : c = c' ∧ x = x' := by
  rcases h with ⟨t1, rfl, t, e1, e2⟩ | ⟨t1, b, i, s, e1, e2, e3, rfl, rfl⟩ | ⟨t1, rfl, rfl⟩
  · rcases h' with ⟨-, rfl, t', e1', e2'⟩ | ⟨t2, -⟩ | ⟨t2, -⟩
    · rw [e1] at e1'; cases e1'; exact ⟨e2.trans e2'.symm, rfl⟩
    · omega
    · omega
  · rcases h' with ⟨t2, -⟩ | ⟨-, b', i', s', e1', e2', e3', rfl, rfl⟩ | ⟨t2, -⟩
    · omega
    · rw [e1] at e1'
      cases e1'
      suffices i = i' by
        subst this
        rw [e2] at e2'
        cases e2'
        exact ⟨rfl, rfl⟩
      have hport : ∀ s : Bytes × Bool, (withName l s.1).map (·.index) = some j → portIndex (withName l s.1) = some j := by
        intro s hs
        obtain ⟨⟨y, hy, hyj, hyt⟩, -⟩ := portsOf_mem hj
        cases ew : withName l s.1 with
        | none => rw [ew] at hs; cases hs
        | some z =>
          rw [ew] at hs
          simp only [Option.map_some, Option.some.injEq] at hs
          have hz : z ∈ l := by rw [withName_eq] at ew; exact byName_mem ew
          have := index_unique hl hz hy (by rw [hs, hyj])
          subst this
          simp only [portIndex, Option.bind_some]
          rw [if_pos (show z.type < NETIF_PARENT from hyt), hs]
      have hP : portsOf k l n = b.slaves.filterMap (fun o => o.bind (fun s => portIndex (withName l s.1))) := by
        unfold portsOf
        dsimp only
        rw [if_neg (by omega), if_pos t1, e1, filter_ports]
        dsimp only
        rw [List.filterMap_map, List.filterMap_filterMap]
        rfl
      rw [hP] at hk
      exact filterMap_once hk e2 e2' (hport s e3) (hport s' e3')
    · omega
  · rcases h' with ⟨t2, -⟩ | ⟨t2, -⟩ | ⟨-, rfl, rfl⟩
    · omega
    · omega
    · exact ⟨rfl, rfl⟩

example : (netifFetch 0 [] {} teamKernel {}).1.netifs.map (fun n => (n.name, n.child, n.lacpIndex)) =
    [(lit "eth0", 2, 0), (lit "eth1", 1, 0), (lit "eth2", 1, 2), (lit "eth3", 2, 1), (lit "team0", 0, 0), (lit "bond0", 0, 0),
     (lit "vlan9", 0, 0), (lit "vlan8", 0, 0)] := by decide +kernel
example : KernelOk teamKernel (netifFetch 0 [] {} teamKernel {}).1.netifs := by decide +kernel

/-- The chassis is identified by the address of the first interface. -/
theorem C51_chassis (o : Opts) (names : List Bytes) (m : Mgmt) (k : Kernel) (s : Ifs) (addrs : List IfAddr)
    (h : k.ifaddrs = some addrs) :
    let r := (netifFetch o names m k s).1
    r.sys.hwaddr = ((r.netifs.head?).map (·.hwaddr)).getD s.sys.hwaddr := by
  intro r
  exact fetch_chassis o names m k s h

example : (netifFetch 0 [] {} sampleKernel sampleBefore).1.sys.hwaddr = [2, 0, 0, 0, 0, 3] := by decide +kernel

end Ladvd.Props
