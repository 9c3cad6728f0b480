import Verif.Lemmas.Refs
import Verif.Lemmas.Netif
/-!
# C29, C34, C40, C41: the interface list

All theorems speak about the state after a refresh of the list (`netifFetch`).
-/

namespace Ladvd.Props

open Spec

/-! ## Sample data -/

/-- A hardware address. -/
def sampleHw (b : UInt8) : Bytes := [2, 0, 0, 0, 0, b, 0, 0]

/-- A system with a loopback device, four Ethernet ports of which eth3 is down, a bond of eth0 and eth1 (with a failed query
in between), a bridge with eth2, and a VLAN on the bond.  eth0 and bond0 have addresses. -/
def sampleAddrs : List IfAddr := [
  ⟨lit "lo", .link false 1 (sampleHw 0)⟩, ⟨lit "eth0", .link true 2 (sampleHw 1)⟩, ⟨lit "eth1", .link true 3 (sampleHw 2)⟩,
  ⟨lit "eth2", .link true 4 (sampleHw 3)⟩, ⟨lit "eth3", .link true 5 (sampleHw 4)⟩, ⟨lit "bond0", .link true 6 (sampleHw 1)⟩,
  ⟨lit "br0", .link true 7 (sampleHw 3)⟩, ⟨lit "bond0.5", .link true 8 (sampleHw 1)⟩, ⟨lit "tap0", .absent⟩,
  ⟨lit "lo", .inet [127, 0, 0, 1]⟩, ⟨lit "bond0", .inet [10, 0, 0, 1]⟩, ⟨lit "bond0", .inet [10, 0, 0, 2]⟩,
  ⟨lit "eth0", .inet [0, 0, 0, 0]⟩, ⟨lit "eth0", .inet [10, 0, 9, 1]⟩,
  ⟨lit "bond0", .inet6 [0xfe, 0x80, 0, 0, 0, 0, 0, 0, 0, 0, 0, 0, 0, 0, 0, 1]⟩,
  ⟨lit "bond0", .inet6 [0x20, 1, 0, 0, 0, 0, 0, 0, 0, 0, 0, 0, 0, 0, 0, 1]⟩]

/-- The kernel of that system. -/
def sampleKernel : Kernel where
  ifaddrs := some sampleAddrs
  up := fun n => n ≠ lit "eth3"
  probe := fun i _ =>
    if i = 6 then { driver := lit "bonding" } else if i = 7 then { driver := lit "bridge" }
    else if i = 8 then { vlan := true } else { device := true }
  alias := fun i => if i = 4 then some (lit "uplink") else none
  bond := fun n => if n = lit "bond0" then some ⟨1, [some (lit "eth1", false), none, some (lit "eth0", true)]⟩ else none
  bridge := fun n => if n = lit "br0" then some [4, 99] else none
  vlan := fun n => if n = lit "bond0.5" then some (lit "bond0", some 5) else none

/-- Its state before: eth2 was known, and a port that vanished meanwhile. -/
def sampleBefore : Ifs :=
  { netifs := [{ index := 9, name := lit "eth9", hwaddr := [2, 0, 0, 0, 0, 9] },
               { index := 4, name := lit "eth2", hwaddr := [2, 0, 0, 0, 0, 3], protos := 2, linkEvent := 3 }] }

/-! ## C29 Interface traversal visits each selected interface once -/

/-- The traversal visits the selected interfaces, each once, in order. -/
theorem C29_traverse (o : Opts) (l : List Netif) : netifTraverse o l = l.filter (fun n => selected o n) := by
  rw [netifTraverse_eq]
  apply List.filter_congr
  intro n _
  have hb : o.has OPT_ARGV = o.testBit 5 := rfl
  have h10 : decide (n.type > NETIF_PARENT) = decide (n.type > 10) := rfl
  have hsub : n.subif.isNone = true ↔ n.subif = none := Option.isNone_iff_eq_none
  rw [Bool.eq_iff_iff, decide_eq_true_eq]
  unfold netifSkip selected
  rw [hb, h10]
  have hss : n.subif.isSome = true ↔ ¬ n.subif = none := Option.isSome_iff_ne_none
  by_cases h5 : o.testBit 5 = true
  · rw [if_pos h5, h5]
    simp [hss]
    grind
  · rw [if_neg h5, Bool.not_eq_true _ |>.mp h5]
    simp [hss]
    grind

example : (netifTraverse 0 (netifFetch 0 [] {} sampleKernel sampleBefore).1.netifs).map (·.name) =
    [lit "bond0", lit "br0", lit "bond0.5"] := by decide +kernel
example : (netifTraverse (1 <<< 5) (netifFetch (1 <<< 5) [lit "eth2", lit "bond0"] {} sampleKernel {}).1.netifs).map (·.name) =
    [lit "eth2", lit "bond0"] := by decide +kernel

/-- Under the assumption that the kernel reports every port once and for one aggregate only (`KernelOk`; see
`C29_duplicate_port` for what happens otherwise):
after a refresh, the traversal of the ports of an interface ends and yields: for an aggregate exactly the ports the
kernel reported, in this order, each once; for a plain interface the interface itself; for a VLAN nothing. -/
theorem C29_ports_partial (o : Opts) (names : List Bytes) (m : Mgmt) (k : Kernel) (s : Ifs) (addrs : List IfAddr)
    (h : k.ifaddrs = some addrs) (hok : ListOk k addrs) (hs : (s.netifs.map (·.index)).Nodup)
    (hk : KernelOk k (netifFetch o names m k s).1.netifs) :
    let l := (netifFetch o names m k s).1.netifs
    ∀ n ∈ l, ∃ ps, ports l n = .ok ps ∧ (∀ p ∈ ps, p ∈ l) ∧ (ps.map (·.index)).Nodup ∧
      ps.map (·.index) = (if n.type > 10 then portsOf k l n else if n.type < 0 then [] else [n.index]) := by
  intro l n hn
  have hL := detected_linked hs hok (netifFetch_ident o names m k s h hok hs) hk
  by_cases ht : n.type > 10
  · have hin : ∀ m ∈ portsOf k l n, m ∈ l.map (·.index) := by
      intro m hm
      obtain ⟨⟨x, hx, hxm, -⟩, -⟩ := portsOf_mem hm
      exact List.mem_map.mpr ⟨x, hx, hxm⟩
    have hnot : n.index ∉ portsOf k l n := by
      intro hm
      obtain ⟨⟨x, hx, hxm, hxt⟩, -⟩ := portsOf_mem hm
      have := index_unique hL.nodup hx hn hxm
      subst this
      omega
    refine ⟨_, ports_chain hL.nodup hn ht (hk.nodup n hn) hnot hin (hL.chain n hn ht), ?_, ?_, ?_⟩
    · intro p hp
      obtain ⟨i, _, hi⟩ := List.mem_filterMap.mp hp
      exact byIndex_mem hi
    · rw [filterMap_byIndex hin]; exact hk.nodup n hn
    · rw [if_pos ht, filterMap_byIndex hin]
  · rw [if_neg ht]
    by_cases h0 : n.type < 0
    · exact ⟨[], ports_vlan l h0, fun _ h => (nomatch h), List.nodup_nil, by rw [if_pos h0]; rfl⟩
    · refine ⟨[n], ports_plain l (by omega) ?_, ?_, ?_, ?_⟩
      · have := hL.type n hn
        unfold TypeOk at this
        omega
      · intro p hp; rw [List.mem_singleton.mp hp]; exact hn
      · exact List.nodup_cons.mpr ⟨List.not_mem_nil, List.nodup_nil⟩
      · rw [if_neg h0]; rfl

example : ListOk sampleKernel sampleAddrs ∧ (sampleBefore.netifs.map (·.index)).Nodup ∧
    KernelOk sampleKernel (netifFetch 0 [] {} sampleKernel sampleBefore).1.netifs := by decide +kernel
example : (netifFetch 0 [] {} sampleKernel sampleBefore).1.netifs.map (fun n =>
      (n.name, (match ports (netifFetch 0 [] {} sampleKernel sampleBefore).1.netifs n with
        | .ok ps => ps.map (·.index) | _ => [0]))) =
    [(lit "eth2", [4]), (lit "eth0", [2]), (lit "eth1", [3]), (lit "bond0", [3, 2]), (lit "br0", [4]), (lit "bond0.5", [])] := by
  decide +kernel

/-- Without interfaces on the command line, the traversal visits exactly the interfaces that are not ports of an
aggregate, and the aggregates that have ports. -/
theorem C29_selected_partial (o : Opts) (names : List Bytes) (m : Mgmt) (k : Kernel) (s : Ifs) (addrs : List IfAddr)
    (h : k.ifaddrs = some addrs) (hok : ListOk k addrs) (hs : (s.netifs.map (·.index)).Nodup)
    (hk : KernelOk k (netifFetch o names m k s).1.netifs) (ho : o.testBit 5 = false) :
    let l := (netifFetch o names m k s).1.netifs
    netifTraverse o l =
      l.filter (fun n => (∀ a ∈ l, n.index ∉ portsOf k l a) ∧ (n.type > 10 → portsOf k l n ≠ [])) := by
  intro l
  have hL := detected_linked hs hok (netifFetch_ident o names m k s h hok hs) hk
  rw [C29_traverse]
  apply List.filter_congr
  intro n hn
  rw [decide_eq_decide]
  unfold selected
  rw [ho]
  rw [if_neg Bool.false_ne_true]
  have h1 : n.child = 0 ↔ ∀ a ∈ l, n.index ∉ portsOf k l a := by
    constructor
    · intro hc a ha hm
      obtain ⟨x, hx, hxi, -, hxc⟩ := hL.member a ha _ hm
      have := index_unique hL.nodup hx hn hxi
      subst this
      exact hxc hc
    · intro hf; exact (hL.free n hn hf).2
  have h2 : n.type > 10 → (n.subif ≠ none ↔ portsOf k l n ≠ []) := by
    intro ht
    have hc := hL.chain n hn ht
    have hsub : subOf l n.index = n.subif := by
      unfold subOf; rw [byIndex_of_mem hL.nodup hn]; rfl
    cases e : portsOf k l n with
    | nil =>
      rw [e] at hc
      have : n.subif = none := hsub ▸ hc
      simp [this]
    | cons a as =>
      rw [e] at hc
      have : n.subif = some a := hsub ▸ hc.1
      simp [this]
  rw [h1]
  constructor
  · rintro ⟨a, b⟩; exact ⟨a, fun ht => (h2 ht).mp (b ht)⟩
  · rintro ⟨a, b⟩; exact ⟨a, fun ht => (h2 ht).mpr (b ht)⟩

example : (netifFetch 0 [] {} sampleKernel sampleBefore).1.netifs.map (fun n =>
      (n.name, portsOf sampleKernel (netifFetch 0 [] {} sampleKernel sampleBefore).1.netifs n)) =
    [(lit "eth2", []), (lit "eth0", []), (lit "eth1", []), (lit "bond0", [3, 2]), (lit "br0", [4]), (lit "bond0.5", [])] := by
  decide +kernel

/-- The members of an aggregate know it, and the other interfaces belong to none. -/
theorem C29_parent_partial (o : Opts) (names : List Bytes) (m : Mgmt) (k : Kernel) (s : Ifs) (addrs : List IfAddr)
    (h : k.ifaddrs = some addrs) (hok : ListOk k addrs) (hs : (s.netifs.map (·.index)).Nodup)
    (hk : KernelOk k (netifFetch o names m k s).1.netifs) :
    let l := (netifFetch o names m k s).1.netifs
    ∀ p ∈ l, ∀ i, p.parent = some i ↔ ∃ a ∈ l, a.index = i ∧ p.index ∈ portsOf k l a := by
  intro l p hp i
  have hL := detected_linked hs hok (netifFetch_ident o names m k s h hok hs) hk
  constructor
  · intro hpar
    by_cases hex : ∃ a ∈ l, p.index ∈ portsOf k l a
    · obtain ⟨a, ha, hm⟩ := hex
      obtain ⟨x, hx, hxi, hxp, -⟩ := hL.member a ha _ hm
      have := index_unique hL.nodup hx hp hxi
      subst this
      rw [hpar] at hxp
      exact ⟨a, ha, (Option.some.inj hxp).symm, hm⟩
    · have := (hL.free p hp (fun a ha hm => hex ⟨a, ha, hm⟩)).1
      rw [hpar] at this
      cases this
  · rintro ⟨a, ha, rfl, hm⟩
    obtain ⟨x, hx, hxi, hxp, -⟩ := hL.member a ha _ hm
    have := index_unique hL.nodup hx hp hxi
    subst this
    exact hxp

example : (netifFetch 0 [] {} sampleKernel sampleBefore).1.netifs.map (fun n => (n.name, n.parent)) =
    [(lit "eth2", some 7), (lit "eth0", some 6), (lit "eth1", some 6), (lit "bond0", none), (lit "br0", none), (lit "bond0.5", none)] := by
  decide +kernel

/-- A bond that is reported with the same port twice, as may happen when the configuration changes between the queries. -/
def dupKernel : Kernel where
  ifaddrs := some [⟨lit "eth0", .link true 2 (sampleHw 1)⟩, ⟨lit "bond0", .link true 6 (sampleHw 1)⟩]
  probe := fun i _ => if i = 6 then { driver := lit "bonding" } else { device := true }
  bond := fun _ => some ⟨4, [some (lit "eth0", false), some (lit "eth0", false)]⟩

/-- Then the port becomes its own successor: a traversal of the ports never ends, however long it runs. -/
theorem C29_duplicate_port : ∃ n ∈ (netifFetch 0 [] {} dupKernel {}).1.netifs, n.name = lit "bond0" ∧
    ∀ fuel, subifLoop (netifFetch 0 [] {} dupKernel {}).1.netifs n fuel none = .stuck := by
  have key : ∃ b e : Netif, (netifFetch 0 [] {} dupKernel {}).1.netifs = [e, b] ∧ b.name = lit "bond0" ∧
      subifIter [e, b] none b = some e ∧ subifIter [e, b] (some e) b = some e := by
    have h2 : (netifFetch 0 [] {} dupKernel {}).1.netifs.length = 2 := by decide +kernel
    have h3 : ∀ b e : Netif, (netifFetch 0 [] {} dupKernel {}).1.netifs = [e, b] → b.name = lit "bond0" ∧
      subifIter [e, b] none b = some e ∧ subifIter [e, b] (some e) b = some e := by
      intro b e h
      have hb : b = (netifFetch 0 [] {} dupKernel {}).1.netifs.getD 1 ⟨0, [], [], [], 0, 0, 0, 0, 0, 0, [], [], 0, 0, 0, 0, 0, 0, 0, 0, 0, none, none, 0, 0, []⟩ := by rw [h]; rfl
      have he : e = (netifFetch 0 [] {} dupKernel {}).1.netifs.getD 0 ⟨0, [], [], [], 0, 0, 0, 0, 0, 0, [], [], 0, 0, 0, 0, 0, 0, 0, 0, 0, none, none, 0, 0, []⟩ := by rw [h]; rfl
      subst hb he
      decide +kernel
    match hl : (netifFetch 0 [] {} dupKernel {}).1.netifs, h2 with
    | [e, b], _ => exact ⟨b, e, rfl, h3 b e hl⟩
  obtain ⟨b, e, hl, hn, h1, h2⟩ := key
  rw [hl]
  refine ⟨b, by simp, hn, ?_⟩
  have hloop : ∀ fuel, subifLoop [e, b] b fuel (some e) = .stuck := by
    intro fuel
    induction fuel with
    | zero => rfl
    | succ f ih => unfold subifLoop; rw [h2]; dsimp only; rw [ih]; rfl
  intro fuel
  cases fuel with
  | zero => rfl
  | succ f => unfold subifLoop; rw [h1]; dsimp only; rw [hloop]; rfl

/-! ## C34 Management address choice -/

/-- State of the addresses after the loop over them. -/
theorem own_all (k : Kernel) (s : Ifs) {addrs : List IfAddr} (hok : ListOk k addrs) (hs : (s.netifs.map (·.index)).Nodup) :
    ∀ n ∈ (detected k s.netifs (usables k addrs)).map (addrsNetif addrs),
      n.ipaddr4 = own4 addrs n.name ∧ n.ipaddr6 = own6 addrs n.name ∧
      n.hwaddr = (((hwOf addrs n.name).getLast?).map (·.take 6)).getD [0, 0, 0, 0, 0, 0] ∧ n.argv = 0 := by
  intro n hn
  obtain ⟨d, hd, rfl⟩ := List.mem_map.mp hn
  have hadr : (detected k s.netifs (usables k addrs)).map adr = (listed k s.netifs (usables k addrs)).map adr :=
    detect_fold_adr k _ _
  have hd0 : adr d = ([0, 0, 0, 0], [0, 0, 0, 0, 0, 0, 0, 0, 0, 0, 0, 0, 0, 0, 0, 0], [0, 0, 0, 0, 0, 0], 0) :=
    map_forall (P := fun x => x = ([0, 0, 0, 0], [0, 0, 0, 0, 0, 0, 0, 0, 0, 0, 0, 0, 0, 0, 0, 0], [0, 0, 0, 0, 0, 0], 0))
      hadr (fun x hx => (recordOf_type hs hx).2.2.2.2) d hd
  unfold adr at hd0
  simp only [Prod.mk.injEq] at hd0
  obtain ⟨d4, d6, dh, da⟩ := hd0
  have hn4 : ¬ configured d.ipaddr4 := by rw [d4]; decide
  have hn6 : ¬ configured d.ipaddr6 := by rw [d6]; decide
  have := addrs_own addrs hok.addr d (by rw [d4]; rfl) (by rw [d6]; rfl) (by rw [dh]; rfl)
  obtain ⟨a1, -, a3, a4, a5, -⟩ := this
  rw [if_neg hn4] at a3
  rw [if_neg hn6] at a4
  have hname : (addrsNetif addrs d).name = d.name := core_name a1
  have hav : ∀ (addrs : List IfAddr) (x : Netif), (addrsNetif addrs x).argv = x.argv := by
    intro addrs
    induction addrs with
    | nil => intro x; rfl
    | cons ia addrs ih =>
      intro x
      show (addrsNetif addrs (addrNetif ia x)).argv = _
      rw [ih]
      unfold addrNetif
      split
      · split
        · split <;> rfl
        · split <;> rfl
        · rfl
        · rfl
      · rfl
  rw [hname, ← dh]
  exact ⟨a3, a4, a5, (hav addrs d).trans da⟩

/-- Without `-n`, every interface has its own address: the first IPv4 and the first IPv6 address that is not link local
that the kernel lists for it. -/
theorem C34_own (o : Opts) (names : List Bytes) (m : Mgmt) (k : Kernel) (s : Ifs) (addrs : List IfAddr)
    (h : k.ifaddrs = some addrs) (hok : ListOk k addrs) (hs : (s.netifs.map (·.index)).Nodup) (ho : o.testBit 8 = false) :
    ∀ n ∈ (netifFetch o names m k s).1.netifs, n.ipaddr4 = own4 addrs n.name ∧ n.ipaddr6 = own6 addrs n.name := by
  obtain ⟨e, -⟩ := netifFetch_eq o names m k s h hok hs
  have hb : o.has OPT_MADDR = false := ho
  have hA := own_all k s hok hs
  rw [hb] at e
  rw [if_neg Bool.false_ne_true] at e
  rw [e]
  intro n hn
  split at hn
  · exact ⟨(hA n hn).1, (hA n hn).2.1⟩
  · obtain ⟨x, hx, rfl⟩ := List.mem_map.mp hn
    have := hA x hx
    have e4 : (argMark names x).ipaddr4 = x.ipaddr4 := by unfold argMark; split <;> rfl
    have e6 : (argMark names x).ipaddr6 = x.ipaddr6 := by unfold argMark; split <;> rfl
    rw [e4, e6, core_name (argMark_core names x)]
    exact ⟨this.1, this.2.1⟩

example : (netifFetch 0 [] {} sampleKernel {}).1.netifs.map (fun n => (n.name, n.ipaddr4, n.ipaddr6.take 2)) =
    [(lit "eth0", [10, 0, 9, 1], [0, 0]), (lit "eth1", [0, 0, 0, 0], [0, 0]), (lit "eth2", [0, 0, 0, 0], [0, 0]),
     (lit "bond0", [10, 0, 0, 1], [0x20, 1]), (lit "br0", [0, 0, 0, 0], [0, 0]), (lit "bond0.5", [0, 0, 0, 0], [0, 0])] := by
  decide +kernel

/-- With `-n`, all interfaces have the address of the management interface. -/
theorem C34_shared (o : Opts) (names : List Bytes) (m : Mgmt) (k : Kernel) (s : Ifs) (addrs : List IfAddr)
    (h : k.ifaddrs = some addrs) (hok : ListOk k addrs) (hs : (s.netifs.map (·.index)).Nodup) (ho : o.testBit 8 = true)
    (x : Netif) (hx : x ∈ (netifFetch o names m k s).1.netifs) (hm : (netifFetch o names m k s).1.mnetif = some x.index) :
    ∀ n ∈ (netifFetch o names m k s).1.netifs, n.ipaddr4 = own4 addrs x.name ∧ n.ipaddr6 = own6 addrs x.name := by
  obtain ⟨e, em, -⟩ := netifFetch_eq o names m k s h hok hs
  have hid := netifFetch_ident o names m k s h hok hs
  have hb : o.has OPT_MADDR = true := ho
  have hA := own_all k s hok hs
  rw [hb] at e
  rw [if_pos rfl] at e
  have hAi : ((detected k s.netifs (usables k addrs)).map (addrsNetif addrs)).map ident =
      (detected k s.netifs (usables k addrs)).map ident := by
    rw [List.map_map]; exact List.map_congr_left (fun n _ => addrsNetif_ident addrs n)
  generalize (detected k s.netifs (usables k addrs)).map (addrsNetif addrs) = A at hA hAi e
  rw [em] at hm
  rw [hm] at e
  obtain ⟨x0, h0, e0⟩ := mem_of_ident (hid.trans hAi.symm) hx
  have hcx : core x0 = core x := congrArg Prod.fst e0
  have hAn : (A.map (·.index)).Nodup := by
    rw [index_of_ident hAi, map_index_of_core (detected_core k _ _)]
    exact listed_index_nodup k hs hok.index
  have hfind : (some x.index).bind (netifByIndex A) = some x0 := by
    show netifByIndex A x.index = some x0
    rw [← core_index hcx]; exact byIndex_of_mem hAn h0
  rw [hfind] at e
  rw [e]
  have hx0 := hA x0 h0
  rw [core_name hcx] at hx0
  intro n hn
  split at hn
  · obtain ⟨y, _, rfl⟩ := List.mem_map.mp hn
    exact ⟨hx0.1, hx0.2.1⟩
  · obtain ⟨z, hz, rfl⟩ := List.mem_map.mp hn
    obtain ⟨y, _, rfl⟩ := List.mem_map.mp hz
    have e4 : ∀ x : Netif, (argMark names x).ipaddr4 = x.ipaddr4 := by intro x; unfold argMark; split <;> rfl
    have e6 : ∀ x : Netif, (argMark names x).ipaddr6 = x.ipaddr6 := by intro x; unfold argMark; split <;> rfl
    rw [e4, e6]
    exact ⟨hx0.1, hx0.2.1⟩

example : let s := (netifFetch (1 <<< 8) [] { mifname := some (lit "bond0") } sampleKernel {}).1
    s.mnetif = some 6 ∧ s.netifs.map (·.ipaddr4) = List.replicate 6 [10, 0, 0, 1] := by decide +kernel

/-- An interface selected by name is the management interface. -/
theorem C34_by_name (o : Opts) (names : List Bytes) (m : Mgmt) (k : Kernel) (s : Ifs) (addrs : List IfAddr)
    (h : k.ifaddrs = some addrs) (hok : ListOk k addrs) (hs : (s.netifs.map (·.index)).Nodup)
    (e : Link) (he : e ∈ usables k addrs) (hm : m.mifname = some e.name) :
    (netifFetch o names m k s).1.mnetif = some e.index := by
  obtain ⟨-, em, -⟩ := netifFetch_eq o names m k s h hok hs
  rw [em]
  have hnamed : mnetifNamed m s (usables k addrs) = some e.index := by
    unfold mnetifNamed
    dsimp only
    have hfold : ∀ (us : List Link), (us.map (·.name)).Nodup → (∀ e ∈ us, e.name.length ≤ 15) → ∀ mn,
        us.foldl (fun mn x => if m.mifname = some (x.name.take 15) then some x.index else mn) mn =
          if e.name ∈ us.map (·.name) then ((us.find? (fun x => x.name == e.name)).map (·.index)) else mn := by
      intro us
      induction us with
      | nil => intro _ _ mn; rfl
      | cons a us ih =>
        intro hn hs mn
        rw [List.map_cons, List.nodup_cons] at hn
        rw [List.foldl_cons, ih hn.2 (fun e he => hs e (List.mem_cons_of_mem _ he))]
        have ha : a.name.take 15 = a.name := List.take_of_length_le (hs a List.mem_cons_self)
        rw [ha, hm]
        by_cases hae : a.name = e.name
        · have hnot : e.name ∉ us.map (·.name) := hae ▸ hn.1
          rw [if_neg hnot, if_pos (by rw [hae]), if_pos (by rw [List.map_cons, hae]; exact List.mem_cons_self),
            List.find?_cons_of_pos (by rw [hae]; exact beq_self_eq_true _)]
          rfl
        · rw [if_neg (fun h => hae (Option.some.inj h).symm), List.find?_cons_of_neg (by simpa using hae), List.map_cons]
          by_cases hin : e.name ∈ us.map (·.name)
          · rw [if_pos hin, if_pos (List.mem_cons_of_mem _ hin)]
          · rw [if_neg hin, if_neg]
            intro h
            rcases List.mem_cons.mp h with h | h
            · exact hae h.symm
            · exact hin h
    rw [hfold _ hok.name hok.short, if_pos (List.mem_map.mpr ⟨e, he, rfl⟩)]
    have hfind : (usables k addrs).find? (fun x => x.name == e.name) = some e := by
      cases hf : (usables k addrs).find? (fun x => x.name == e.name) with
      | none =>
        have := List.find?_eq_none.mp hf e he
        simp at this
      | some y =>
        have h1 := List.mem_of_find?_eq_some hf
        have h2 : y.name = e.name := by simpa using List.find?_some hf
        rw [inj_of_nodup_map hok.name h1 he h2]
    rw [hfind, Option.map_some, if_neg]
    rw [List.any_eq_true]
    rintro ⟨i, hi, hie⟩
    have := (List.mem_filter.mp hi).2
    have hie' : e.index = i := by simpa using hie
    rw [List.contains_eq_mem, decide_eq_true (List.mem_map.mpr ⟨e, he, hie'⟩)] at this
    cases this
  rw [hnamed]
  exact addr_fold_mn_some m addrs _ _

/-- Even if another one was chosen before. -/
example : (∃ e ∈ usables sampleKernel sampleAddrs, e.name = lit "eth2") ∧
    (netifFetch 0 [] { mifname := some (lit "eth2") } sampleKernel { sampleBefore with mnetif := some 6 }).1.mnetif = some 4 := by decide +kernel

/-- Selected by address, from a state in which no management interface is known: an interface is chosen whose own address
is the selected one, and if there is such an interface one is chosen. -/
theorem C34_by_address_partial (o : Opts) (names : List Bytes) (m : Mgmt) (k : Kernel) (s : Ifs) (addrs : List IfAddr)
    (h : k.ifaddrs = some addrs) (hok : ListOk k addrs) (hs : (s.netifs.map (·.index)).Nodup)
    (hm4 : m.maddr4.length = 4) (hm6 : m.maddr6.length = 16) (hm : m.mifname = none) (hnone : s.mnetif = none) :
    let owns : Netif → Prop := fun n =>
      (configured m.maddr4 ∧ own4 addrs n.name = m.maddr4) ∨ (configured m.maddr6 ∧ own6 addrs n.name = m.maddr6)
    let r := (netifFetch o names m k s).1
    (∀ i, r.mnetif = some i → ∃ n ∈ r.netifs, n.index = i ∧ owns n) ∧
    (r.mnetif = none → ∀ n ∈ r.netifs, ¬ owns n) := by
  intro owns r
  obtain ⟨-, em, -⟩ := netifFetch_eq o names m k s h hok hs
  have hid := netifFetch_ident o names m k s h hok hs
  have hnamed : mnetifNamed m s (usables k addrs) = none := by
    unfold mnetifNamed
    have hf : ∀ us : List Link, us.foldl (fun mn e => if m.mifname = some (e.name.take 15) then some e.index else mn)
        s.mnetif = none := by
      intro us
      rw [hnone, hm]
      induction us with
      | nil => rfl
      | cons a us ih => rw [List.foldl_cons, if_neg (fun h => nomatch h)]; exact ih
    dsimp only
    rw [hf]
    split <;> rfl
  rw [hnamed] at em
  have hDc : (detected k s.netifs (usables k addrs)).map core = (listed k s.netifs (usables k addrs)).map core :=
    detect_fold_core k _ _
  have hDi : ((detected k s.netifs (usables k addrs)).map (·.index)).Nodup := by
    rw [map_index_of_core hDc]; exact listed_index_nodup k hs hok.index
  have hDn : ((detected k s.netifs (usables k addrs)).map (·.name)).Nodup := by
    rw [map_name_of_core hDc]; exact listed_name_nodup k hs hok.index (take_inj hok.name hok.short)
  have hD0 : ∀ d ∈ detected k s.netifs (usables k addrs),
      adr d = ([0, 0, 0, 0], [0, 0, 0, 0, 0, 0, 0, 0, 0, 0, 0, 0, 0, 0, 0, 0], [0, 0, 0, 0, 0, 0], 0) :=
    map_forall (P := fun x => x = ([0, 0, 0, 0], [0, 0, 0, 0, 0, 0, 0, 0, 0, 0, 0, 0, 0, 0, 0, 0], [0, 0, 0, 0, 0, 0], 0))
      (detect_fold_adr k _ _) (fun x hx => (recordOf_type hs hx).2.2.2.2)
  have hAdr : ∀ d ∈ detected k s.netifs (usables k addrs), AdrOk d ∧ ¬ configured d.ipaddr4 ∧ ¬ configured d.ipaddr6 := by
    intro d hd
    have := hD0 d hd
    unfold adr at this
    simp only [Prod.mk.injEq] at this
    obtain ⟨d4, d6, dh, -⟩ := this
    unfold AdrOk
    rw [d4, d6, dh]
    exact ⟨⟨rfl, rfl, rfl⟩, by decide, by decide⟩
  have hown := own_all k s hok hs
  obtain ⟨m1, m2⟩ := addr_fold_mn hm4 hm6 addrs hok.addr hDi hDn (fun d hd => (hAdr d hd).1)
  have howned : ∀ d ∈ detected k s.netifs (usables k addrs), (addrsNetif addrs d).ipaddr4 = own4 addrs d.name ∧
      (addrsNetif addrs d).ipaddr6 = own6 addrs d.name := by
    intro d hd
    have := hown _ (List.mem_map.mpr ⟨d, hd, rfl⟩)
    have hname : (addrsNetif addrs d).name = d.name := core_name (congrArg Prod.fst (addrsNetif_ident addrs d))
    rw [hname] at this
    exact ⟨this.1, this.2.1⟩
  constructor
  · intro i hi
    obtain ⟨d, hd, hdi, hdm⟩ := m1 i (em ▸ hi)
    obtain ⟨n, hn, e0⟩ := mem_of_ident hid.symm hd
    have hc : core n = core d := congrArg Prod.fst e0
    refine ⟨n, hn, by rw [core_index hc, hdi], ?_⟩
    show (configured m.maddr4 ∧ own4 addrs n.name = m.maddr4) ∨ (configured m.maddr6 ∧ own6 addrs n.name = m.maddr6)
    rw [core_name hc, ← (howned d hd).1, ← (howned d hd).2]
    exact hdm
  · intro hi n hn hon
    obtain ⟨d, hd, e0⟩ := mem_of_ident hid hn
    have hc : core d = core n := congrArg Prod.fst e0
    have := m2 (em ▸ hi) d hd
    obtain ⟨-, hc4, hc6⟩ := hAdr d hd
    rw [(howned d hd).1, (howned d hd).2, core_name hc] at this
    rcases hon with ⟨h1, h2⟩ | ⟨h1, h2⟩
    · exact this.1 hc4 h1 h2
    · exact this.2 hc6 h1 h2

example : (netifFetch 0 [] { maddr4 := [10, 0, 0, 1] } sampleKernel {}).1.mnetif = some 6 := by decide +kernel

/-- What is missing: the choice is kept although the address moves to another interface. -/
theorem C34_stale : ∃ k1 k2 : Kernel, ∃ m : Mgmt, configured m.maddr4 ∧
    (let s1 := (netifFetch (1 <<< 8) [] m k1 {}).1
     let s2 := (netifFetch (1 <<< 8) [] m k2 s1).1
     (netifFetch (1 <<< 8) [] m k2 {}).1.mnetif = some 3 ∧ s2.mnetif = some 2 ∧
     s2.netifs.map (·.ipaddr4) = [[0, 0, 0, 0], [0, 0, 0, 0]]) := by
  refine ⟨⟨some [⟨lit "eth0", .link true 2 (sampleHw 1)⟩, ⟨lit "eth1", .link true 3 (sampleHw 2)⟩,
      ⟨lit "eth0", .inet [10, 0, 0, 1]⟩], fun _ => true, fun _ _ => { device := true }, fun _ => none, fun _ => none,
      fun _ => none, fun _ => none, fun _ => none, fun _ => none⟩,
    ⟨some [⟨lit "eth0", .link true 2 (sampleHw 1)⟩, ⟨lit "eth1", .link true 3 (sampleHw 2)⟩,
      ⟨lit "eth1", .inet [10, 0, 0, 1]⟩], fun _ => true, fun _ _ => { device := true }, fun _ => none, fun _ => none,
      fun _ => none, fun _ => none, fun _ => none, fun _ => none⟩,
    { maddr4 := [10, 0, 0, 1] }, ?_⟩
  decide +kernel

/-- Also missing: a selected address that is not the first one of its interface is not found. -/
theorem C34_secondary : (netifFetch (1 <<< 8) [] { maddr4 := [10, 0, 0, 2] } sampleKernel {}).1.mnetif = none ∧
    [10, 0, 0, 2] ∈ v4Of sampleAddrs (lit "bond0") := by decide +kernel

/-! ## C40 The interface list mirrors the system -/

/-- After a refresh the list consists of the usable interfaces of the system: first those that were known before, in their old
order, then the new ones in the kernel's order. -/
theorem C40_indexes (o : Opts) (names : List Bytes) (m : Mgmt) (k : Kernel) (s : Ifs) (addrs : List IfAddr)
    (h : k.ifaddrs = some addrs) (hok : ListOk k addrs) (hs : (s.netifs.map (·.index)).Nodup) :
    let olds := s.netifs.map (·.index)
    let us := (usables k addrs).map (·.index)
    (netifFetch o names m k s).1.netifs.map (·.index) =
      olds.filter (fun i => us.contains i) ++ us.filter (fun i => !olds.contains i) := by
  intro olds us
  rw [index_of_ident (netifFetch_ident o names m k s h hok hs), map_index_of_core (detected_core k _ _)]
  exact listed_index k s.netifs (usables k addrs)

example : (netifFetch 0 [] {} sampleKernel sampleBefore).1.netifs.map (·.index) = [4, 2, 3, 6, 7, 8] := by decide +kernel

/-- Every record has name, kind, description and hardware address as the kernel reports them; it keeps what was known
about received protocols and link events. -/
theorem C40_record (o : Opts) (names : List Bytes) (m : Mgmt) (k : Kernel) (s : Ifs) (addrs : List IfAddr)
    (h : k.ifaddrs = some addrs) (hok : ListOk k addrs) (hs : (s.netifs.map (·.index)).Nodup) :
    ∀ n ∈ (netifFetch o names m k s).1.netifs, ∃ e ∈ usables k addrs, n.index = e.index ∧ n.name = e.name ∧ n.type = e.kind ∧
      n.description = ((k.alias e.index).map (fun d => (d.takeWhile (· ≠ 0)).take 63)).getD [] ∧
      n.protos = ((withIndex s.netifs e.index).map (·.protos)).getD 0 ∧
      n.linkEvent = ((withIndex s.netifs e.index).map (·.linkEvent)).getD 0 := by
  intro n hn
  obtain ⟨d, hd, e0⟩ := mem_of_ident (netifFetch_ident o names m k s h hok hs) hn
  obtain ⟨x, hx, e1⟩ := mem_of_core (detected_core k _ _) hd
  obtain ⟨e, he, rfl⟩ := listed_record hs hx
  have hc : core (recordOf k (netifByIndex s.netifs e.index) e) = core n := e1.trans (congrArg Prod.fst e0)
  refine ⟨e, he, ?_⟩
  unfold core at hc
  simp only [Prod.mk.injEq] at hc
  obtain ⟨c1, c2, c3, c4, c5, c6⟩ := hc
  refine ⟨c1.symm, ?_, c3.symm, ?_, ?_, ?_⟩
  · rw [← c2]; exact List.take_of_length_le (hok.short e he)
  · rw [← c6]
    unfold recordOf freshNetif
    dsimp only
    cases k.alias e.index with
    | none => rfl
    | some a => rfl
  · rw [← c4, withIndex_eq]
    unfold recordOf freshNetif
    cases netifByIndex s.netifs e.index <;> rfl
  · rw [← c5, withIndex_eq]
    unfold recordOf freshNetif
    cases netifByIndex s.netifs e.index <;> rfl

example : (netifFetch 0 [] {} sampleKernel sampleBefore).1.netifs.map (fun n => (n.name, n.type, n.description, n.protos)) =
    [(lit "eth2", 0, lit "uplink", 2), (lit "eth0", 0, [], 0), (lit "eth1", 0, [], 0), (lit "bond0", 12, [], 0),
     (lit "br0", 13, [], 0), (lit "bond0.5", -1, [], 0)] := by decide +kernel

/-- An interface is classified by what the kernel says about it: the record of a usable interface has the kind of its row. -/
theorem C40_kind (o : Opts) (names : List Bytes) (m : Mgmt) (k : Kernel) (s : Ifs) (addrs : List IfAddr)
    (h : k.ifaddrs = some addrs) (hok : ListOk k addrs) (hs : (s.netifs.map (·.index)).Nodup)
    (ia : IfAddr) (hia : ia ∈ addrs) (i : Nat) (hw : Bytes) (hl : ia.addr = .link true i hw) (hup : k.up ia.name = true)
    (t : Int) (ht : kindOf (k.probe i ia.name) = some t) :
    ∃ n ∈ (netifFetch o names m k s).1.netifs, n.index = i ∧ n.name = ia.name ∧ n.type = t := by
  have hu : usable k ia = some ⟨i, ia.name, t⟩ := by
    unfold usable
    rw [hl]
    simp only [hup, if_true, ht, Option.map_some]
  have hm : (⟨i, ia.name, t⟩ : Link) ∈ usables k addrs := List.mem_filterMap.mpr ⟨ia, hia, hu⟩
  have hidx : i ∈ (netifFetch o names m k s).1.netifs.map (·.index) := by
    rw [C40_indexes o names m k s addrs h hok hs]
    have hi : i ∈ (usables k addrs).map (·.index) := List.mem_map.mpr ⟨_, hm, rfl⟩
    by_cases ho : i ∈ s.netifs.map (·.index)
    · exact List.mem_append_left _ (List.mem_filter.mpr ⟨ho, List.contains_iff_mem.mpr hi⟩)
    · exact List.mem_append_right _ (List.mem_filter.mpr ⟨hi, by simpa using ho⟩)
  obtain ⟨n, hn, rfl⟩ := List.mem_map.mp hidx
  obtain ⟨e, he, e1, e2, e3, _⟩ := C40_record o names m k s addrs h hok hs n hn
  have := inj_of_nodup_map hok.index he hm e1.symm
  subst this
  exact ⟨n, hn, rfl, e2, e3⟩

/-- The kinds of the sample system: loopback devices have no link level entry that is used; a regular interface, a bond, a bridge and a VLAN. -/
example : [2, 6, 7, 8].map (fun i => kindOf (sampleKernel.probe i [])) = [some 0, some 12, some 13, some (-1)] := by decide +kernel

/-- Interfaces for which the VLAN query succeeds are VLANs, whatever their driver is called. -/
theorem C40_vlan (p : Probe) (hw : p.wireless = false) (hd : p.device = false) (hv : p.vlan = true) : kindOf p = some (-1) := by
  unfold kindOf kindRows
  simp [hw, hd, hv]

example : kindOf { vlan := true, driver := lit "bonding" } = some (-1) := by decide +kernel

/-- The driver of VLANs is not recognised by its name, of which only 15 characters are looked at: where the VLAN query fails, a VLAN is taken for a
regular interface. -/
theorem C40_vlan_driver (o : Opts) (names : List Bytes) (m : Mgmt) (k : Kernel) (s : Ifs) (addrs : List IfAddr)
    (h : k.ifaddrs = some addrs) (hok : ListOk k addrs) (hs : (s.netifs.map (·.index)).Nodup)
    (ia : IfAddr) (hia : ia ∈ addrs) (i : Nat) (hw : Bytes) (hl : ia.addr = .link true i hw) (hup : k.up ia.name = true)
    (hp : k.probe i ia.name = { driver := lit "802.1Q VLAN Support" }) :
    ∃ n ∈ (netifFetch o names m k s).1.netifs, n.index = i ∧ n.name = ia.name ∧ n.type = 0 :=
  C40_kind o names m k s addrs h hok hs ia hia i hw hl hup 0 (by rw [hp]; decide)

example : (netifFetch 0 [] {} { sampleKernel with probe := fun i n =>
      if i = 8 then { driver := lit "802.1Q VLAN Support" } else sampleKernel.probe i n } {}).1.netifs.map (fun n => (n.name, n.type)) =
    [(lit "eth0", 0), (lit "eth1", 0), (lit "eth2", 0), (lit "bond0", 12), (lit "br0", 13), (lit "bond0.5", 0)] := by decide +kernel

/-- Every interface has the hardware address of the last of its link level entries. -/
theorem C40_hwaddr (o : Opts) (names : List Bytes) (m : Mgmt) (k : Kernel) (s : Ifs) (addrs : List IfAddr)
    (h : k.ifaddrs = some addrs) (hok : ListOk k addrs) (hs : (s.netifs.map (·.index)).Nodup) :
    ∀ n ∈ (netifFetch o names m k s).1.netifs, some n.hwaddr = ((hwOf addrs n.name).getLast?).map (·.take 6) := by
  intro n hn
  have hrec := C40_record o names m k s addrs h hok hs n hn
  obtain ⟨e, -⟩ := netifFetch_eq o names m k s h hok hs
  have hA := own_all k s hok hs
  -- the interface has a link level entry
  have hne : hwOf addrs n.name ≠ [] := by
    obtain ⟨e, he, -, hne, -⟩ := hrec
    obtain ⟨ia, hia, hu⟩ := List.mem_filterMap.mp he
    unfold usable at hu
    split at hu
    · rename_i i hw hadr
      split at hu
      · obtain ⟨t, -, rfl⟩ := Option.map_eq_some_iff.mp hu
        have : hw ∈ hwOf addrs n.name := by
          unfold hwOf
          refine List.mem_filterMap.mpr ⟨ia, hia, ?_⟩
          rw [hadr]
          dsimp only
          rw [if_pos hne.symm]
        exact List.ne_nil_of_mem this
      · cases hu
    · cases hu
  have hgoal : n.hwaddr = (((hwOf addrs n.name).getLast?).map (·.take 6)).getD [0, 0, 0, 0, 0, 0] := by
    have hB : ∀ x ∈ (if o.has OPT_MADDR then
          match ((addrs.foldl (addrStep m) (detected k s.netifs (usables k addrs), mnetifNamed m s (usables k addrs))).2).bind
            (netifByIndex ((detected k s.netifs (usables k addrs)).map (addrsNetif addrs))) with
          | none => (detected k s.netifs (usables k addrs)).map (addrsNetif addrs)
          | some x => ((detected k s.netifs (usables k addrs)).map (addrsNetif addrs)).map
              (fun n => { n with ipaddr4 := x.ipaddr4, ipaddr6 := x.ipaddr6 })
        else (detected k s.netifs (usables k addrs)).map (addrsNetif addrs)),
        x.hwaddr = (((hwOf addrs x.name).getLast?).map (·.take 6)).getD [0, 0, 0, 0, 0, 0] := by
      intro x hx
      split at hx
      · split at hx
        · exact (hA x hx).2.2.1
        · obtain ⟨y, hy, rfl⟩ := List.mem_map.mp hx
          exact (hA y hy).2.2.1
      · exact (hA x hx).2.2.1
    rw [e] at hn
    split at hn
    · exact hB n hn
    · obtain ⟨x, hx, rfl⟩ := List.mem_map.mp hn
      have eh : (argMark names x).hwaddr = x.hwaddr := by unfold argMark; split <;> rfl
      rw [eh, core_name (argMark_core names x)]
      exact hB x hx
  rw [hgoal]
  cases hl : (hwOf addrs n.name).getLast? with
  | none => exact absurd (List.getLast?_eq_none_iff.mp hl) hne
  | some a => rfl

/-- The raw sockets of interfaces that are gone are closed, and no others. -/
theorem C40_closed (o : Opts) (names : List Bytes) (m : Mgmt) (k : Kernel) (s : Ifs) (addrs : List IfAddr)
    (h : k.ifaddrs = some addrs) (hok : ListOk k addrs) (hs : (s.netifs.map (·.index)).Nodup) :
    (netifFetch o names m k s).1.closed =
      s.closed ++ (s.netifs.map (·.index)).filter (fun i => i ∉ (usables k addrs).map (·.index)) := by
  obtain ⟨-, -, e, -⟩ := netifFetch_eq o names m k s h hok hs
  rw [e]
  congr 1
  apply List.filter_congr
  intro i _
  rw [List.contains_eq_mem]
  exact (decide_not).symm

example : (netifFetch 0 [] {} sampleKernel sampleBefore).1.closed = [9] := by decide +kernel

/-- The number returned: 0, for which nothing is sent, exactly if there is no usable interface, or one of the interfaces of
the command line does not exist or is a VLAN. -/
theorem C40_count (o : Opts) (names : List Bytes) (m : Mgmt) (k : Kernel) (s : Ifs) (addrs : List IfAddr)
    (h : k.ifaddrs = some addrs) (hok : ListOk k addrs) (hs : (s.netifs.map (·.index)).Nodup)
    (hlen : (usables k addrs).length < 65536) (hnames : names.length < 65536) :
    (netifFetch o names m k s).2 ≠ 0 ↔
      (if names = [] then usables k addrs ≠ []
       else ∀ name ∈ names, ∃ e ∈ usables k addrs, e.name = name ∧ e.kind ≠ -1) := by
  obtain ⟨-, -, -, e⟩ := netifFetch_eq o names m k s h hok hs
  rw [e]
  by_cases hn : names = []
  · rw [if_pos hn, if_pos hn]
    rw [Nat.mod_eq_of_lt hlen]
    cases usables k addrs <;> simp
  · rw [if_neg hn, if_neg hn]
    have hDc : (detected k s.netifs (usables k addrs)).map core = (listed k s.netifs (usables k addrs)).map core :=
      detect_fold_core k _ _
    have hLn := listed_name_nodup k hs hok.index (take_inj hok.name hok.short)
    have hLi := listed_index k s.netifs (usables k addrs)
    have hvalid : ∀ name, valid (detected k s.netifs (usables k addrs)) name = true ↔
        ∃ e ∈ usables k addrs, e.name = name ∧ e.kind ≠ -1 := by
      intro name
      rw [valid_core hDc]
      unfold valid
      constructor
      · intro hv
        cases hf : netifByName (listed k s.netifs (usables k addrs)) name with
        | none => rw [hf] at hv; cases hv
        | some n =>
          rw [hf] at hv
          obtain ⟨e, he, rfl⟩ := listed_record hs (byName_mem hf)
          refine ⟨e, he, ?_, ?_⟩
          · rw [← byName_name hf]; exact (List.take_of_length_le (hok.short e he)).symm
          · have : e.kind ≠ NETIF_VLAN := by simpa [recordOf, freshNetif] using hv
            exact this
      · rintro ⟨e, he, rfl, hek⟩
        -- the interface is in the list
        have hin : e.index ∈ (listed k s.netifs (usables k addrs)).map (·.index) := by
          rw [hLi, List.mem_append, List.mem_filter, List.mem_filter]
          have hu : e.index ∈ (usables k addrs).map (·.index) := List.mem_map.mpr ⟨e, he, rfl⟩
          by_cases ho : e.index ∈ s.netifs.map (·.index)
          · left; exact ⟨ho, by rw [List.contains_eq_mem]; exact decide_eq_true hu⟩
          · right; exact ⟨hu, by rw [List.contains_eq_mem, decide_eq_false ho]; rfl⟩
        obtain ⟨n, hnl, hni⟩ := List.mem_map.mp hin
        obtain ⟨e', he', rfl⟩ := listed_record hs hnl
        have hee : e' = e := inj_of_nodup_map hok.index he' he hni
        subst hee
        have hname : (recordOf k (netifByIndex s.netifs e'.index) e').name = e'.name := List.take_of_length_le (hok.short e' he)
        cases hf : netifByName (listed k s.netifs (usables k addrs)) e'.name with
        | none =>
          have := List.find?_eq_none.mp hf _ hnl
          rw [hname] at this
          simp at this
        | some n =>
          have := name_unique hLn (byName_mem hf) hnl (by rw [byName_name hf, hname])
          subst this
          have : e'.kind ≠ NETIF_VLAN := hek
          simpa [recordOf, freshNetif] using this
    have hpos : 0 < names.length := List.length_pos_iff.mpr hn
    by_cases hall : names.all (valid (detected k s.netifs (usables k addrs))) = true
    · rw [if_pos hall, Nat.mod_eq_of_lt hnames]
      constructor
      · intro _ name hm
        exact (hvalid name).mp (List.all_eq_true.mp hall name hm)
      · intro _; omega
    · rw [if_neg hall]
      constructor
      · intro hx; exact absurd rfl hx
      · intro hx
        exact absurd (List.all_eq_true.mpr (fun a ha => (hvalid a).mpr (hx a ha))) hall

example : (netifFetch 0 [] {} sampleKernel {}).2 = 6 ∧ (netifFetch 32 [lit "eth0", lit "eth3"] {} sampleKernel {}).2 = 0 ∧
    (netifFetch 32 [lit "eth0", lit "bond0.5"] {} sampleKernel {}).2 = 0 ∧
    (netifFetch 32 [lit "eth0", lit "br0"] {} sampleKernel {}).2 = 2 := by decide +kernel

/-- The interfaces of the command line are marked, VLANs excepted, and no others. -/
theorem C40_argv (o : Opts) (names : List Bytes) (m : Mgmt) (k : Kernel) (s : Ifs) (addrs : List IfAddr)
    (h : k.ifaddrs = some addrs) (hok : ListOk k addrs) (hs : (s.netifs.map (·.index)).Nodup) :
    ∀ n ∈ (netifFetch o names m k s).1.netifs, n.argv ≠ 0 ↔ n.name ∈ names ∧ n.type ≠ -1 := by
  obtain ⟨e, -⟩ := netifFetch_eq o names m k s h hok hs
  have hA := own_all k s hok hs
  have hB : ∀ x ∈ (if o.has OPT_MADDR then
          match ((addrs.foldl (addrStep m) (detected k s.netifs (usables k addrs), mnetifNamed m s (usables k addrs))).2).bind
            (netifByIndex ((detected k s.netifs (usables k addrs)).map (addrsNetif addrs))) with
          | none => (detected k s.netifs (usables k addrs)).map (addrsNetif addrs)
          | some x => ((detected k s.netifs (usables k addrs)).map (addrsNetif addrs)).map
              (fun n => { n with ipaddr4 := x.ipaddr4, ipaddr6 := x.ipaddr6 })
        else (detected k s.netifs (usables k addrs)).map (addrsNetif addrs)), x.argv = 0 := by
    intro x hx
    split at hx
    · split at hx
      · exact (hA x hx).2.2.2
      · obtain ⟨y, hy, rfl⟩ := List.mem_map.mp hx
        exact (hA y hy).2.2.2
    · exact (hA x hx).2.2.2
  intro n hn
  rw [e] at hn
  split at hn
  · rename_i hnm
    rw [hB n hn, hnm]
    simp
  · obtain ⟨x, hx, rfl⟩ := List.mem_map.mp hn
    have h0 := hB x hx
    rw [core_name (argMark_core names x), core_type (argMark_core names x)]
    unfold argMark
    by_cases hc : x.name ∈ names ∧ x.type ≠ NETIF_VLAN
    · rw [if_pos hc]
      exact ⟨fun _ => hc, fun _ => Nat.one_ne_zero⟩
    · rw [if_neg hc, h0]
      exact ⟨fun hx => absurd rfl hx, fun hx => absurd hx hc⟩

/-- If the interfaces cannot be listed, nothing changes and nothing is sent. -/
theorem C40_failure (o : Opts) (names : List Bytes) (m : Mgmt) (k : Kernel) (s : Ifs) (h : k.ifaddrs = none) :
    netifFetch o names m k s = (s, 0) := by
  unfold netifFetch; rw [h]

/-! ## C41 References between interfaces stay valid -/

/-- A sequence of refreshes; the kernel's answers may be arbitrary. -/
def refreshes (o : Opts) (names : List Bytes) (m : Mgmt) (ks : List Kernel) (s : Ifs) : Ifs :=
  ks.foldl (fun s k => (netifFetch o names m k s).1) s

/-- After any sequence of refreshes with any answers, however inconsistent: no interface index occurs twice, and aggregate,
next port and management interface are interfaces of the list. -/
theorem C41_references (o : Opts) (names : List Bytes) (m : Mgmt) (ks : List Kernel) (sys : SysInfo) :
    let s := refreshes o names m ks { sys := sys }
    (s.netifs.map (·.index)).Nodup ∧
    (∀ n ∈ s.netifs, ∀ i, n.parent = some i → ∃ x ∈ s.netifs, x.index = i) ∧
    (∀ n ∈ s.netifs, ∀ i, n.subif = some i → ∃ x ∈ s.netifs, x.index = i) ∧
    (∀ i, s.mnetif = some i → ∃ x ∈ s.netifs, x.index = i) := by
  have hR : ∀ (ks : List Kernel) (s : Ifs), Refs s → Refs (refreshes o names m ks s) := by
    intro ks
    induction ks with
    | nil => intro s h; exact h
    | cons k ks ih => intro s h; exact ih _ (refs_fetch o names m k h)
  have h0 : Refs { sys := sys } :=
    ⟨List.nodup_nil, fun _ h => (nomatch h), fun _ h => (nomatch h), fun _ h => (nomatch h)⟩
  have h := hR ks _ h0
  exact ⟨h.nodup, fun n hn i hi => List.mem_map.mp (h.parent n hn i hi), fun n hn i hi => List.mem_map.mp (h.subif n hn i hi),
    fun i hi => List.mem_map.mp (h.mnetif i hi)⟩

example : let s := refreshes 0 [] { maddr4 := [10, 0, 0, 1] } [sampleKernel, dupKernel] {}
    s.netifs.map (fun n => (n.index, n.subif, n.parent)) = [(2, some 2, some 6), (6, some 2, none)] ∧ s.mnetif = some 6 := by
  decide +kernel

end Ladvd.Props
