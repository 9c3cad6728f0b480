import Verif.Lemmas.Bsd
import Verif.Lemmas.BsdLink
import Verif.Props.Details
/-!
# C62 - C67: interfaces on FreeBSD

All theorems about the interface list speak about the state after a refresh (`bsdFetch`), which is defined for the answers of any kernel that
meets `BsdOk`.
-/

namespace Ladvd.Props

open Spec

/-! ## Sample data -/

/-- A hardware address. -/
def bsdHw (b : UInt8) : Bytes := [2, 0, 0, 0, 0, b]

/-- A system with a loopback device, four Ethernet ports of which igb3 is down, a lagg of em0 and em1, a bridge with em2 and a member that is
not known, a tap device, a VLAN on the lagg and a firewall pseudo interface. -/
def bsdAddrs : List BIfAddr := [
  ⟨lit "em0", .link 6 1 (bsdHw 1)⟩, ⟨lit "em1", .link 6 2 (bsdHw 2)⟩, ⟨lit "em2", .link 6 3 (bsdHw 3)⟩, ⟨lit "igb3", .link 6 4 (bsdHw 4)⟩,
  ⟨lit "lo0", .link 24 5 (bsdHw 0)⟩, ⟨lit "lo0", .inet [127, 0, 0, 1]⟩, ⟨lit "lagg0", .link 6 6 (bsdHw 1)⟩, ⟨lit "bridge0", .link 209 7 (bsdHw 9)⟩,
  ⟨lit "tap0", .link 6 8 (bsdHw 8)⟩, ⟨lit "ipfw0", .link 6 10 (bsdHw 7)⟩, ⟨lit "pf0", .absent⟩,
  ⟨lit "lagg0", .inet [10, 0, 0, 1]⟩, ⟨lit "lagg0", .inet [10, 0, 0, 2]⟩,
  ⟨lit "lagg0", .inet6 [0xfe, 0x80, 0, 0, 0, 0, 0, 0, 0, 0, 0, 0, 0, 0, 0, 1]⟩,
  ⟨lit "lagg0", .inet6 [0x20, 1, 0, 0, 0, 0, 0, 0, 0, 0, 0, 0, 0, 0, 0, 1]⟩, ⟨lit "vlan5", .link 6 9 (bsdHw 1)⟩]

/-- The kernel of that system. -/
def bsdSample : BsdKernel where
  ifaddrs := some bsdAddrs
  up := fun n => n ≠ lit "igb3"
  wireless := fun _ => false
  ifType := fun n => if n = lit "bridge0" then 209 else if n = lit "lo0" then 24 else 6
  driver := fun i => if i = 1 then some (lit "em0") else if i = 2 then some (lit "em1") else if i = 3 then some (lit "em2")
    else if i = 8 then some (lit "tap0") else if i = 10 then some (lit "ipfw0") else none
  vlan := fun n => if n = lit "vlan5" then some (lit "lagg0", 5) else none
  lagg := fun n => if n = lit "lagg0" then some ⟨4, [(lit "em1", 4), (lit "nfe0", 4), (lit "em0", 0)]⟩ else none
  members := fun n => if n = lit "bridge0" then some [lit "em2", lit "epair0a"] else none
  descr := fun n => if n = lit "em2" then some (lit "uplink") else none
  sysctl := fun n => if n = lit "dev.em.0.%desc" then some (lit "Intel PRO/1000") else none
  realloc := fun _ => true

theorem bsdSample_ok : BsdOk bsdSample bsdAddrs where
  index := by decide +kernel
  name := by decide +kernel
  short := by decide +kernel
  addr := by decide +kernel
  driver := by decide +kernel
  device := by
    intro n d hd
    have : (bsdSample.sysctl n).toList = [] ∨ (bsdSample.sysctl n).toList = [lit "Intel PRO/1000"] := by
      show (if n = lit "dev.em.0.%desc" then some (lit "Intel PRO/1000") else none).toList = [] ∨ _
      split
      · rename_i h; right; rw [h]; rfl
      · left; rfl
    rcases this with h | h
    · rw [h] at hd; cases hd
    · rw [h, List.mem_singleton] at hd; rw [hd]; decide +kernel
  descr := by decide +kernel
  bridge := by decide +kernel
  memory := fun _ => rfl
  req := by decide +kernel

/-- Its state before: em2 was known, and a port that vanished meanwhile. -/
def bsdBefore : Ifs :=
  { netifs := [{ index := 19, name := lit "em9", hwaddr := [2, 0, 0, 0, 0, 9] },
               { index := 3, name := lit "em2", hwaddr := [2, 0, 0, 0, 0, 3], protos := 2, linkEvent := 3 }] }

/-! ## C62 The interface list mirrors the system on FreeBSD -/

/-- The interfaces in the list are the usable ones: those known before in their old order, then the new ones in the kernel's. -/
theorem C62_list (o : Opts) (names : List Bytes) (m : Mgmt) (k : BsdKernel) (s : Ifs) (addrs : List BIfAddr)
    (h : k.ifaddrs = some addrs) (hok : BsdOk k addrs) (hs : (s.netifs.map (·.index)).Nodup) :
    let olds := s.netifs.map (·.index)
    let us := (bsdUsables k addrs).map (·.index)
    ∃ r, bsdFetch o names m k s = .ok r ∧
      r.1.netifs.map (·.index) = olds.filter (fun i => i ∈ us) ++ us.filter (fun i => i ∉ olds) ∧
      r.1.closed = s.closed ++ olds.filter (fun i => i ∉ us) := by
  intro olds us
  refine ⟨_, bsdFetch_asLinux o names m k s h hok hs, ?_, ?_⟩
  · rw [C40_indexes o names m (asLinux k addrs) s _ rfl (listOk_asLinux hok) hs, usables_asLinux]
    congr 2
    · funext i; exact List.contains_eq_mem i us
    · funext i
      rw [List.contains_eq_mem]
      exact (decide_not (p := i ∈ olds)).symm
  · rw [C40_closed o names m (asLinux k addrs) s _ rfl (listOk_asLinux hok) hs, usables_asLinux]

example : (match bsdFetch 0 [] {} bsdSample bsdBefore with | .ok r => (r.1.netifs.map (fun n => (n.index, n.type)), r.1.closed) | _ => ([], [])) =
    ([(3, 0), (1, 0), (2, 0), (6, 12), (7, 13), (8, 2), (9, -1)], [19]) := by decide +kernel

/-- Every interface in the list has index, name, kind, description and hardware address of the one the kernel lists; the protocols seen and
the count of link events are kept. -/
theorem C62_record (o : Opts) (names : List Bytes) (m : Mgmt) (k : BsdKernel) (s : Ifs) (addrs : List BIfAddr)
    (h : k.ifaddrs = some addrs) (hok : BsdOk k addrs) (hs : (s.netifs.map (·.index)).Nodup) :
    ∃ r, bsdFetch o names m k s = .ok r ∧ ∀ n ∈ r.1.netifs, ∃ e ∈ bsdUsables k addrs, n.index = e.index ∧ n.name = e.name ∧ n.type = e.kind ∧
      n.description = bsdDescrOf k e.name ∧
      some n.hwaddr = (bsdHwOf addrs e.name).getLast? ∧
      n.protos = ((withIndex s.netifs e.index).map (·.protos)).getD 0 ∧
      n.linkEvent = ((withIndex s.netifs e.index).map (·.linkEvent)).getD 0 := by
  refine ⟨_, bsdFetch_asLinux o names m k s h hok hs, ?_⟩
  intro n hn
  obtain ⟨e, he, h1, h2, h3, h4, h5, h6⟩ := C40_record o names m (asLinux k addrs) s _ rfl (listOk_asLinux hok) hs n hn
  rw [usables_asLinux] at he
  refine ⟨e, he, h1, h2, h3, ?_, ?_, h5, h6⟩
  · rw [h4]; exact (descr_asLinux hok he).2
  · have hw := C40_hwaddr o names m (asLinux k addrs) s _ rfl (listOk_asLinux hok) hs n hn
    rw [hw, bsdHw_asLinux, List.getLast?_map, h2, Option.map_map]
    have hlen : ∀ a ∈ bsdHwOf addrs e.name, a.length = 6 := by
      intro a ha
      obtain ⟨ia, hia, hx⟩ := List.mem_filterMap.mp ha
      have hb := hok.addr ia hia
      obtain ⟨nm, ad⟩ := ia
      cases ad with
      | link t i hw =>
        dsimp only at hx
        split at hx
        · injection hx with hx; subst hx; exact hb
        · cases hx
      | _ => cases hx
    cases hg : (bsdHwOf addrs e.name).getLast? with
    | none => rfl
    | some a =>
      have := hlen a (List.mem_of_getLast? hg)
      show some ((a ++ [0, 0]).take 6) = some a
      rw [← this, List.take_left]

example : (match bsdFetch 0 [] {} bsdSample bsdBefore with | .ok r => (r.1.netifs.map (fun n => (n.name, n.description, n.hwaddr, n.protos))).take 2 | _ => []) =
    [(lit "em2", lit "uplink", bsdHw 3, 2), (lit "em0", [], bsdHw 1, 0)] := by decide +kernel

/-- Every Ethernet interface and bridge that is up and of a known kind is in the list. -/
theorem C62_kind (o : Opts) (names : List Bytes) (m : Mgmt) (k : BsdKernel) (s : Ifs) (addrs : List BIfAddr)
    (h : k.ifaddrs = some addrs) (hok : BsdOk k addrs) (hs : (s.netifs.map (·.index)).Nodup)
    (name : Bytes) (ty i : Nat) (hw : Bytes) (hia : ⟨name, .link ty i hw⟩ ∈ addrs) (hty : ty = 6 ∨ ty = 209) (hup : k.up name = true)
    (t : Int) (ht : bsdKind k i name = some t) :
    ∃ r, bsdFetch o names m k s = .ok r ∧ ∃ n ∈ r.1.netifs, n.index = i ∧ n.name = name ∧ n.type = t := by
  refine ⟨_, bsdFetch_asLinux o names m k s h hok hs, ?_⟩
  have hm := fetch_mirror o names m (asLinux k addrs) s _ rfl (listOk_asLinux hok) hs
  rw [usables_asLinux] at hm
  have hu : (⟨i, name, t⟩ : Link) ∈ bsdUsables k addrs := by
    refine List.mem_filterMap.mpr ⟨_, hia, ?_⟩
    unfold bsdUsable
    dsimp only
    rw [if_pos ⟨hty, hup⟩, ht]
    rfl
  obtain ⟨n, hn, hd⟩ := hm.bwd _ hu
  exact ⟨n, hn, hd⟩

example : (⟨lit "tap0", .link 6 8 (bsdHw 8)⟩ : BIfAddr) ∈ bsdAddrs ∧ bsdSample.up (lit "tap0") = true ∧ bsdKind bsdSample 8 (lit "tap0") = some 2 ∧
    bsdKind bsdSample 10 (lit "ipfw0") = none ∧ bsdKind bsdSample 6 (lit "lagg0") = some 12 ∧ bsdKind bsdSample 9 (lit "vlan5") = some (-1) := by
  decide +kernel

/-- Without a management address option every interface has its own addresses. -/
theorem C62_addresses (o : Opts) (names : List Bytes) (m : Mgmt) (k : BsdKernel) (s : Ifs) (addrs : List BIfAddr)
    (h : k.ifaddrs = some addrs) (hok : BsdOk k addrs) (hs : (s.netifs.map (·.index)).Nodup) (ho : o.testBit 8 = false) :
    ∃ r, bsdFetch o names m k s = .ok r ∧
      ∀ n ∈ r.1.netifs, n.ipaddr4 = bsdOwn4 addrs n.name ∧ n.ipaddr6 = bsdOwn6 addrs n.name := by
  refine ⟨_, bsdFetch_asLinux o names m k s h hok hs, ?_⟩
  intro n hn
  have := C34_own o names m (asLinux k addrs) s _ rfl (listOk_asLinux hok) hs ho n hn
  unfold own4 own6 at this
  rw [bsd4_asLinux, bsd6_asLinux] at this
  exact this

example : bsdOwn4 bsdAddrs (lit "lagg0") = [10, 0, 0, 1] ∧ (bsdOwn6 bsdAddrs (lit "lagg0")).take 2 = [0x20, 1] ∧
    bsdOwn4 bsdAddrs (lit "em0") = [0, 0, 0, 0] := by decide +kernel

/-- The number returned is not zero exactly if there is something to do: without names if an interface is usable, otherwise if all names are those
of usable interfaces that are no VLANs; these are marked. -/
theorem C62_count (o : Opts) (names : List Bytes) (m : Mgmt) (k : BsdKernel) (s : Ifs) (addrs : List BIfAddr)
    (h : k.ifaddrs = some addrs) (hok : BsdOk k addrs) (hs : (s.netifs.map (·.index)).Nodup)
    (hlen : (bsdUsables k addrs).length < 65536) (hnames : names.length < 65536) :
    ∃ r, bsdFetch o names m k s = .ok r ∧
      (r.2 ≠ 0 ↔ (if names = [] then bsdUsables k addrs ≠ [] else ∀ name ∈ names, ∃ e ∈ bsdUsables k addrs, e.name = name ∧ e.kind ≠ -1)) ∧
      ∀ n ∈ r.1.netifs, n.argv ≠ 0 ↔ n.name ∈ names ∧ n.type ≠ -1 := by
  refine ⟨_, bsdFetch_asLinux o names m k s h hok hs, ?_, ?_⟩
  · have := C40_count o names m (asLinux k addrs) s _ rfl (listOk_asLinux hok) hs (by rw [usables_asLinux]; exact hlen) hnames
    rw [usables_asLinux] at this
    exact this
  · exact C40_argv o names m (asLinux k addrs) s _ rfl (listOk_asLinux hok) hs

example : [[lit "em0"], [lit "em0", lit "lo0"], [lit "vlan5"]].map (fun names =>
    match bsdFetch 0 names {} bsdSample {} with | .ok r => (r.2, (r.1.netifs.filter (fun n => n.argv ≠ 0)).map (·.name)) | _ => (9, [])) =
    [(1, [lit "em0"]), (0, [lit "em0"]), (0, [])] := by decide +kernel

/-! ## C63 Aggregates on FreeBSD -/

/-- The ports of a lagg or bridge are those the kernel reports that are in the list and can be ports, each once and in the kernel's order.  Missing: macOS, see
`C63_macos_first`. -/
theorem C63_ports_partial (o : Opts) (names : List Bytes) (m : Mgmt) (k : BsdKernel) (s : Ifs) (addrs : List BIfAddr)
    (h : k.ifaddrs = some addrs) (hok : BsdOk k addrs) (hs : (s.netifs.map (·.index)).Nodup) :
    ∃ r, bsdFetch o names m k s = .ok r ∧ (BsdOnce k r.1.netifs → ∀ n ∈ r.1.netifs,
      (∃ ps, ports r.1.netifs n = .ok ps ∧ (∀ p ∈ ps, p ∈ r.1.netifs) ∧
        ps.map (·.index) = if n.type > 10 then bsdPorts k r.1.netifs n else if n.type < 0 then [] else [n.index]) ∧
      ∀ i, n.parent = some i ↔ ∃ a ∈ r.1.netifs, a.index = i ∧ n.index ∈ bsdPorts k r.1.netifs a) := by
  refine ⟨_, bsdFetch_asLinux o names m k s h hok hs, ?_⟩
  intro ho n hn
  have hl := listOk_asLinux hok
  have hm := fetch_mirror o names m (asLinux k addrs) s _ rfl hl hs
  rw [usables_asLinux] at hm
  have hnd := fetch_nodup o names m (asLinux k addrs) s _ rfl hl hs
  have hk := kernelOk_asLinux hok hm hnd ho
  constructor
  · obtain ⟨ps, h1, h2, -, h3⟩ := C29_ports_partial o names m (asLinux k addrs) s _ rfl hl hs hk n hn
    rw [portsOf_asLinux hok hm hnd hn] at h3
    exact ⟨ps, h1, h2, h3⟩
  · intro i
    rw [C29_parent_partial o names m (asLinux k addrs) s _ rfl hl hs hk n hn i]
    constructor
    · rintro ⟨a, ha, e, hp⟩
      rw [portsOf_asLinux hok hm hnd ha] at hp
      exact ⟨a, ha, e, hp⟩
    · rintro ⟨a, ha, e, hp⟩
      rw [← portsOf_asLinux hok hm hnd ha] at hp
      exact ⟨a, ha, e, hp⟩

example : (match bsdFetch 0 [] {} bsdSample {} with | .ok r => (decide (BsdOnce bsdSample r.1.netifs),
    (r.1.netifs.filter (fun n => n.type > 10)).map (fun n => (n.name, bsdPorts bsdSample r.1.netifs n))) | _ => (false, [])) =
    (true, [(lit "lagg0", [2, 1]), (lit "bridge0", [3])]) := by decide +kernel

/-- The traversal without interfaces on the command line visits, once each, the interfaces that are no ports, and of the aggregates those with ports.  Missing: macOS, see
`C63_macos_first`. -/
theorem C63_selected_partial (o : Opts) (names : List Bytes) (m : Mgmt) (k : BsdKernel) (s : Ifs) (addrs : List BIfAddr)
    (h : k.ifaddrs = some addrs) (hok : BsdOk k addrs) (hs : (s.netifs.map (·.index)).Nodup) (ho : o.testBit 5 = false) :
    ∃ r, bsdFetch o names m k s = .ok r ∧ (BsdOnce k r.1.netifs → netifTraverse o r.1.netifs =
      r.1.netifs.filter (fun n => (∀ a ∈ r.1.netifs, n.index ∉ bsdPorts k r.1.netifs a) ∧ (n.type > 10 → bsdPorts k r.1.netifs n ≠ []))) := by
  refine ⟨_, bsdFetch_asLinux o names m k s h hok hs, ?_⟩
  intro hon
  have hl := listOk_asLinux hok
  have hm := fetch_mirror o names m (asLinux k addrs) s _ rfl hl hs
  rw [usables_asLinux] at hm
  have hnd := fetch_nodup o names m (asLinux k addrs) s _ rfl hl hs
  have hk := kernelOk_asLinux hok hm hnd hon
  rw [C29_selected_partial o names m (asLinux k addrs) s _ rfl hl hs hk ho]
  refine List.filter_congr (fun n hn => ?_)
  rw [portsOf_asLinux hok hm hnd hn]
  refine decide_eq_decide.mpr (and_congr ?_ Iff.rfl)
  constructor
  · intro hh a ha; rw [← portsOf_asLinux hok hm hnd ha]; exact hh a ha
  · intro hh a ha; rw [portsOf_asLinux hok hm hnd ha]; exact hh a ha

example : (match bsdFetch 0 [] {} bsdSample {} with | .ok r => (netifTraverse 0 r.1.netifs).map (·.name) | _ => []) =
    [lit "lagg0", lit "bridge0", lit "tap0", lit "vlan5"] := by decide +kernel

/-- The kind of aggregation and the role of the ports are those the kernel reports.  Missing: macOS, see
`C63_macos_first`. -/
theorem C63_roles_partial (o : Opts) (names : List Bytes) (m : Mgmt) (k : BsdKernel) (s : Ifs) (addrs : List BIfAddr)
    (h : k.ifaddrs = some addrs) (hok : BsdOk k addrs) (hs : (s.netifs.map (·.index)).Nodup) :
    ∃ r, bsdFetch o names m k s = .ok r ∧ (∀ n ∈ r.1.netifs, n.bondingMode = bsdMode k n) ∧ (BsdOnce k r.1.netifs →
      ∀ p ∈ r.1.netifs, (∀ a ∈ r.1.netifs, p.index ∈ bsdPorts k r.1.netifs a → BsdRole k r.1.netifs a p.index p.child p.lacpIndex) ∧
        ((∀ a ∈ r.1.netifs, p.index ∉ bsdPorts k r.1.netifs a) → p.child = 0 ∧ p.lacpIndex = 0)) := by
  have hl := listOk_asLinux hok
  refine ⟨_, bsdFetch_asLinux o names m k s h hok hs, ?_, ?_⟩
  · intro n hn
    rw [C51_mode o names m (asLinux k addrs) s _ rfl hl hs n hn, modeOf_asLinux]
  · intro hon p hp
    have hm := fetch_mirror o names m (asLinux k addrs) s _ rfl hl hs
    rw [usables_asLinux] at hm
    have hnd := fetch_nodup o names m (asLinux k addrs) s _ rfl hl hs
    have hk := kernelOk_asLinux hok hm hnd hon
    obtain ⟨h1, h2⟩ := C51_role o names m (asLinux k addrs) s _ rfl hl hs hk p hp
    constructor
    · intro a ha hpa
      rw [← portsOf_asLinux hok hm hnd ha] at hpa
      exact roleIn_asLinux _ _ _ _ _ (h1 a ha hpa)
    · intro hno
      refine h2 (fun a ha => ?_)
      rw [portsOf_asLinux hok hm hnd ha]
      exact hno a ha

example : (match bsdFetch 0 [] {} bsdSample {} with | .ok r => (r.1.netifs.map (fun n => (n.name, n.bondingMode, n.child, n.lacpIndex))).take 4 | _ => []) =
    [(lit "em0", 0, 2, 2), (lit "em1", 0, 1, 0), (lit "em2", 0, 1, 0), (lit "lagg0", 1, 0, 0)] := by decide +kernel

/-- All members of a bridge are read, however many: the buffer grows until the list fits. -/
theorem C63_members (k : BsdKernel) (hm : ∀ n, k.realloc n = true) (hr : 0 < k.reqSize) (n : Nat) (hn : k.reqSize * (n + 1) < 2 ^ 30) :
    bridgeRead k n 32 8192 = .ok (some n) := bridgeRead_start k hm hr n hn

example : bridgeRead bsdSample 1000 32 8192 = .ok (some 1000) := C63_members bsdSample (fun _ => rfl) (by decide) 1000 (by decide)

/-- On macOS only the first member of a bond becomes a port. -/
theorem C63_macos_first : ∃ (l : List Netif) (b : Netif) (x : Netif), b ∈ l ∧ b.type = 12 ∧ x ∈ l ∧ x.type = 0 ∧
    ∃ ps, ports (macBond true [lit "en0", x.name] l b) { b with subif := some 1 } = .ok ps ∧ x.index ∉ ps.map (·.index) ∧
      ∃ y ∈ macBond true [lit "en0", x.name] l b, y.name = x.name ∧ y.parent = none :=
  ⟨[{ index := 1, name := lit "en0", hwaddr := bsdHw 1 }, { index := 2, name := lit "en1", hwaddr := bsdHw 2 },
    { index := 3, name := lit "bond0", hwaddr := bsdHw 1, type := 12 }], { index := 3, name := lit "bond0", hwaddr := bsdHw 1, type := 12 },
   { index := 2, name := lit "en1", hwaddr := bsdHw 2 }, by decide +kernel, rfl, by decide +kernel, rfl,
   [{ index := 1, name := lit "en0", hwaddr := bsdHw 1, child := 1, parent := some 3 }], by decide +kernel, by decide +kernel,
   { index := 2, name := lit "en1", hwaddr := bsdHw 2 }, by decide +kernel, rfl, rfl⟩

/-- On macOS a bond of three members has a port that is its own successor: walking its ports never ends. -/
theorem C63_macos_endless : ∃ (l : List Netif) (b : Netif), b ∈ l ∧ b.type = 12 ∧
    ∃ x ∈ macBond true [lit "en0", lit "en1", lit "en2"] l b, x.subif = some x.index ∧
    ∃ y ∈ macBond true [lit "en0", lit "en1", lit "en2"] l b, y.index = b.index ∧
      ports (macBond true [lit "en0", lit "en1", lit "en2"] l b) y = .stuck :=
  ⟨[{ index := 1, name := lit "en0", hwaddr := bsdHw 1 }, { index := 2, name := lit "en1", hwaddr := bsdHw 2 },
    { index := 4, name := lit "en2", hwaddr := bsdHw 4 }, { index := 3, name := lit "bond0", hwaddr := bsdHw 1, type := 12 }],
   { index := 3, name := lit "bond0", hwaddr := bsdHw 1, type := 12 }, by decide +kernel, rfl,
   { index := 1, name := lit "en0", hwaddr := bsdHw 1, child := 1, lacpIndex := 2, parent := some 3, subif := some 1 }, by decide +kernel, rfl,
   { index := 3, name := lit "bond0", hwaddr := bsdHw 1, type := 12, bondingMode := 1, subif := some 1 }, by decide +kernel, rfl, by decide +kernel⟩

/-! ## C64 VLANs on FreeBSD -/

/-- A VLAN has the parent and the id that the kernel reports for it, if its link level address is the last one the kernel lists.  Missing: all other
VLANs, see `C64_vlan_wrong`. -/
theorem C64_vlan_partial (o : Opts) (names : List Bytes) (m : Mgmt) (k : BsdKernel) (s : Ifs) (addrs : List BIfAddr)
    (h : k.ifaddrs = some addrs) (hok : BsdOk k addrs) (hs : (s.netifs.map (·.index)).Nodup) :
    ∃ r, bsdFetch o names m k s = .ok r ∧ ∀ n ∈ r.1.netifs,
      (n.type ≠ -1 → (n.vlanParent, n.vlanId) = (0, 0)) ∧
      (n.type = -1 → lastName addrs = some n.name → (n.vlanParent, n.vlanId) = bsdVlanOf k r.1.netifs n.name) := by
  refine ⟨_, bsdFetch_asLinux o names m k s h hok hs, ?_⟩
  intro n hn
  have hv := C51_vlan o names m (asLinux k addrs) s _ rfl (listOk_asLinux hok) hs n hn
  rw [vlanOf_asLinux hok] at hv
  constructor
  · intro ht
    rw [hv, if_neg ht]
  · intro ht hl
    rw [hv, if_pos ht, hl]

example : lastName bsdAddrs = some (lit "vlan5") ∧
    (match bsdFetch 0 [] {} bsdSample {} with | .ok r => (r.1.netifs.map (fun n => (n.name, n.vlanParent, n.vlanId))).getLast? | _ => none) =
      some (lit "vlan5", 6, 5) := by decide +kernel

/-- What all VLANs get: the parent and the id the kernel reports for the interface of the last link level address. -/
theorem C64_vlan_last (o : Opts) (names : List Bytes) (m : Mgmt) (k : BsdKernel) (s : Ifs) (addrs : List BIfAddr)
    (h : k.ifaddrs = some addrs) (hok : BsdOk k addrs) (hs : (s.netifs.map (·.index)).Nodup) (name : Bytes) (hl : lastName addrs = some name) :
    ∃ r, bsdFetch o names m k s = .ok r ∧ ∀ n ∈ r.1.netifs, n.type = -1 → (n.vlanParent, n.vlanId) = bsdVlanOf k r.1.netifs name := by
  refine ⟨_, bsdFetch_asLinux o names m k s h hok hs, ?_⟩
  intro n hn ht
  have hv := C51_vlan o names m (asLinux k addrs) s _ rfl (listOk_asLinux hok) hs n hn
  rw [vlanOf_asLinux hok, if_pos ht, hl] at hv
  exact hv

/-- Two VLANs: vlan5 on em0 with id 5 and vlan6 on em1 with id 6. -/
def twoVlans : BsdKernel where
  ifaddrs := some [⟨lit "em0", .link 6 1 (bsdHw 1)⟩, ⟨lit "em1", .link 6 2 (bsdHw 2)⟩, ⟨lit "vlan5", .link 6 3 (bsdHw 1)⟩,
    ⟨lit "vlan6", .link 6 4 (bsdHw 2)⟩]
  up := fun _ => true
  wireless := fun _ => false
  ifType := fun _ => 6
  driver := fun _ => none
  vlan := fun n => if n = lit "vlan5" then some (lit "em0", 5) else if n = lit "vlan6" then some (lit "em1", 6) else none
  lagg := fun _ => none
  members := fun _ => none
  descr := fun _ => none
  sysctl := fun _ => none
  realloc := fun _ => true

/-- A VLAN is given the parent and the id of another one. -/
theorem C64_vlan_wrong : (match bsdFetch 0 [] {} twoVlans {} with
      | .ok r => (r.1.netifs.filter (fun n => n.type = -1)).map (fun n => (n.name, (n.vlanParent, n.vlanId), bsdVlanOf twoVlans r.1.netifs n.name))
      | _ => []) =
    [(lit "vlan5", (2, 6), (1, 5)), (lit "vlan6", (2, 6), (2, 6))] := by decide +kernel

/-! ## C65 Descriptions of devices on FreeBSD -/

/-- The description of a network card is that of the device with the driver and unit number of the interface.  It is asked for once and kept.
Missing: driver names and descriptions that are too long, see `C65_driver_long` and `C65_text_long`. -/
theorem C65_device_partial (o : Opts) (names : List Bytes) (m : Mgmt) (k : BsdKernel) (s : Ifs) (addrs : List BIfAddr)
    (h : k.ifaddrs = some addrs) (hok : BsdOk k addrs) (hs : (s.netifs.map (·.index)).Nodup) :
    ∃ r, bsdFetch o names m k s = .ok r ∧ ∀ n ∈ r.1.netifs,
      let before := ((withIndex s.netifs n.index).map (fun o => (o.deviceIdentified, o.deviceName))).getD (0, [])
      (n.type ≠ 0 ∨ before.1 ≠ 0 → (n.deviceIdentified, n.deviceName) = before) ∧
      (n.type = 0 → before.1 = 0 → n.deviceIdentified = 1 ∧ (∀ text, DeviceIs k n.index text → n.deviceName = text.getD before.2) ∧
        ((∀ text, ¬ DeviceIs k n.index text) → n.deviceName = before.2)) := by
  refine ⟨_, bsdFetch_asLinux o names m k s h hok hs, ?_⟩
  intro n hn before
  have hl := listOk_asLinux hok
  have hv := C51_device o names m (asLinux k addrs) s _ rfl hl hs n hn
  have hm := fetch_mirror o names m (asLinux k addrs) s _ rfl hl hs
  rw [usables_asLinux] at hm
  obtain ⟨e, he, hd⟩ := hm.fwd n hn
  have hix : n.index ∈ linkIndexes addrs := by
    obtain ⟨ia, hia, hu⟩ := List.mem_filterMap.mp he
    refine List.mem_filterMap.mpr ⟨ia, hia, ?_⟩
    unfold bsdUsable at hu
    split at hu
    · rename_i ha
      split at hu
      · obtain ⟨t, -, rfl⟩ := Option.map_eq_some_iff.mp hu
        exact congrArg some hd.1.symm
      · cases hu
    · cases hu
  have hdr := hok.driver n.index hix
  obtain ⟨ht1, ht2⟩ := deviceText_is hdr
  constructor
  · intro hc
    dsimp only at hv
    rw [hv, if_neg]
    rintro ⟨h1, h2⟩
    rcases hc with hc | hc
    · exact hc h1
    · exact hc h2
  · intro h1 h2
    dsimp only at hv
    rw [if_pos ⟨h1, h2⟩] at hv
    injection hv with hv1 hv2
    refine ⟨hv1, ?_, ?_⟩
    · intro text htext
      rw [hv2]
      have e : (asLinux k addrs).deviceId n.index = text := ht1 text htext
      rw [e]
      cases text with
      | none => rfl
      | some d =>
        obtain ⟨stem, unit, -, -, -, -, ht⟩ := htext
        have hdd := hok.device _ d (by rw [← ht]; exact List.mem_singleton.mpr rfl)
        have : (d.takeWhile (· ≠ 0)).take 63 = d := by
          have : d.takeWhile (· ≠ 0) = d := cstr_self hdd.2
          rw [this, List.take_of_length_le hdd.1]
        exact this
    · intro hno
      rw [hv2]
      have e : (asLinux k addrs).deviceId n.index = none := ht2 hno
      rw [e]
      rfl

example : DeviceIs bsdSample 1 (some (lit "Intel PRO/1000")) :=
  ⟨lit "em", lit "0", by decide +kernel, by decide +kernel, by decide +kernel, by decide +kernel, by decide +kernel⟩

example : (match bsdFetch 0 [] {} bsdSample {} with | .ok r => (r.1.netifs.map (fun n => (n.deviceIdentified, n.deviceName))).take 2 | _ => []) =
    [(1, lit "Intel PRO/1000"), (1, [])] := by decide +kernel

/-- One card, `name` is that of its driver, `text` its description. -/
def oneCard (name text : Bytes) : BsdKernel where
  ifaddrs := some [⟨lit "net0", .link 6 1 (bsdHw 1)⟩]
  up := fun _ => true
  wireless := fun _ => false
  ifType := fun _ => 6
  driver := fun _ => some name
  vlan := fun _ => none
  lagg := fun _ => none
  members := fun _ => none
  descr := fun _ => none
  sysctl := fun _ => some text
  realloc := fun _ => true

/-- With a driver name of 16 characters that ends in a unit number the code reads behind the buffer of the name. -/
theorem C65_driver_long : bsdFetch 0 [] {} (oneCard (lit "longdrivername10") (lit "card")) {} = .oob := by decide +kernel

/-- A description of 64 characters fills its buffer completely, there is no NUL at its end. -/
theorem C65_text_long : (match bsdFetch 0 [] {} (oneCard (lit "em0") (List.replicate 64 65)) {} with
      | .ok r => r.1.netifs.map (fun n => n.deviceName.length) | _ => []) = [64] := by decide +kernel

/-! ## C66 Link properties on FreeBSD -/

/-- The link properties of an interface are those that the kernel reports. -/
theorem C66_link (m : BsdMedia) (n : Netif) : BsdLinkIs m n (bsdMedia m n) := bsdMedia_is m n

/-- At most one row of each table applies. -/
theorem C66_unique (w : MediaWord) : (∀ r ∈ bsdMauRows, ∀ r' ∈ bsdMauRows, mediaFits w r → mediaFits w r' → r = r') ∧
    (∀ r ∈ bsdPmdRows, ∀ r' ∈ bsdPmdRows, mediaFits w r → mediaFits w r' → r = r') := by
  have k1 : ∀ a ∈ bsdMauRows, ∀ b ∈ bsdMauRows, a.1 = b.1 → (∀ s ∈ a.2.1, ∀ t ∈ b.2.1, s = t) → a = b := by decide +kernel
  have k2 : ∀ a ∈ bsdPmdRows, ∀ b ∈ bsdPmdRows, a.1 = b.1 → (∀ s ∈ a.2.1, ∀ t ∈ b.2.1, s = t) → a = b := by decide +kernel
  constructor
  · intro r h r' h' hf hf'
    exact k1 r h r' h' (hf.1.symm.trans hf'.1) (fun s hs t ht => (hf.2 s hs).symm.trans (hf'.2 t ht))
  · intro r h r' h' hf hf'
    exact k2 r h r' h' (hf.1.symm.trans hf'.1) (fun s hs t ht => (hf.2 s hs).symm.trans (hf'.2 t ht))

/-- A gigabit card that negotiates, a fibre card that does not, and one without link. -/
def bsdMediaSample : BsdMedia where
  mtu := fun n => if n = lit "em0" then some 9000 else if n = lit "em1" then some 66000 else none
  media := fun n =>
    if n = lit "em0" then some ⟨⟨true, .auto, false⟩, ⟨true, .t1000, true⟩, true,
      [⟨true, .auto, false⟩, ⟨true, .t10, false⟩, ⟨true, .t10, true⟩, ⟨true, .tx100, true⟩, ⟨true, .t1000, true⟩]⟩
    else if n = lit "em1" then some ⟨⟨true, .fx100, false⟩, ⟨true, .fx100, false⟩, true, [⟨true, .fx100, false⟩]⟩
    else if n = lit "em2" then some ⟨⟨true, .auto, false⟩, ⟨true, .auto, false⟩, false, [⟨true, .auto, false⟩]⟩
    else none

example : ([lit "em0", lit "em1", lit "em2"].map (fun s => bsdMedia bsdMediaSample { index := 1, name := s, type := 0, mtu := 7, hwaddr := [] })).map
    (fun n => (n.mtu, n.duplex, n.autonegSupported, n.autonegEnabled, n.autonegPmd, n.mau)) =
    [(9000, 1, 1, 1, 0x6401, 30), (464, 0, 0, -1, 0x8000, 17), (7, -1, -1, -1, 0, 0)] := by decide +kernel

/-! ## C67 Link notifications on FreeBSD -/

/-- A report of the kernel triggers an announcement exactly for an Ethernet interface that is up and running and whose link is not down, and it is
the interface reported. -/
theorem C67_report (r : RtReport) (msg : Bytes) (h : r.LaidOut msg) : routeLink (some msg) = if r.LinkUp then some r.index else none :=
  routeLink_laidOut h

/-- No other message triggers one, nor does an error of `read`. -/
theorem C67_other (got : Option Bytes)
    (h : ∀ msg ∈ got, msg.length < 152 ∨ msg[2]? ≠ some 5 ∨ msg[3]? ≠ some 14) : routeLink got = none := by
  cases got with
  | none => decide +kernel
  | some msg =>
    have h := h msg rfl
    unfold routeLink
    dsimp only [Option.getD_some]
    rw [if_pos]
    by_cases hl : (msg.take 2048).length < 152
    · exact Or.inl hl
    · right
      have hl' : 152 ≤ msg.length := by rw [List.length_take] at hl; omega
      have e : ∀ i, (hi : i < 4) → ((msg.take 2048 ++ List.replicate (2048 - (msg.take 2048).length) 0).getD i 0) = msg[i]'(by omega) := by
        intro i hi
        rw [List.getD_eq_getElem?_getD, List.getElem?_append_left (by omega), List.getElem?_take_of_lt (by omega),
          List.getElem?_eq_getElem (by omega), Option.getD_some]
      rcases h with h | h | h
      · omega
      · left
        rw [e 2 (by omega)]
        rw [List.getElem?_eq_getElem (by omega)] at h
        exact fun hc => h (congrArg some (UInt8.toNat_inj.mp hc))
      · right
        rw [e 3 (by omega)]
        rw [List.getElem?_eq_getElem (by omega)] at h
        exact fun hc => h (congrArg some (UInt8.toNat_inj.mp hc))

/-- A message as above. -/
def rtSample (link : UInt8) : Bytes :=
  [168, 0, 5, 14, 0, 0, 0, 0, 0x43, 0x88, 0, 0, 2, 1, 0, 0, 6, 6, 18, 168, link] ++ List.replicate 147 0

example : (⟨6, 0x8843, 258, 2⟩ : RtReport).LaidOut (rtSample 2) ∧ (⟨6, 0x8843, 258, 2⟩ : RtReport).LinkUp :=
  ⟨⟨168, 0, 0, 0, 0, 0, 0x43, 0x88, 0, 0, 2, 1, 0, 0, 6, 6, 18, 168, 2, List.replicate 147 0, rfl, by decide +kernel, by decide +kernel,
    by decide +kernel, by decide +kernel, by decide +kernel, by decide +kernel⟩, by decide +kernel⟩

example : [2, 1, 0].map (fun s => routeLink (some (rtSample s))) = [some 258, none, some 258] := by decide +kernel

end Ladvd.Props
