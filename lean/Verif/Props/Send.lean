import Verif.Lemmas.Flap
import Verif.Props.Fetch
import Verif.Props.Packet
import Verif.Props.Queue
/-!
# C22, C23, C24: transmission
-/

namespace Ladvd.Props

open Spec

theorem sendSkip_eq (c : Conf) (n : Netif) : sendSkip c n = false ↔ mayUse c n := by
  unfold sendSkip mayUse netifExcluded
  have hx : (c.excl.any (fun e => n.name == e)) = true ↔ n.name ∈ c.excl := by
    rw [List.any_eq_true]
    exact ⟨fun ⟨x, hx, h⟩ => (beq_iff_eq.mp h) ▸ hx, fun h => ⟨_, h, beq_self_eq_true _⟩⟩
  have h9 : c.opts.has OPT_WIRELESS = c.opts.testBit 9 := rfl
  have h10 : c.opts.has OPT_TAP = c.opts.testBit 10 := rfl
  have e0 : NETIF_REGULAR = 0 := rfl
  have e1 : NETIF_WIRELESS = 1 := rfl
  have e2 : NETIF_TAP = 2 := rfl
  rw [h9, h10, e0, e1, e2]
  simp only [Bool.or_eq_false_iff, decide_eq_false_iff_not, Bool.and_eq_false_imp, beq_iff_eq, Bool.not_eq_eq_eq_not, Bool.not_false,
    ← hx, Bool.not_eq_true, and_assoc]
  constructor
  · rintro ⟨a, b, c, d⟩; exact ⟨by omega, b, c, d⟩
  · rintro ⟨a, b, c, d⟩; exact ⟨by omega, b, c, d⟩

/-! ## C22 Advertisements are sent only where permitted -/

/-- The protocol a message is sent with is one that is enabled, or automatic enabling is on and an advertisement of that
protocol was received before on the interface `n` or on one of its ports. -/
def Permitted (c : Conf) (d0 : Daemon) (es : List Event) (n : Nat) (p : Proto) : Prop :=
  c.enabled p = true ∨ (c.opts.testBit 3 = true ∧ ∃ j, AttachedDuring c es d0 n j ∧ Heard es j p)

theorem static_shape {a b : Netif} (h : static a = static b) : shape a = shape b := shape_of_static h

/-- The messages of one round, seen from the list after it. -/
theorem round_sent {c : Conf} {k : Kernel} {m : Media} {link : Option Nat} {d d' : Daemon} (h : sendRound c k m link d = .ok d') :
    ∃ new, d'.tx = d.tx ++ new ∧ ∀ t ∈ new, c.opts.testBit 1 = true ∧
      ∃ n ∈ d'.child.netifs, ∃ s ∈ d'.child.netifs, s.index = t.index ∧ mayUse c s ∧ mayUse c n ∧
        (t.index = n.index ∨ Reach d'.child.netifs n.index t.index) ∧
        (c.enabled t.proto = true ∨ n.protos.testBit t.proto.num = true) := by
  obtain ⟨d1, new, hd, hs, ho⟩ := sendRound_sent h
  refine ⟨new, ?_, ?_⟩
  · rw [hs.tx]
    rcases hd with rfl | rfl <;> rfl
  · intro t ht
    obtain ⟨n, s, d2, a, hs2, hsm, ⟨x, hx, hxn⟩, ⟨ps, hps, hin⟩, hsend, hkn, hks, hw, -, -, hti, -⟩ := ho t ht
    have hlift : ∀ {l l' : List Netif}, l'.map static = l.map static → ∀ {z : Netif}, z ∈ l → ∃ z' ∈ l', static z' = static z := by
      intro l l' h z hz
      have : static z ∈ l.map static := List.mem_map_of_mem hz
      rw [← h] at this
      exact List.mem_map.mp this
    obtain ⟨n', hn', hne⟩ := hlift hs.same hx
    have hne : static n' = static n := hne.trans hxn
    obtain ⟨s1, hs1, hse1⟩ := hlift hs2.same.symm hsm
    obtain ⟨s', hs', hse⟩ := hlift hs.same hs1
    have hse : static s' = static s := hse.trans hse1
    have hidx : ∀ {a b : Netif}, static a = static b → a.index = b.index := fun h =>
      show (static _).index = (static _).index by rw [h]
    refine ⟨hsend, n', hn', s', hs', (hidx hse).trans hti.symm, ?_, ?_, ?_, ?_⟩
    · rw [← sendSkip_eq, ← sendSkip_static, hse, sendSkip_static]; exact hks
    · rw [← sendSkip_eq, ← sendSkip_static, hne, sendSkip_static]; exact hkn
    · rw [hti]
      have hps' : portIdx d'.child.netifs n' = .ok ps := by
        rw [← hps, ← portIdx_static, ← portIdx_static d1.child.netifs, hs.same, hne]
      unfold portIdx at hps'
      cases e : ports d'.child.netifs n' with
      | ok xs =>
        rw [e] at hps'
        injection hps' with hps'
        rw [← hps'] at hin
        obtain ⟨y, hy, hyi⟩ := List.mem_map.mp hin
        rw [← hyi]
        exact (ports_reach hn' e y hy).2
      | fail => rw [e] at hps'; cases hps'
      | oob => rw [e] at hps'; cases hps'
      | abort => rw [e] at hps'; cases hps'
      | stuck => rw [e] at hps'; cases hps'
    · unfold wanted at hw
      rw [Bool.or_eq_true] at hw
      have hp : n'.protos = n.protos := show (static _).protos = (static _).protos by rw [hne]
      rw [hp]
      exact hw

/-- Whatever events occurred since the start, the messages sent for the next event are sent only with `-s` not given,
only on interfaces that may be used, on behalf of an interface or aggregate that may be used and that has this port, and
only with permitted protocols. -/
theorem C22_permitted (c : Conf) (d0 : Daemon) (h0 : d0.child.netifs = []) (hq : d0.child.queue = []) (es : List Event) (d : Daemon)
    (hr : daemonRun c es d0 = .ok d) (e : Event) (d' : Daemon) (hs : daemonStep c d e = .ok d') :
    ∃ new, d'.tx = d.tx ++ new ∧ ∀ t ∈ new, c.opts.testBit 1 = true ∧
      ∃ n ∈ d'.child.netifs, ∃ s ∈ d'.child.netifs, s.index = t.index ∧ mayUse c s ∧ mayUse c n ∧
        (t.index = n.index ∨ Reach d'.child.netifs n.index t.index) ∧ Permitted c d0 es n.index t.proto := by
  have hinv := autoInv_run h0 hq hr
  have hlift : ∀ {d1 : Daemon} {r : Res Child}, d1.lift r = .ok d' → ∃ ch, r = .ok ch ∧ d' = { d1 with child := ch } := by
    intro d1 r h
    unfold Daemon.lift at h
    cases r with
    | ok ch => injection h with h; exact ⟨ch, rfl, h.symm⟩
    | fail => cases h
    | oob => cases h
    | abort => cases h
    | stuck => cases h
  -- a round, followed by operations that keep the shape of the list
  have key : ∀ {k m link d1}, sendRound c k m link d = .ok d1 → d'.tx = d1.tx →
      d'.child.netifs.map shape = d1.child.netifs.map shape →
      ∃ new, d'.tx = d.tx ++ new ∧ ∀ t ∈ new, c.opts.testBit 1 = true ∧
        ∃ n ∈ d'.child.netifs, ∃ s ∈ d'.child.netifs, s.index = t.index ∧ mayUse c s ∧ mayUse c n ∧
          (t.index = n.index ∨ Reach d'.child.netifs n.index t.index) ∧ Permitted c d0 es n.index t.proto := by
    intro k m link d1 hround htx hsh
    obtain ⟨new, hnew, hall⟩ := round_sent hround
    refine ⟨new, htx.trans hnew, ?_⟩
    intro t ht
    obtain ⟨hsend, n, hn, s, hs, hsi, hus, hun, hre, hp⟩ := hall t ht
    obtain ⟨n', hn', en⟩ := mem_shape hsh.symm hn
    obtain ⟨s', hs', es'⟩ := mem_shape hsh.symm hs
    have huse : ∀ {a b : Netif}, shape a = shape b → mayUse c b → mayUse c a := by
      intro a b hab
      unfold mayUse
      rw [shape_type hab, shape_name hab]
      exact id
    refine ⟨hsend, n', hn', s', hs', (shape_index es').trans hsi, huse es' hus, huse en hun, ?_, ?_⟩
    · rw [shape_index en]
      rcases hre with h | h
      · exact Or.inl h
      · exact Or.inr (reach_shape hsh.symm h)
    · rcases hp with hp | hp
      · exact Or.inl hp
      · obtain ⟨x, hx, hxi, hxp⟩ := sendRound_protos hround n hn hp
        have := hinv.bits x hx t.proto hxp
        rw [hxi] at this
        rw [shape_index en]
        exact Or.inr this
  have hsame : ∀ ch, d' = { d with child := ch } → ∃ new, d'.tx = d.tx ++ new ∧ ∀ t ∈ new, c.opts.testBit 1 = true ∧
        ∃ n ∈ d'.child.netifs, ∃ s ∈ d'.child.netifs, s.index = t.index ∧ mayUse c s ∧ mayUse c n ∧
          (t.index = n.index ∨ Reach d'.child.netifs n.index t.index) ∧ Permitted c d0 es n.index t.proto := by
    rintro ch rfl
    exact ⟨[], (List.append_nil _).symm, fun _ h => nomatch h⟩
  cases e with
  | timer k m now =>
    rw [daemonStep] at hs
    cases hround : sendRound c k m none d with
    | ok d1 =>
      rw [hround] at hs
      simp only [Res.bind_ok] at hs
      split at hs
      · obtain ⟨ch, hc, rfl⟩ := hlift hs
        exact key hround rfl (childExpire_bits hc).1
      · injection hs with hs
        subst hs
        exact key hround rfl rfl
    | fail => rw [hround] at hs; cases hs
    | oob => rw [hround] at hs; cases hs
    | abort => rw [hround] at hs; cases hs
    | stuck => rw [hround] at hs; cases hs
  | link k m a b i =>
    rw [daemonStep] at hs
    split at hs
    · exact key hs rfl rfl
    · injection hs with hs
      exact hsame d'.child (by rw [hs])
  | recv now r => obtain ⟨ch, -, h⟩ := hlift hs; exact hsame ch h
  | accept => obtain ⟨ch, -, h⟩ := hlift hs; exact hsame ch h
  | write sid ws => obtain ⟨ch, -, h⟩ := hlift hs; exact hsame ch h

/-- Automatic enabling on, no protocol enabled. -/
def cAuto : Conf := { opts := (1 <<< 1) ||| (1 <<< 2) ||| (1 <<< 3) }

/-- A first round sends nothing; after an NDP frame on eth1 the next round sends NDP on both ports of its bond. -/
example : (match daemonRun cAuto [.timer sampleKernel {} 0, .recv (some 5) (sampleMsg 77)] {} with
    | .ok d => (d.tx, d.child.netifs.map (·.protos)) | _ => ([], [])) = ([], [0, 0, 0, 16, 0, 0]) := by
  decide +kernel
example : (match daemonRun cAuto [.timer sampleKernel {} 0, .recv (some 5) (sampleMsg 77), .timer sampleKernel {} 30] {} with
    | .ok d => d.tx.map key | _ => []) = [(3, .ndp), (2, .ndp)] := by
  decide +kernel

/-! ## C23 Every permitted interface is advertised on -/

theorem vlan_count {us : List Link} {l : List Netif} (hM : Mirror us l) (hnd : (l.map (·.index)).Nodup)
    (hv : (us.filter (fun e => e.kind = -1)).length ≤ 10) : (l.filter (fun n => n.type = -1)).length ≤ 10 := by
  refine Nat.le_trans ?_ hv
  have hsub : ((l.filter (fun n => n.type = -1)).map (·.index)) ⊆ ((us.filter (fun e => e.kind = -1)).map (·.index)) := by
    intro i hi
    obtain ⟨n, hn, rfl⟩ := List.mem_map.mp hi
    obtain ⟨hn, ht⟩ := List.mem_filter.mp hn
    obtain ⟨e, he, hd⟩ := hM.fwd n hn
    refine List.mem_map.mpr ⟨e, List.mem_filter.mpr ⟨he, ?_⟩, hd.1.symm⟩
    rw [← hd.2.2]
    exact ht
  have := List.Nodup.length_le_of_subset (List.Nodup.sublist (List.filter_sublist.map _) hnd) hsub
  rwa [List.length_map, List.length_map] at this

/-- The counter of link events of an interface. -/
def flaps (d : Daemon) (i : Nat) : Nat := ((withIndex d.child.netifs i).map (·.linkEvent)).getD 0

theorem flaps_eq (d : Daemon) (i : Nat) : flaps d i = (linkOf d i).getD 0 := by
  unfold flaps linkOf; rw [withIndex_eq]

/-- What is required for a round to have an effect: the kernel lists at least one usable interface, all the interfaces of the command
line are usable; not more than ten VLANs, and texts that are not too short. -/
structure Workable (c : Conf) (k : Kernel) (addrs : List IfAddr) (d : Daemon) : Prop where
  sane : Sane k
  listed : k.ifaddrs = some addrs
  count : if c.names = [] then usables k addrs ≠ [] else ∀ name ∈ c.names, ∃ e ∈ usables k addrs, e.name = name ∧ e.kind ≠ -1
  len : (usables k addrs).length < 65536
  names : c.names.length < 65536
  vlans : ((usables k addrs).filter (fun e => e.kind = -1)).length ≤ 10
  texts : 9 ≤ d.sys.hostname.length + d.sys.utsStr.length + d.sys.platform.length
  argv : c.opts.testBit 5 = true ↔ c.names ≠ []

/-- A round of any kind. -/
theorem round_due {c : Conf} {k : Kernel} {m : Media} {addrs : List IfAddr} {d : Daemon} (hg : Good d) (hw : Workable c k addrs d)
    (hsend : c.opts.testBit 1 = true) (link : Option Nat) (hl : ∀ i, link = some i → i ∈ (usables k addrs).map (·.index) ∧ flaps d i ≤ 3) :
    ∃ d' new, sendRound c k m link d = .ok d' ∧ Good d' ∧ d'.tx = d.tx ++ new ∧
      (NoOverlap c k (usables k addrs) → (new.map (fun t => (t.index, t.proto))).Nodup) ∧
      (∀ i p, (i, p) ∈ new.map (fun t => (t.index, t.proto)) ↔ (link = none ∨ link = some i) ∧
        Due c k (usables k addrs) (fun i => ((withIndex d.child.netifs i).map (·.protos)).getD 0) i p) ∧
      ∀ i, (∃ p, (i, p) ∈ new.map (fun t => (t.index, t.proto))) → flaps d' i = if link = none then 0
        else if NoOverlap c k (usables k addrs) then flaps d i + 1 else flaps d' i := by
  obtain ⟨hk, ha, hcount, hlen, hnames, hv, ht, hb⟩ := hw
  have hgf := good_fetch c hk hg
  obtain ⟨hM, hC⟩ := sane_consistent c hk ha d hg.nodup
  obtain ⟨hok, -, -⟩ := sane_fetch hk ha
  have hR := fetch_records c k ⟨d.child.netifs, d.sys, d.mnetif, d.closed⟩ addrs ha hok hg.nodup hC.kernel
  obtain ⟨d1, h1⟩ := sendRound_total (c := c) (k := k) (m := m) (link := link) (d := d) hgf.ok hgf.ends
  have hg1 := good_round hk hg h1
  -- the round itself
  have hne : (daemonFetch c k d).2 ≠ 0 :=
    (C40_count c.opts c.names c.mgmt k ⟨d.child.netifs, d.sys, d.mnetif, d.closed⟩ addrs ha hok hg.nodup hlen hnames).mpr hcount
  have hround : sendNetifs c (netifMedia m) link ((netifTraverse c.opts (daemonFetch c k d).1.child.netifs).map (·.index)) (daemonFetch c k d).1 = .ok d1 := by
    rcases sendRound_ok h1 with ⟨-, i, x, hli, hx, hx3⟩ | ⟨-, h | ⟨i, hli, hx⟩, -⟩ | ⟨-, -, -, h⟩
    · have := (hl i hli).2
      rw [flaps_eq, hx, Option.getD_some] at this
      omega
    · exact absurd h hne
    · rw [linkOf_fetch c hk ha d hg.nodup (hl i hli).1] at hx; cases hx
    · exact h
  obtain ⟨new, hs, -, -, hall, hlink⟩ := sendNetifs_ok (mediaFun _) _ hround
  have htx : 9 ≤ (daemonFetch c k d).1.sys.hostname.length + (daemonFetch c k d).1.sys.utsStr.length + (daemonFetch c k d).1.sys.platform.length := by
    obtain ⟨hsys, -⟩ := fetch_sys_rest c.opts c.names c.mgmt k ⟨d.child.netifs, d.sys, d.mnetif, d.closed⟩ ha
    have e : (daemonFetch c k d).1.sys = (netifFetch c.opts c.names c.mgmt k ⟨d.child.netifs, d.sys, d.mnetif, d.closed⟩).1.sys := rfl
    rw [e, hsys]
    exact ht
  have hkeys := hall (allBuild hgf.ok (vlan_count hM hC.nodup hv) htx)
  have htx1 : d1.tx = d.tx ++ new := hs.tx
  have hsubl : (netifTraverse c.opts (daemonFetch c k d).1.child.netifs).Sublist (daemonFetch c k d).1.child.netifs := by
    rw [C29_traverse]
    exact List.filter_sublist
  refine ⟨d1, new, h1, hg1, htx1, ?_, ?_, ?_⟩
  · intro hno
    rw [show new.map (fun t => (t.index, t.proto)) = new.map key from rfl, hkeys]
    exact plan_nodup hC hsubl (overlap_free hM hR hb hno)
  · intro i p
    rw [show new.map (fun t => (t.index, t.proto)) = new.map key from rfl, hkeys]
    exact plan_due hC hM hR hb (sendSkip_eq c) hsend link i p
  · rintro i ⟨p, hp⟩
    rw [show new.map (fun t => (t.index, t.proto)) = new.map key from rfl, hkeys] at hp
    have hdue := (plan_due hC hM hR hb (sendSkip_eq c) hsend link i p).mp hp
    obtain ⟨hpos, hli⟩ := visits_pos hC hp
    obtain ⟨e, he, -, -, s, hs', hsi, -⟩ := hdue.2
    have hf := linkOf_fetch c hk ha d hg.nodup (List.mem_map.mpr ⟨s, hs', hsi⟩)
    have hbump := hlink i
    rw [hf, Option.map_some] at hbump
    rw [flaps_eq d1, hbump, Option.getD_some]
    unfold bump
    rw [if_neg (by omega)]
    by_cases hln : link = none
    · rw [if_pos hln, if_pos hln]
    · rw [if_neg hln, if_neg hln]
      by_cases hno : NoOverlap c k (usables k addrs)
      · rw [if_pos hno]
        have hli' : link = some i := by rcases hli with h | h; exact absurd h hln; exact h
        have hone : visits link (((netifTraverse c.opts (daemonFetch c k d).1.child.netifs).map (·.index)).flatMap
            (visit c (daemonFetch c k d).1.child.netifs)) i ≤ 1 := by
          unfold visits
          rw [if_pos hli, visited_eq hC _ hsubl.subset]
          exact List.nodup_iff_count.mp (visited_nodup hC hsubl (overlap_free hM hR hb hno)) i
        have h3 := (hl i hli').2
        rw [flaps_eq] at h3 ⊢
        omega
      · rw [if_neg hno]

/-- A periodic round, after any history: it ends, and the messages sent are exactly those due, one for each interface and protocol
unless the command line names an aggregate together with one of its ports.  What is missing: in that case (see
`C23_overlap`) there are two. -/
theorem C23_round_partial (c : Conf) (hsend : c.opts.testBit 1 = true)
    (d0 : Daemon) (h0 : Started d0) (es : List Event) (hes : ∀ e ∈ es, SaneEvent e) (d : Daemon) (hr : daemonRun c es d0 = .ok d)
    (k : Kernel) (m : Media) (now : Int) (addrs : List IfAddr) (hw : Workable c k addrs d) :
    ∃ d' new, daemonStep c d (.timer k m now) = .ok d' ∧ d'.tx = d.tx ++ new ∧
      (NoOverlap c k (usables k addrs) → (new.map (fun t => (t.index, t.proto))).Nodup) ∧
      ∀ i p, (i, p) ∈ new.map (fun t => (t.index, t.proto)) ↔
        Due c k (usables k addrs) (fun i => ((withIndex d.child.netifs i).map (·.protos)).getD 0) i p := by
  obtain ⟨d1, new, h1, hg1, htx1, hnod, hmem, -⟩ := round_due (m := m) (good_run h0 hes hr) hw hsend none (fun i h => nomatch h)
  have hmem : ∀ i p, (i, p) ∈ new.map (fun t => (t.index, t.proto)) ↔
      Due c k (usables k addrs) (fun i => ((withIndex d.child.netifs i).map (·.protos)).getD 0) i p := by
    intro i p
    rw [hmem i p]
    exact ⟨fun h => h.2, fun h => ⟨Or.inl rfl, h⟩⟩
  rw [daemonStep, h1]
  simp only [Res.bind_ok]
  split
  · obtain ⟨ch, hch⟩ := childExpire_total c.opts now d1.child hg1.ends
    rw [hch]
    exact ⟨{ d1 with child := ch }, new, rfl, htx1, hnod, hmem⟩
  · exact ⟨d1, new, rfl, htx1, hnod, hmem⟩

/-- Without interfaces on the command line there is no overlap. -/
theorem C23_no_overlap (c : Conf) (k : Kernel) (us : List Link) (h : c.names = []) : NoOverlap c k us := by
  intro e _ hc a ha _
  unfold Chosen at hc
  rw [if_pos h] at hc
  exact hc a ha

/-- LLDP and CDP enabled. -/
def cTwo : Conf := { opts := 1 <<< 1, enabled := fun p => p == .lldp || p == .cdp }

/-- System information of usual sizes. -/
def dSys : Daemon where
  sys := {
    hostname := lit "host1", utsStr := lit "Linux 6.1.0", platform := lit "Linux", utsRel := [6, 1, 0],
    hwaddr := [0, 0, 0, 0, 0, 0] }

example : Started dSys ∧ Sane sampleKernel ∧ SaneEvent (.timer sampleKernel {} 0) ∧ sampleKernel.ifaddrs = some sampleAddrs ∧
    usables sampleKernel sampleAddrs ≠ [] ∧ (usables sampleKernel sampleAddrs).length < 65536 ∧
    ((usables sampleKernel sampleAddrs).filter (fun e => e.kind = -1)).length ≤ 10 ∧
    9 ≤ dSys.sys.hostname.length + dSys.sys.utsStr.length + dSys.sys.platform.length := by decide +kernel
example : (match daemonRun cTwo [.timer sampleKernel {} 0] dSys with | .ok d => d.tx.map key | _ => []) =
    [(3, .lldp), (3, .cdp), (2, .lldp), (2, .cdp), (4, .lldp), (4, .cdp)] := by decide +kernel
example : Due cTwo sampleKernel (usables sampleKernel sampleAddrs) (fun _ => 0) 2 .cdp ∧
    ¬ Due cTwo sampleKernel (usables sampleKernel sampleAddrs) (fun _ => 0) 6 .cdp ∧
    ¬ Due cTwo sampleKernel (usables sampleKernel sampleAddrs) (fun _ => 0) 8 .cdp ∧
    ¬ Due cTwo sampleKernel (usables sampleKernel sampleAddrs) (fun _ => 0) 2 .edp := by decide +kernel

/-- With interfaces on the command line. -/
def cNamed (names : List Bytes) : Conf := { opts := (1 <<< 1) ||| (1 <<< 5), names := names, enabled := fun p => p == .lldp }

example : (∀ name ∈ (cNamed [lit "bond0", lit "eth2"]).names, ∃ e ∈ usables sampleKernel sampleAddrs, e.name = name ∧ e.kind ≠ -1) ∧
    NoOverlap (cNamed [lit "bond0", lit "eth2"]) sampleKernel (usables sampleKernel sampleAddrs) ∧
    (match daemonRun (cNamed [lit "bond0", lit "eth2"]) [.timer sampleKernel {} 0] dSys with | .ok d => d.tx.map key | _ => []) =
      [(4, .lldp), (3, .lldp), (2, .lldp)] := by decide +kernel

/-- The missing case: with an aggregate and one of its ports on the command line two advertisements of the same protocol are sent on
that port in one round. -/
theorem C23_overlap : ∃ (c : Conf) (k : Kernel), Sane k ∧
    (match daemonRun c [.timer k {} 0] dSys with | .ok d => d.tx.map key | _ => []) = [(2, .lldp), (3, .lldp), (2, .lldp)] :=
  ⟨cNamed [lit "bond0", lit "eth0"], sampleKernel, by decide +kernel, by decide +kernel⟩

/-- Every message of a round carries the frame the protocol's builder makes for that interface, with its source address zeroed on
backup ports of a failover aggregate. -/
theorem C23_frames (c : Conf) (d0 : Daemon) (h0 : Started d0) (es : List Event) (hes : ∀ e ∈ es, SaneEvent e) (d : Daemon)
    (hr : daemonRun c es d0 = .ok d) (e : Event) (he : SaneEvent e) (d' : Daemon) (hs : daemonStep c d e = .ok d') :
    ∃ new, d'.tx = d.tx ++ new ∧ ∀ t ∈ new, ∃ env seq msg, EnvOk env ∧ env.nif.index = t.index ∧ env.opts = c.opts ∧
      t.proto.build (List.replicate 1518 0) env seq = .ok (msg, t.len) ∧ t.len ≠ 0 ∧
      (t.msg = msg ∨ env.nif.child ≠ 1 ∧ t.msg = msg.take 6 ++ [0, 0, 0, 0, 0, 0] ++ msg.drop 12) := by
  have hg := good_run h0 hes hr
  have key : ∀ {k m link d1}, Sane k → sendRound c k m link d = .ok d1 → ∃ new, d1.tx = d.tx ++ new ∧ ∀ t ∈ new, ∃ env seq msg, EnvOk env ∧
      env.nif.index = t.index ∧ env.opts = c.opts ∧
      t.proto.build (List.replicate 1518 0) env seq = .ok (msg, t.len) ∧ t.len ≠ 0 ∧
      (t.msg = msg ∨ env.nif.child ≠ 1 ∧ t.msg = msg.take 6 ++ [0, 0, 0, 0, 0, 0] ++ msg.drop 12) := by
    intro k m link d1 hk h1
    obtain ⟨d2, new, hd2, hsent, ho⟩ := sendRound_sent h1
    have hg2 : Good d2 := by
      rcases hd2 with rfl | rfl
      · exact hg
      · exact good_fetch c hk hg
    refine ⟨new, ?_, ?_⟩
    · rw [hsent.tx]
      rcases hd2 with rfl | rfl <;> rfl
    · intro t htn
      obtain ⟨n, s, d3, a, hs3, hsm, -, -, -, -, -, -, -, -, hti, seq, msg, hbuild, hlen, hmsg⟩ := ho t htn
      have h3 := hg2.ok.sent hs3
      refine ⟨pktEnv c d3 s, seq, msg, h3.env (h3.1 s hsm), hti.symm, rfl, hbuild, hlen, ?_⟩
      split at hmsg
      · next hc => exact Or.inr ⟨hc.2, hmsg⟩
      · exact Or.inl hmsg
  have hsame : d'.tx = d.tx → ∃ new, d'.tx = d.tx ++ new ∧ ∀ t ∈ new, ∃ env seq msg, EnvOk env ∧ env.nif.index = t.index ∧ env.opts = c.opts ∧
      t.proto.build (List.replicate 1518 0) env seq = .ok (msg, t.len) ∧ t.len ≠ 0 ∧
      (t.msg = msg ∨ env.nif.child ≠ 1 ∧ t.msg = msg.take 6 ++ [0, 0, 0, 0, 0, 0] ++ msg.drop 12) := by
    intro h
    exact ⟨[], by rw [h, List.append_nil], fun _ h => nomatch h⟩
  rcases step_bare hs with ⟨k, m, now, d1, rfl, h1, -, e⟩ | ⟨k, m, i, rfl, h1⟩ | ⟨-, -, -, e⟩
  · obtain ⟨new, h2, h3⟩ := key he h1
    exact ⟨new, by rw [e]; exact h2, h3⟩
  · exact key he h1
  · exact hsame (by rw [e])

/-! ## C24 Link flapping is rate limited -/

/-- As long as there is no periodic round, whatever else happens and however often the link of an interface goes up, at most four
events cause messages on that interface, fewer if some did before.  What is missing: the interface must stay in the kernel's
list; see `C24_vanished`. -/
theorem C24_limit_partial (c : Conf) (d0 : Daemon) (h0 : Started d0) (es : List Event) (hes : ∀ e ∈ es, SaneEvent e) (d : Daemon)
    (hr : daemonRun c es d0 = .ok d) (i : Nat) (fs : List Event) (hfs : ∀ e ∈ fs, Steady i e) :
    bursts c i fs d ≤ 4 - flaps d i := by
  have := bursts_le (c := c) fs (good_run h0 hes hr) hfs
  rw [← flaps_eq] at this
  omega

/-- A link going up is answered at once, while the limit is not reached, with exactly the messages due on that interface, and
counted. -/
theorem C24_immediate (c : Conf) (hsend : c.opts.testBit 1 = true)
    (d0 : Daemon) (h0 : Started d0) (es : List Event) (hes : ∀ e ∈ es, SaneEvent e) (d : Daemon) (hr : daemonRun c es d0 = .ok d)
    (k : Kernel) (m : Media) (addrs : List IfAddr) (hw : Workable c k addrs d) (i : Nat)
    (hi : i ∈ (usables k addrs).map (·.index)) (hf : flaps d i ≤ 3) :
    ∃ d' new, daemonStep c d (.link k m true true i) = .ok d' ∧ d'.tx = d.tx ++ new ∧
      (∀ j p, (j, p) ∈ new.map (fun t => (t.index, t.proto)) ↔ j = i ∧
        Due c k (usables k addrs) (fun i => ((withIndex d.child.netifs i).map (·.protos)).getD 0) j p) ∧
      (NoOverlap c k (usables k addrs) → new ≠ [] → flaps d' i = flaps d i + 1) := by
  obtain ⟨d1, new, h1, hg1, htx1, hnod, hmem, hfl⟩ := round_due (m := m) (good_run h0 hes hr) hw hsend (some i)
    (fun j h => by injection h with h; subst h; exact ⟨hi, hf⟩)
  have hmem : ∀ j p, (j, p) ∈ new.map (fun t => (t.index, t.proto)) ↔ j = i ∧
      Due c k (usables k addrs) (fun i => ((withIndex d.child.netifs i).map (·.protos)).getD 0) j p := by
    intro j p
    rw [hmem j p]
    constructor
    · rintro ⟨h | h, hd⟩
      · cases h
      · injection h with h; exact ⟨h.symm, hd⟩
    · rintro ⟨rfl, hd⟩; exact ⟨Or.inr rfl, hd⟩
  refine ⟨d1, new, h1, htx1, hmem, ?_⟩
  intro hno hne
  obtain ⟨t, ts, rfl⟩ := List.exists_cons_of_ne_nil hne
  have ht : (t.index, t.proto) ∈ (t :: ts).map (fun t => (t.index, t.proto)) := List.mem_map_of_mem List.mem_cons_self
  have hti := ((hmem _ _).mp ht).1
  have := hfl i ⟨t.proto, hti ▸ ht⟩
  rw [if_neg (by intro h; cases h), if_pos hno] at this
  exact this

/-- A periodic round renews the limit for every interface on which it sends. -/
theorem C24_renewed (c : Conf) (hsend : c.opts.testBit 1 = true)
    (d0 : Daemon) (h0 : Started d0) (es : List Event) (hes : ∀ e ∈ es, SaneEvent e) (d : Daemon) (hr : daemonRun c es d0 = .ok d)
    (k : Kernel) (m : Media) (now : Int) (addrs : List IfAddr) (hw : Workable c k addrs d) (d' : Daemon)
    (hs : daemonStep c d (.timer k m now) = .ok d') (i : Nat) (p : Proto)
    (hdue : Due c k (usables k addrs) (fun i => ((withIndex d.child.netifs i).map (·.protos)).getD 0) i p) : flaps d' i = 0 := by
  obtain ⟨d1, new, h1, hg1, htx1, hnod, hmem, hfl⟩ := round_due (m := m) (good_run h0 hes hr) hw hsend none (fun i h => nomatch h)
  have h0 := hfl i ⟨p, (hmem i p).mpr ⟨Or.inl rfl, hdue⟩⟩
  rw [if_pos rfl] at h0
  rcases step_bare hs with ⟨k', m', now', d2, he, hr2, hb, -⟩ | ⟨_, _, _, he, -⟩ | ⟨hne, -⟩
  · injection he with e1 e2 e3
    subst e1 e2
    rw [h1] at hr2
    injection hr2 with hr2
    subst hr2
    rw [flaps_eq, linkOf_bare hb, ← flaps_eq]
    exact h0
  · cases he
  · exact absurd rfl (hne k m now)

/-- The link of interface 2 goes up. -/
def upEvent : Event := .link sampleKernel {} true true 2

example : Steady 2 upEvent ∧ Workable cTwo sampleKernel sampleAddrs dSys ∧ flaps dSys 2 = 0 :=
  ⟨by decide +kernel, ⟨by decide +kernel, rfl, by decide +kernel, by decide +kernel, by decide, by decide +kernel, by decide +kernel, by decide⟩,
    by decide⟩
example : (match daemonRun cTwo [.timer sampleKernel {} 0] dSys with
    | .ok d => bursts cTwo 2 [upEvent, upEvent, upEvent, upEvent, upEvent, upEvent] d | _ => 9) = 4 := by decide +kernel

/-- The kernel of the sample system while eth0 is down. -/
def downKernel : Kernel := { sampleKernel with up := fun n => n ≠ lit "eth3" ∧ n ≠ lit "eth0" }

/-- The missing case: if a refresh, here for another interface, happens while the interface is down, its counter is lost. -/
theorem C24_vanished : Sane downKernel ∧ (match daemonRun cTwo [.timer sampleKernel {} 0] dSys with
    | .ok d => bursts cTwo 2 [upEvent, upEvent, upEvent, upEvent, .link downKernel {} true true 4, upEvent] d | _ => 9) = 5 := by
  decide +kernel

end Ladvd.Props
