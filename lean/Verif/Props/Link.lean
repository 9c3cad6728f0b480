import Verif.Lemmas.Link
import Verif.Props.Send
import Verif.Props.Details
/-!
# C52 Frames describe the interface as it is

Link properties, the data every frame is built from, and the sequence numbers of EDP.
-/

namespace Ladvd.Props

open Ladvd Ladvd.Spec

/-- The link properties of an interface are those kernel and driver report. -/
theorem C52_link (m : Media) (n : Netif) : LinkIs m n (netifMedia m n) := netifMedia_is m n.linkEvent n

/-- At most one row of the table of media types applies. -/
theorem C52_mau_unique (e : Ecmd) (r r' : Medium × Option Nat × Option Bool × Nat) (h : r ∈ mauRows) (h' : r' ∈ mauRows)
    (hf : rowFits e r) (hf' : rowFits e r') : r = r' := by
  have key : ∀ a ∈ mauRows, ∀ b ∈ mauRows, a.1 = b.1 → (∀ s ∈ a.2.1, ∀ t ∈ b.2.1, s = t) → (∀ s ∈ a.2.2.1, ∀ t ∈ b.2.2.1, s = t) → a = b := by
    decide +kernel
  refine key r h r' h' ?_ ?_ ?_
  · have := hf.1.symm.trans hf'.1
    injection this
  · intro s hs t ht; exact (hf.2.1 s hs).symm.trans (hf'.2.1 t ht)
  · intro s hs t ht; exact (hf.2.2 s hs).symm.trans (hf'.2.2 t ht)

/-- A gigabit port and an old 10 Mbit/s port whose driver cannot negotiate. -/
def sampleMedia : Media where
  mtu := fun n => if n = lit "eth0" then some 9000 else if n = lit "eth1" then some 66000 else none
  ecmd := fun i =>
    if i = 2 then some { supported := 0x6f, advertising := 0x202f, speed := 1000, duplex := 1, port := 0, autoneg := 1 }
    else if i = 3 then some { supported := 0x01, advertising := 0, speed := 10, duplex := 0, port := 4, autoneg := 0 }
    else none

example : (([2, 3, 4].map (fun i => ({ index := i, name := lit (["", "", "eth0", "eth1", "eth2"].getD i ""), type := 0, mtu := 7, hwaddr := [] } : Netif))).map
    (netifMedia sampleMedia)).map (fun n => (n.mtu, n.duplex, n.autonegSupported, n.autonegEnabled, n.autonegPmd, n.mau)) =
    [(9000, 1, 1, 1, 0x6c81, 30), (464, 0, 0, -1, 0, 4), (7, -1, -1, -1, 0, 0)] := by decide +kernel

/-- Every message of a round is the frame built from the interface list as just refreshed, for an interface itself or a port of
an aggregate, with up to date link properties.  The source address is zeroed exactly on standby ports. -/
theorem C52_frames (c : Conf) (d0 : Daemon) (h0 : Started d0) (es : List Event) (hes : ∀ e ∈ es, SaneEvent e) (d : Daemon)
    (hr : daemonRun c es d0 = .ok d) (k : Kernel) (hk : Sane k) (m : Media) (e : Event)
    (he : (∃ now, e = .timer k m now) ∨ ∃ i, e = .link k m true true i) (d' : Daemon) (hs : daemonStep c d e = .ok d') :
    let r := (netifFetch c.opts c.names c.mgmt k ⟨d.child.netifs, d.sys, d.mnetif, d.closed⟩).1
    ∃ new, d'.tx = d.tx ++ new ∧ ∀ t ∈ new, ∃ n ∈ r.netifs, ∃ s ∈ r.netifs, s.index = t.index ∧
      (n = s ∧ n.type ≤ 10 ∨ s.index ∈ portsOf k r.netifs n) ∧
      ∃ env seq msg, EnvOk env ∧ Describing c m r s env ∧
        t.proto.build (List.replicate 1518 0) env seq = .ok (msg, t.len) ∧ t.len ≠ 0 ∧
        (Standby k r.netifs n t.index → t.msg = msg.take 6 ++ [0, 0, 0, 0, 0, 0] ++ msg.drop 12) ∧
        (¬ Standby k r.netifs n t.index → t.msg = msg) := by
  intro r
  have hg := good_run h0 hes hr
  have hround : ∃ link d1, sendRound c k m link d = .ok d1 ∧ d'.tx = d1.tx := by
    rcases he with ⟨now, rfl⟩ | ⟨i, rfl⟩
    · rcases step_bare hs with ⟨k', m', now', d1, e, h1, -, e'⟩ | ⟨k', m', i, e, h1⟩ | ⟨h, -⟩
      · cases e; exact ⟨_, _, h1, by rw [e']⟩
      · cases e
      · exact absurd rfl (h _ _ _)
    · rw [daemonStep] at hs
      exact ⟨_, _, hs, rfl⟩
  obtain ⟨link, d1, h1, htx⟩ := hround
  cases ha : k.ifaddrs with
  | none =>
    refine ⟨[], ?_, fun _ h => nomatch h⟩
    rw [htx, List.append_nil]
    rcases sendRound_ok h1 with ⟨rfl, -⟩ | ⟨rfl, -⟩ | ⟨hne, -⟩
    · rfl
    · rfl
    · rw [daemonFetch_none c k d ha] at hne; exact absurd rfl hne
  | some addrs =>
    obtain ⟨new, hn, hsrc⟩ := sendRound_source h1
    refine ⟨new, by rw [htx, hn], ?_⟩
    intro t ht
    obtain ⟨n, hn, s, hsm, le, seq, msg, d2, hmv, hi, ⟨ps, hps, hip⟩, -, hb, hlen, hmsg⟩ := hsrc t ht
    have hgf := good_fetch c hk hg
    obtain ⟨hM, hC⟩ := sane_consistent c hk ha d hg.nodup
    obtain ⟨hok, -, -⟩ := sane_fetch hk ha
    have hsub : n = s ∧ n.type ≤ 10 ∨ n.type > 10 ∧ s.index ∈ portsOf k r.netifs n := by
      have hps' := hC.ports n hn
      rw [hps] at hps'
      injection hps' with hps'
      rw [hps'] at hip
      unfold portsBy at hip
      split at hip
      · next h => exact Or.inr ⟨h, hip⟩
      · next h =>
        split at hip
        · cases hip
        · refine Or.inl ⟨nodup_map_inj hC.nodup hn hsm (List.mem_singleton.mp hip).symm, by omega⟩
    refine ⟨n, hn, s, hsm, hi, ?_, _, seq, msg, ?_, ?_, hb, hlen, ?_⟩
    · rcases hsub with h | ⟨-, h⟩
      · exact Or.inl h
      · exact Or.inr h
    · have hs1 : Sent (daemonFetch c k d).1 { d2 with tx := (daemonFetch c k d).1.tx } [] :=
        Moved.sent (m := m) (d1 := { d2 with tx := (daemonFetch c k d).1.tx }) ⟨hmv.1, hmv.2⟩ (List.append_nil _).symm
      have h3 := hgf.ok.sent hs1
      have hno : NetifOk (netifMedia m (relink le s)) := by
        refine netifOk_static (a := s) (netifMedia_static m (relink le s)).symm (hgf.ok.1 s hsm) (netifMedia_mtu m _ ?_)
        exact (hgf.ok.1 s hsm).2.2.2.2.2.2.2.2.1
      exact h3.env (c := c) hno
    · obtain ⟨hrest, g, hg2, hnet⟩ := hmv
      have hL : d2.child.netifs.map unlinked = r.netifs.map unlinked := by rw [hnet]; exact drift_map_static hg2 _
      have hfind : ∀ o : Option Nat, (o.bind (netifByIndex d2.child.netifs)).map unlinked = (o.bind (withIndex r.netifs)).map unlinked := by
        intro o
        cases o with
        | none => rfl
        | some i =>
          show (netifByIndex d2.child.netifs i).map static = (withIndex r.netifs i).map static
          rw [withIndex_eq, ← byIndex_static, ← byIndex_static]
          exact congrArg (fun l => netifByIndex l i) hL
      refine ⟨rfl, congrArg (fun x => x.2.1) hrest, netifMedia_is m le s, hL, ?_, ?_⟩
      · have : (netifMedia m (relink le s)).parent = s.parent := static_parent (a := netifMedia m (relink le s)) (b := s) (netifMedia_static m _)
        show ((netifMedia m (relink le s)).parent.bind _).map unlinked = _
        rw [this]; exact hfind _
      · have : d2.mnetif = r.mnetif := congrArg (fun x => x.2.2.1) hrest
        show (d2.mnetif.bind _).map unlinked = _
        rw [this]; exact hfind _
    · have hmode := C51_mode c.opts c.names c.mgmt k ⟨d.child.netifs, d.sys, d.mnetif, d.closed⟩ addrs ha hok hg.nodup n hn
      have hst : (n.bondingMode = 2 ∧ s.child ≠ 1) ↔ Standby k r.netifs n t.index := by
        unfold Standby
        rw [hmode, ← hi]
        rcases hsub with ⟨rfl, h10⟩ | ⟨h10, hport⟩
        · have : modeOf k n ≠ 2 := by
            unfold modeOf
            rw [if_neg (by omega), if_neg (by omega)]
            decide
          exact ⟨fun h => absurd h.1 this, fun h => absurd h.1 this⟩
        · have hrole := (C51_role c.opts c.names c.mgmt k ⟨d.child.netifs, d.sys, d.mnetif, d.closed⟩ addrs ha hok hg.nodup hC.kernel s hsm).1
            n hn hport
          have hval : s.child = 1 ∨ s.child = 2 := by
            rcases hrole with ⟨-, -, t, -, e⟩ | ⟨-, b, i, x, -, -, -, -, e⟩ | ⟨-, -, e⟩
            · split at e
              · exact Or.inr e
              · exact Or.inl e
            · split at e
              · exact Or.inr e
              · exact Or.inl e
            · exact Or.inl e
          constructor
          · rintro ⟨h, hc⟩
            have h2 : s.child = 2 := by rcases hval with h | h; exact absurd h hc; exact h
            exact ⟨h, s.lacpIndex, h2 ▸ hrole⟩
          · rintro ⟨h, x, hx⟩
            refine ⟨h, ?_⟩
            have := (C51_role_unique hC.nodup (hC.kernel.nodup n hn) hport hrole hx).1
            omega
      refine ⟨fun h => ?_, fun h => ?_⟩
      · rw [hmsg, if_pos (hst.mpr h)]; rfl
      · rw [hmsg, if_neg (fun h' => h (hst.mp h'))]

/-- On eth1, the active port of a failover bond, the source address is its own; on eth0 it is zero. -/
example : (match daemonRun cTwo [.timer sampleKernel sampleMedia 0] dSys with
    | .ok d => d.tx.map (fun t => (t.index, (t.msg.drop 6).take 6)) | _ => []) =
    [(3, [2, 0, 0, 0, 0, 2]), (3, [2, 0, 0, 0, 0, 2]), (2, [0, 0, 0, 0, 0, 0]), (2, [0, 0, 0, 0, 0, 0]),
     (4, [2, 0, 0, 0, 0, 3]), (4, [2, 0, 0, 0, 0, 3])] := by decide +kernel

/-- A device that can not negotiate is announced as one on which negotiation is enabled: the octet behind the subtype has bit 1 set,
and all the reserved bits. -/
theorem C52_autoneg_misreported : ∃ (k : Kernel) (m : Media) (e : Ecmd), Sane k ∧ m.ecmd 3 = some e ∧ e.supported.testBit 6 = false ∧ e.autoneg = 0 ∧
    ∃ t ∈ (match daemonRun cTwo [.timer k m 0] dSys with | .ok d => d.tx | _ => []), t.index = 3 ∧ t.proto = .lldp ∧
      (t.msg.drop 132).take 7 = [0xfe, 9, 0x00, 0x12, 0x0f, 1, 0xfe] :=
  ⟨sampleKernel, sampleMedia, ⟨0x01, 0, 10, 0, 4, 0⟩, by decide +kernel, rfl, by decide +kernel, rfl, by decide +kernel⟩

/-- Workable events along a run. -/
def Working (c : Conf) : List Event → Daemon → Prop
  | [], _ => True
  | e :: es, d =>
    (match e with
      | .timer k _ _ => ∃ addrs, Workable c k addrs d
      | .link k _ _ _ _ => ∃ addrs, Workable c k addrs d
      | _ => True) ∧
    ∀ d', daemonStep c d e = .ok d' → Working c es d'

theorem workable_speaks {c : Conf} {k : Kernel} {addrs : List IfAddr} {d : Daemon} (hg : Good d) (hw : Workable c k addrs d) :
    Speaks c (daemonFetch c k d).1 := by
  obtain ⟨hk, ha, -, -, -, hv, ht, -⟩ := hw
  have hgf := good_fetch c hk hg
  obtain ⟨hM, hC⟩ := sane_consistent c hk ha d hg.nodup
  have htx : 9 ≤ (daemonFetch c k d).1.sys.hostname.length + (daemonFetch c k d).1.sys.utsStr.length + (daemonFetch c k d).1.sys.platform.length := by
    obtain ⟨hsys, -⟩ := fetch_sys_rest c.opts c.names c.mgmt k ⟨d.child.netifs, d.sys, d.mnetif, d.closed⟩ ha
    have e : (daemonFetch c k d).1.sys = (netifFetch c.opts c.names c.mgmt k ⟨d.child.netifs, d.sys, d.mnetif, d.closed⟩).1.sys := rfl
    rw [e, hsys]
    exact ht
  have hall := allBuild (c := c) hgf.ok (vlan_count hM hC.nodup hv) htx
  intro d1 a s hs hsm
  have h3 := hgf.ok.sent hs
  exact ⟨h3.env (h3.1 s hsm), hall d1 a s hs hsm⟩

theorem serial_run {c : Conf} : ∀ (es : List Event) {d d' : Daemon}, Good d → d.seq < 65536 → Working c es d →
    daemonRun c es d = .ok d' → ∃ new, d'.tx = d.tx ++ new ∧ Serial d.seq d'.seq new := by
  intro es
  induction es with
  | nil =>
    intro d d' _ hq _ h
    injection h with h
    subst h
    exact ⟨[], by simp, Serial.nil hq⟩
  | cons e es ih =>
    intro d d' hg hq hw h
    obtain ⟨hwe, hws⟩ := hw
    simp only [daemonRun] at h
    cases h1 : daemonStep c d e with
    | ok d1 =>
      rw [h1] at h
      have key : Good d1 ∧ ∃ new, d1.tx = d.tx ++ new ∧ Serial d.seq d1.seq new := by
        refine ⟨good_step hg ?_ h1, ?_⟩
        · cases e with
          | timer k m now => obtain ⟨addrs, hw⟩ := hwe; exact hw.sane
          | link k m a b i => obtain ⟨addrs, hw⟩ := hwe; exact hw.sane
          | recv now r => trivial
          | accept => trivial
          | write sid ws => trivial
        · rcases step_bare h1 with ⟨k, m, now, d2, rfl, h2, -, e'⟩ | ⟨k, m, i, rfl, h2⟩ | ⟨-, -, -, e'⟩
          · obtain ⟨addrs, hw⟩ := hwe
            obtain ⟨new, h3, h4⟩ := sendRound_serial (workable_speaks hg hw) hq h2
            rw [e']
            exact ⟨new, h3, h4⟩
          · obtain ⟨addrs, hw⟩ := hwe
            exact sendRound_serial (workable_speaks hg hw) hq h2
          · rw [e']
            exact ⟨[], by simp, Serial.nil hq⟩
      obtain ⟨hg1, a, ta, sa⟩ := key
      obtain ⟨b, tb, sb⟩ := ih hg1 (by rw [sa.1]; exact Nat.mod_lt _ (by decide)) (hws d1 h1) h
      exact ⟨a ++ b, by rw [tb, ta, List.append_assoc], sa.append sb⟩
    | fail => rw [h1] at h; cases h
    | oob => rw [h1] at h; cases h
    | abort => rw [h1] at h; cases h
    | stuck => rw [h1] at h; cases h

/-- The EDP frames sent since the start are numbered 0, 1, 2, ..., modulo 65536. -/
theorem C52_sequence (c : Conf) (d0 : Daemon) (h0 : Started d0) (hseq : d0.seq = 0) (htx : d0.tx = []) (es : List Event)
    (hw : Working c es d0) (d : Daemon) (hr : daemonRun c es d0 = .ok d) :
    edpNumbers d.tx = (List.range (edpNumbers d.tx).length).map (· % 65536) := by
  obtain ⟨new, ht, hs⟩ := serial_run es (good_started h0) (by omega) hw hr
  rw [htx, List.nil_append] at ht
  rw [ht]
  refine hs.2.trans (List.map_congr_left ?_)
  intro j _
  show (d0.seq + j) % 65536 = j % 65536
  rw [hseq, Nat.zero_add]

/-- EDP and CDP enabled. -/
def cEdp : Conf := { opts := 1 <<< 1, enabled := fun p => p == .edp || p == .cdp }

example : (match daemonRun cEdp [.timer sampleKernel {} 0, .link sampleKernel {} true true 3] dSys with
    | .ok d => (d.tx.map (·.proto), edpNumbers d.tx) | _ => ([], [])) =
    ([.cdp, .edp, .cdp, .edp, .cdp, .edp, .cdp, .edp], [0, 1, 2, 3]) := by decide +kernel
example : Workable cEdp sampleKernel sampleAddrs dSys :=
  ⟨by decide +kernel, rfl, by decide +kernel, by decide +kernel, by decide +kernel, by decide +kernel, by decide +kernel, by decide +kernel⟩

end Ladvd.Props
