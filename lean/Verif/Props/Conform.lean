import Verif.Lemmas.Conform
import Verif.Props.Path
/-!
# C70: LLDP advertisements conform to the standards
-/

namespace Ladvd.Props

open Ladvd Ladvd.Spec

/-- Every LLDP frame that is built consists of an Ethernet header and a data unit as the standards require it.  Full claim: no conditions on the location,
the VLAN ids and the negotiation; `C70_location_wraps` and `C70_negotiation` show what goes wrong without them. -/
theorem C70_conformant_partial (mem mem' : Bytes) (n : Nat) (e : PktEnv) (h : Announceable e) (hm : 1518 ≤ mem.length)
    (hb : lldpPacket mem e = .ok (mem', n)) :
    ∃ ts, mem'.take n = [0x01, 0x80, 0xc2, 0x00, 0x00, 0x0e] ++ e.nif.hwaddr ++ [0x88, 0xcc] ++ lldpEnc ts ∧ Conformant ts :=
  ⟨_, C38_lldp mem mem' n e h.sizes hm hb, lldpTlvs_conforms h⟩

theorem resrc_front {src a b r : Bytes} (ha : a.length = 6) (hb : b.length = 6) : resrc src (a ++ b ++ r) = a ++ src ++ r := by
  unfold resrc
  rw [List.drop_left' (by simp [ha, hb]), List.append_assoc a b, List.take_left' ha]

/-- So does every LLDP frame the daemon sends, whatever happened since it was started: the conditions are on its `-l` option and on the replies of
the kernel only.  The source address is that of the interface or, on standby ports, zero. -/
theorem C70_daemon_partial (h : Host) (e : SysEnv) (he : SysEnvOk e) (os : List Opt) (ho : OptsOk os) (args : List Bytes) (c : Conf)
    (pwd : Option (Nat × Nat)) (d0 : Daemon) (hs : startUp h e os args = .ok (c, pwd, d0)) (hloc : ∀ a ∈ argsOf 'l' os, a.length ≤ 250)
    (es : List Event) (hes : ∀ e ∈ es, SaneEvent e) (d : Daemon) (hr : daemonRun c es d0 = .ok d)
    (k : Kernel) (hk : Sane k) (addrs : List IfAddr) (ha : k.ifaddrs = some addrs) (hvl : ∀ name dev v, k.vlan name = some (dev, some v) → v < 4095)
    (m : Media) (hneg : ∀ i x, m.ecmd i = some x → x.supported.testBit 6 = true)
    (hbsd : ∀ b ∈ m.bsd, ∀ name r, b.media name = some r → ∃ w ∈ r.list, w.sub = .auto)
    (ev : Event) (hev : (∃ now, ev = .timer k m now) ∨ ∃ i, ev = .link k m true true i) (d' : Daemon) (hst : daemonStep c d ev = .ok d') :
    ∃ new, d'.tx = d.tx ++ new ∧ ∀ t ∈ new, t.proto = .lldp →
      ∃ src ts, src.length = 6 ∧ t.msg.take t.len = [0x01, 0x80, 0xc2, 0x00, 0x00, 0x0e] ++ src ++ [0x88, 0xcc] ++ lldpEnc ts ∧ Conformant ts := by
  obtain ⟨h0, hc0, -, ht0, -⟩ := C49_started h e he os ho args c pwd d0 hs
  obtain ⟨hdev, hmed, -, hlo⟩ := C49_med h e he os args c pwd d0 hs
  have hg := good_run h0 hes hr
  obtain ⟨new, hn, hf⟩ := C52_frames c d0 h0 es hes d hr k hk m ev hev d' hst
  refine ⟨new, hn, fun t ht hp => ?_⟩
  obtain ⟨n, -, s, hsm, hi, -, env, seq, msg, hok, hd, hb, -, hz, hnz⟩ := hf t ht
  have hcaps : CapsOk env.sys := by
    rw [hd.sys]
    exact fetch_capsOk c.opts c.names c.mgmt k _ ha (caps_run c es d0 d hc0 hr)
  obtain ⟨a, b, x, y, hkeep⟩ := C49_kept c es d0 d hr
  obtain ⟨a', b', x', y', hkeep'⟩ := fetch_keeps c k d
  have hsys : env.sys = { d0.sys with cap := a', capActive := b', physifCount := x', hwaddr := y' } := by
    rw [hd.sys]
    have : (daemonFetch c k d).1.sys = { d0.sys with cap := a', capActive := b', physifCount := x', hwaddr := y' } := by
      rw [hkeep', hkeep]
    exact this
  have hvid : ∀ v ∈ (netifFetch c.opts c.names c.mgmt k ⟨d.child.netifs, d.sys, d.mnetif, d.closed⟩).1.netifs, v.vlanId < 4095 := by
    intro v hv
    have := C51_vlan c.opts c.names c.mgmt k ⟨d.child.netifs, d.sys, d.mnetif, d.closed⟩ addrs ha (hk addrs (by rw [ha]; simp)).1 hg.nodup v hv
    have e2 := congrArg Prod.snd this
    rw [show v.vlanId = _ from e2]
    unfold vlanOf
    split
    · split
      · rename_i dev vid hvk
        split
        · cases vid with
          | none => dsimp only; omega
          | some w => have := hvl _ _ _ hvk; dsimp only; omega
        · dsimp only; omega
      · dsimp only; omega
    · dsimp only; omega
  have hann : Announceable env := by
    refine ⟨hok, hcaps, ?_, ?_, ?_, ?_⟩
    · intro _
      rw [hsys]
      show d0.sys.location.length ≤ 250
      rw [hlo]
      cases hx : (argsOf 'l' os).getLast? with
      | none => simp
      | some z =>
        have := hloc z (List.mem_of_getLast? hx)
        simp; omega
    · intro v hv
      replace hv : v ∈ env.netifs := by unfold vlansOf at hv; exact (List.mem_filter.mp hv).1
      have : unlinked v ∈ env.netifs.map unlinked := List.mem_map.mpr ⟨v, hv, rfl⟩
      rw [hd.netifs] at this
      obtain ⟨w, hw, hwv⟩ := List.mem_map.mp this
      have e1 : w.vlanId = v.vlanId := (congrArg Netif.vlanId hwv : (unlinked w).vlanId = (unlinked v).vlanId)
      rw [← e1]
      exact hvid w hw
    · cases hb0 : m.bsd with
      | none =>
        have hlk := hd.nif.linux hb0
        by_cases hx : s.type ≠ 0 ∨ m.ecmd s.index = none
        · exact .inl (hlk.silent hx).2.1
        · have h1 : s.type = 0 := Classical.byContradiction fun h => hx (.inl h)
          cases h2 : m.ecmd s.index with
          | none => exact absurd (.inr h2) hx
          | some ec =>
            have h3 := hneg _ _ h2
            have h4 := hlk.supported ec h1 h2
            have h5 := hlk.enabled ec h1 h2 h3
            rw [if_pos h3] at h4
            refine .inr (.inl ⟨h4, ?_⟩)
            rw [h5]
            split
            · exact .inr rfl
            · exact .inl rfl
      | some b =>
        have hlk := hd.nif.freebsd b hb0
        by_cases hx : ∃ r, MediaKnown b s r
        · obtain ⟨r, hx⟩ := hx
          have h3 := hbsd b hb0 _ _ hx.2.1
          have h4 := hlk.supported r hx
          have h5 := hlk.enabled r hx h3
          rw [if_pos h3] at h4
          refine .inr (.inl ⟨h4, ?_⟩)
          rw [h5]
          split
          · exact .inr rfl
          · exact .inl rfl
        · exact .inl (hlk.silent (fun r hr => hx ⟨r, hr⟩)).2.1
    · rw [hsys]
      refine ⟨(hmed 0).mpr (.inl rfl), ?_, ?_⟩
      · show 0 ≤ d0.sys.lldpmedDevtype; rw [hdev]; decide
      · show d0.sys.lldpmedDevtype ≤ 4; rw [hdev]; decide
  have hfr := (onWire hok (by rw [hsys]; exact ht0) hb (Classical.byCases (fun h => .inr (hz h)) (fun h => .inl (hnz h)))).1.frame
  rw [hp] at hb
  obtain ⟨ts, e1, hts⟩ := C70_conformant_partial _ _ _ _ hann (by rw [List.length_replicate]; decide) hb
  have hl : env.nif.hwaddr.length = 6 := hok.1.2.2.2.2.2.1
  rcases hfr with h | h
  · exact ⟨_, ts, hl, h.trans e1, hts⟩
  · refine ⟨[0, 0, 0, 0, 0, 0], ts, rfl, ?_, hts⟩
    rw [h, e1, List.append_assoc, resrc_front rfl hl, List.append_assoc _ [0x88, 0xcc]]

/-! ## Examples -/

/-- `exEnv` with what a start adds, and a location. -/
def exMed : PktEnv := { exEnv with
  sys := { exEnv.sys with
    capLldpmed := 37, lldpmedDevtype := 1, country := lit "NL", location := lit "Rack 12",
    hinv := { swRevision := lit "6.1", serialNumber := lit "S1", manufacturer := lit "ACME", modelName := lit "X" } } }

example : Announceable exMed :=
  ⟨by decide +kernel, by decide +kernel, by decide +kernel, by decide +kernel, by decide +kernel, by decide +kernel⟩
example : builtLen (lldpPacket (List.replicate 1518 0xee) exMed) = 233 ∧ (vlansOf exMed).length = 1 ∧ (medTlvs (lldpTlvs exMed)).length = 6 := by decide +kernel

/-- Interfaces and lengths of the LLDP frames sent in one round after a start with a location. -/
def located : List (Nat × Nat) :=
  match startUp { user := fun _ => some (1, 1) } sysSample [⟨'a', []⟩, ⟨'L', []⟩, ⟨'c', lit "NL"⟩, ⟨'l', lit "Rack 12"⟩] [] with
  | .ok (c, _, d0) =>
    match daemonRun c [.timer sampleKernel {} 0] d0 with
    | .ok d => d.tx.map (fun t => (t.index, t.len))
    | _ => []
  | _ => []

example : located = [(3, 284), (2, 284), (4, 236)] := by decide +kernel

/-! ## Without the conditions -/

/-- The frame is not conformant: no conformant data unit has this encoding. -/
def Violates (e : PktEnv) (frame : Bytes) : Prop :=
  ∀ ts, frame = [0x01, 0x80, 0xc2, 0x00, 0x00, 0x0e] ++ e.nif.hwaddr ++ [0x88, 0xcc] ++ lldpEnc ts → ¬ Conformant ts

theorem violates {e : PktEnv} (h : EnvOk e) {mem mem' : Bytes} {n : Nat} (hm : 1518 ≤ mem.length) (hb : lldpPacket mem e = .ok (mem', n))
    {t : Tlv} (ht : t ∈ lldpAdvert e) (hn : ¬ TlvConforms t) : Violates e (mem'.take n) := by
  intro ts hts hc
  rw [C38_lldp mem mem' n e h hm hb] at hts
  have := conformant_unique h hc (List.append_cancel_left hts)
  refine hn (hc.each t ?_)
  rw [this]
  unfold lldpTlvs
  simp [ht]

/-- With a location of more than 250 characters (`-l` takes up to 255) the length octet of the civic address wraps around: no such frame conforms. -/
theorem C70_location_wraps (mem mem' : Bytes) (n : Nat) (e : PktEnv) (h : EnvOk e) (hm : 1518 ≤ mem.length) (hb : lldpPacket mem e = .ok (mem', n))
    (hc : e.sys.country.length = 2) (hl : 251 ≤ e.sys.location.length) : Violates e (mem'.take n) := by
  have hl5 : e.sys.location.length ≤ 255 := h.2.2.2.2.2.2.2.1.1
  have hne : e.sys.location ≠ [] := fun h => by rw [h] at hl; simp at hl
  refine violates h hm hb (t := (127, [0x00, 0x12, 0xbb] ++ 3 :: ([2, UInt8.ofNat (5 + e.sys.location.length), 2] ++ e.sys.country ++
      [22, UInt8.ofNat e.sys.location.length] ++ e.sys.location))) ?_ ?_
  · rw [lldpAdvert_parts]
    unfold orgTlvs medRest
    simp [hc, hne]
  · intro hcf
    have := conforms_org_inv rfl hcf
    unfold OrgConforms at this
    rw [if_neg (by decide), if_neg (by decide), if_pos rfl] at this
    rcases this with ⟨h1, -⟩ | ⟨-, len, what, country, es, e1, e2, -⟩ | ⟨h1, -⟩
    · cases h1
    · have e3 := congrArg (·[1]?) e1
      simp at e3
      rw [← e3] at e2
      simp [hc] at e2
      omega
    · exact absurd h1 (by decide)

/-- An id of 4095 or more, which is none of a VLAN, is announced as it is. -/
theorem C70_vlan_ids (mem mem' : Bytes) (n : Nat) (e : PktEnv) (h : EnvOk e) (hm : 1518 ≤ mem.length) (hb : lldpPacket mem e = .ok (mem', n))
    (v : Netif) (hv : v ∈ vlansOf e) (hi : 4095 ≤ v.vlanId) : Violates e (mem'.take n) := by
  have hvo : v.vlanId < 65536 := by
    have : v ∈ e.netifs := by unfold vlansOf at hv; exact (List.mem_filter.mp hv).1
    exact (h.2.2.2.1 v this).2.2.2.2.2.2.2.2.2
  obtain ⟨a, b, hw1, hw2⟩ := word_be16 hvo
  refine violates h hm hb (t := (127, [0x00, 0x80, 0xc2] ++ 3 :: ([a, b, UInt8.ofNat v.name.length] ++ v.name))) ?_ ?_
  · rw [lldpAdvert_parts]
    refine List.mem_append_right _ ?_
    unfold orgTlvs vlanTlvs
    refine List.mem_append_left _ (List.mem_append_left _ (List.mem_map.mpr ⟨v, hv, ?_⟩))
    rw [hw1]
    simp
  · intro hcf
    have := conforms_org_inv rfl hcf
    unfold OrgConforms at this
    rw [if_pos rfl] at this
    obtain ⟨-, a', b', c', nm, e1, h1, -⟩ := this
    have ea := congrArg (·[0]?) e1
    have eb := congrArg (·[1]?) e1
    simp at ea eb
    rw [← ea, ← eb, hw2] at h1
    omega

/-- On a port whose driver does not negotiate (supported 0, enabled -1) the status octet is 0xfe: negotiation enabled, not supported, and six reserved
bits set.  The daemon does send such frames (`C52_autoneg_misreported`). -/
theorem C70_negotiation (mem mem' : Bytes) (n : Nat) (e : PktEnv) (h : EnvOk e) (hm : 1518 ≤ mem.length) (hb : lldpPacket mem e = .ok (mem', n))
    (hs : e.nif.autonegSupported = 0) (hn : e.nif.autonegEnabled = -1) : Violates e (mem'.take n) := by
  refine violates h hm hb (t := (127, [0x00, 0x12, 0x0f] ++ 1 :: ([0xfe] ++ be16 e.nif.autonegPmd ++ be16 e.nif.mau))) ?_ ?_
  · rw [lldpAdvert_parts]
    refine List.mem_append_right _ ?_
    unfold orgTlvs dot3Tlvs
    refine List.mem_append_left _ (List.mem_append_right _ (List.mem_append_left _ (List.mem_append_left _ ?_)))
    rw [hs, hn, if_neg (by decide)]
    exact List.mem_singleton.mpr rfl
  · intro hcf
    have := conforms_org_inv rfl hcf
    unfold OrgConforms at this
    rw [if_neg (by decide), if_pos rfl] at this
    rcases this with ⟨-, st, a, b, c, d, e1, h1, -⟩ | ⟨h1, -⟩ | ⟨h1, -⟩
    · have e3 := congrArg (·[0]?) e1
      simp at e3
      rw [← e3] at h1
      exact absurd h1 (by decide)
    · cases h1
    · cases h1

/-- A location that is too long, a port that does not negotiate, and the reserved VLAN id. -/
def exLong : PktEnv := { exMed with sys := { exMed.sys with location := List.replicate 251 0x78 } }

@[inherit_doc exLong]
def exFixed : PktEnv := { exMed with nif := { exMed.nif with autonegSupported := 0, autonegEnabled := -1 } }

@[inherit_doc exLong]
def exVlan : PktEnv := { exMed with netifs := exMed.netifs.map (fun v => { v with vlanId := 4095 }) }

example : EnvOk exLong ∧ exLong.sys.country.length = 2 ∧ builtLen (lldpPacket (List.replicate 1518 0) exLong) = 477 := by decide +kernel
example : EnvOk exFixed ∧ exFixed.nif.autonegSupported = 0 ∧ builtLen (lldpPacket (List.replicate 1518 0) exFixed) = 233 := by decide +kernel
example : EnvOk exVlan ∧ (vlansOf exVlan).map (·.vlanId) = [4095] ∧ builtLen (lldpPacket (List.replicate 1518 0) exVlan) = 233 := by decide +kernel

end Ladvd.Props
