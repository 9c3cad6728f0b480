import Verif.Lemmas.Round
/-!
# C01 to C06, C10, C38: the advertisements

`e` describes the interface, its aggregate, the management interface, the interface list, the system and the
options; `EnvOk e` says that all of it fits the fields of the C structures.  `mem` is the frame buffer with
whatever it contained before, `pad` arbitrary memory behind the received frame.
-/

namespace Ladvd.Props

open Spec

/-- A displayed text that reads back to the original bytes. -/
def Recovers (o : Option Bytes) (s : Bytes) : Prop := ∃ t, o = some t ∧ unshow t = some s

/-! ## C38 Every advertisement consists of exactly the documented fields -/

/-- The build succeeded with frame `f` at the start of the buffer, nothing else having changed. -/
def Builds (r : Res (Bytes × Nat)) (mem f : Bytes) : Prop := r = .ok (f ++ mem.drop f.length, f.length)

theorem builds_of_ok {r : Res (Bytes × Nat)} {c : Prop} [Decidable c] {f mem mem' : Bytes} {n : Nat}
    (e : r = if c then .ok (f ++ mem.drop f.length, f.length) else .fail) (h : r = .ok (mem', n)) :
    c ∧ Builds r mem f ∧ mem' = f ++ mem.drop f.length ∧ n = f.length := by
  by_cases hc : c
  · rw [if_pos hc] at e
    have e' := e
    rw [h] at e'
    simp only [Res.ok.injEq, Prod.mk.injEq] at e'
    exact ⟨hc, e, e'.1, e'.2⟩
  · rw [if_neg hc] at e
    rw [h] at e; cases e

/-- A CDP frame that was built is: multicast destination, port address, length, SNAP header, version, hold time
180, a verifying checksum, and the encoding of the documented TLVs. -/
theorem C38_cdp (cdp1 : Bool) (mem mem' : Bytes) (n : Nat) (e : PktEnv) (h : EnvOk e) (hm : 1518 ≤ mem.length)
    (hb : cdpPacket cdp1 mem e = .ok (mem', n)) :
    ∃ k0 k1 : UInt8, ∃ payload : Bytes,
      payload = [if cdp1 then 1 else 2, 180, k0, k1] ++ cdpEnc (cdpAdvert e) ∧ Verifies true payload ∧
      mem'.take n = [0x01, 0x00, 0x0c, 0xcc, 0xcc, 0xcc] ++ e.nif.hwaddr ++ be16 (8 + payload.length) ++
        [0xaa, 0xaa, 0x03, 0x00, 0x00, 0x0c, 0x20, 0x00] ++ payload := by
  obtain ⟨hc, _, rfl, rfl⟩ := builds_of_ok (cdpPacket_eq cdp1 mem e h hm) hb
  have hv := checksum_verifies true (if cdp1 then 1 else 2) [180] (cdpEnc (cdpAdvert e))
    (by cases cdp1 <;> decide) (by simp) (by simp only [List.length_cons, List.length_nil]; omega)
  refine ⟨_, _, cdpData cdp1 e, rfl, hv, ?_⟩
  rw [List.take_left]
  simp [llcFrame, llcHdr, be16]

/-- FDP frames likewise. -/
theorem C38_fdp (mem mem' : Bytes) (n : Nat) (e : PktEnv) (h : EnvOk e) (hm : 1518 ≤ mem.length)
    (hb : fdpPacket mem e = .ok (mem', n)) :
    ∃ k0 k1 : UInt8, ∃ payload : Bytes,
      payload = [1, 180, k0, k1] ++ cdpEnc (fdpAdvert e) ∧ Verifies false payload ∧
      mem'.take n = [0x01, 0xe0, 0x52, 0xcc, 0xcc, 0xcc] ++ e.nif.hwaddr ++ be16 (8 + payload.length) ++
        [0xaa, 0xaa, 0x03, 0x00, 0xe0, 0x52, 0x20, 0x00] ++ payload := by
  obtain ⟨hc, _, rfl, rfl⟩ := builds_of_ok (fdpPacket_eq mem e h hm) hb
  have hv := checksum_verifies false 1 [180] (cdpEnc (fdpAdvert e)) (by decide) (by simp)
    (by simp only [List.length_cons, List.length_nil]; omega)
  refine ⟨_, _, fdpData e, rfl, hv, ?_⟩
  rw [List.take_left]
  simp [llcFrame, llcHdr, be16]

/-- EDP frames: version 1, total length, verifying checksum, sequence number, chassis address, TLVs with the
marker 0x99. -/
theorem C38_edp (mem mem' : Bytes) (n seq : Nat) (e : PktEnv) (h : EnvOk e) (hm : 1518 ≤ mem.length)
    (hb : edpPacket mem e seq = .ok (mem', n)) :
    ∃ k0 k1 : UInt8, ∃ payload : Bytes,
      payload = [1, 0] ++ be16 payload.length ++ [k0, k1] ++ be16 seq ++ [0, 0] ++ chassisAddr e ++
        edpEnc ((edpAdvert e).map (fun t => (0x99, t))) ∧
      Verifies false payload ∧
      mem'.take n = [0x00, 0xe0, 0x2b, 0x00, 0x00, 0x00] ++ e.nif.hwaddr ++ be16 (8 + payload.length) ++
        [0xaa, 0xaa, 0x03, 0x00, 0xe0, 0x2b, 0x00, 0xbb] ++ payload := by
  obtain ⟨hc, _, rfl, rfl⟩ := builds_of_ok (edpPacket_eq mem e seq h hm) hb
  have hch := chassisAddr_length h
  have hl : (edpData e seq).length = 16 + (edpEnc (marked (edpAdvert e))).length := by
    unfold edpData; simp [hch, le16]; omega
  have hv := checksum_verifies false 1 ([0] ++ be16 (16 + (edpEnc (marked (edpAdvert e))).length))
    (be16 seq ++ [0, 0] ++ chassisAddr e ++ edpEnc (marked (edpAdvert e))) (by decide) (by simp)
    (by simp [hch]; omega)
  have hd : ∃ k0 k1 : UInt8, edpData e seq = [1, 0] ++ be16 (16 + (edpEnc (marked (edpAdvert e))).length) ++ [k0, k1] ++
      be16 seq ++ [0, 0] ++ chassisAddr e ++ edpEnc (marked (edpAdvert e)) := ⟨_, _, rfl⟩
  obtain ⟨k0, k1, hd⟩ := hd
  refine ⟨k0, k1, edpData e seq, ?_, ?_, ?_⟩
  · rw [hl]; exact hd
  · unfold edpData
    simp only [List.append_assoc, List.cons_append, List.nil_append] at hv ⊢
    exact hv
  · rw [List.take_left]
    simp [llcFrame, llcHdr, be16]

/-- LLDP frames. -/
theorem C38_lldp (mem mem' : Bytes) (n : Nat) (e : PktEnv) (h : EnvOk e) (hm : 1518 ≤ mem.length)
    (hb : lldpPacket mem e = .ok (mem', n)) :
    mem'.take n = [0x01, 0x80, 0xc2, 0x00, 0x00, 0x0e] ++ e.nif.hwaddr ++ [0x88, 0xcc] ++ lldpEnc (lldpTlvs e) := by
  obtain ⟨hc, _, rfl, rfl⟩ := builds_of_ok (lldpPacket_eq mem e h hm) hb
  rw [List.take_left]; rfl

/-! ## C10 Header checksums verify -/

/-- What a receiver sums up: everything behind the 22 bytes of Ethernet and SNAP header. -/
theorem C10_cdp (cdp1 : Bool) (mem mem' : Bytes) (n : Nat) (e : PktEnv) (h : EnvOk e) (hm : 1518 ≤ mem.length)
    (hb : cdpPacket cdp1 mem e = .ok (mem', n)) : Verifies true ((mem'.take n).drop 22) := by
  obtain ⟨k0, k1, p, hp, hv, hf⟩ := C38_cdp cdp1 mem mem' n e h hm hb
  have hs : e.nif.hwaddr.length = 6 := h.1.2.2.2.2.2.1
  rw [hf]
  have : (22 : Nat) = ([0x01, 0x00, 0x0c, 0xcc, 0xcc, 0xcc] ++ e.nif.hwaddr ++ be16 (8 + p.length) ++
        [0xaa, 0xaa, 0x03, 0x00, 0x00, 0x0c, 0x20, 0x00]).length := by simp [hs]
  conv => arg 2; arg 1; rw [this]
  rw [List.drop_left]; exact hv

@[inherit_doc C10_cdp]
theorem C10_fdp (mem mem' : Bytes) (n : Nat) (e : PktEnv) (h : EnvOk e) (hm : 1518 ≤ mem.length)
    (hb : fdpPacket mem e = .ok (mem', n)) : Verifies false ((mem'.take n).drop 22) := by
  obtain ⟨k0, k1, p, hp, hv, hf⟩ := C38_fdp mem mem' n e h hm hb
  have hs : e.nif.hwaddr.length = 6 := h.1.2.2.2.2.2.1
  rw [hf]
  have : (22 : Nat) = ([0x01, 0xe0, 0x52, 0xcc, 0xcc, 0xcc] ++ e.nif.hwaddr ++ be16 (8 + p.length) ++
        [0xaa, 0xaa, 0x03, 0x00, 0xe0, 0x52, 0x20, 0x00]).length := by simp [hs]
  conv => arg 2; arg 1; rw [this]
  rw [List.drop_left]; exact hv

@[inherit_doc C10_cdp]
theorem C10_edp (mem mem' : Bytes) (n seq : Nat) (e : PktEnv) (h : EnvOk e) (hm : 1518 ≤ mem.length)
    (hb : edpPacket mem e seq = .ok (mem', n)) : Verifies false ((mem'.take n).drop 22) := by
  obtain ⟨k0, k1, p, hp, hv, hf⟩ := C38_edp mem mem' n seq e h hm hb
  have hs : e.nif.hwaddr.length = 6 := h.1.2.2.2.2.2.1
  rw [hf]
  have : (22 : Nat) = ([0x00, 0xe0, 0x2b, 0x00, 0x00, 0x00] ++ e.nif.hwaddr ++ be16 (8 + p.length) ++
        [0xaa, 0xaa, 0x03, 0x00, 0xe0, 0x2b, 0x00, 0xbb]).length := by simp [hs]
  conv => arg 2; arg 1; rw [this]
  rw [List.drop_left]; exact hv

/-- The checksum function itself, for data of any content and of odd or even length: inserting its result
makes the data verify. -/
theorem C10_chksum (cisco : Bool) (v : UInt8) (a b : Bytes) (hv : v ≠ 0) (ha : (v :: a).length % 2 = 0)
    (hl : (v :: a).length + 2 + b.length ≤ 65536) :
    Verifies cisco (v :: a ++ le16 (myChksum (v :: a ++ [0, 0] ++ b) cisco) ++ b) :=
  checksum_verifies cisco v a b hv ha hl

/-! ## C01 to C05 Round trips -/

/-- A CDP advertisement is understood by the own receiver: it learns the host name, the port name, the active
capabilities, the addresses of the aggregate or port (or, where it has none, of the management interface), the
lifetime and the protocol version. -/
theorem C02_roundtrip (cdp1 : Bool) (mem mem' pad : Bytes) (n : Nat) (e : PktEnv) (h : EnvOk e)
    (hm : 1518 ≤ mem.length) (hb : cdpPacket cdp1 mem e = .ok (mem', n)) (s : Msg) (hs : s.peer = {}) :
    ∃ s', cdpDecode false (mem'.take n ++ pad) n s = .ok (s', n) ∧
      s'.ttl = 180 ∧ s'.proto = (if cdp1 then 5 else 1) ∧
      Recovers s'.peer.hostname e.sys.hostname ∧ Recovers s'.peer.portname e.nif.name ∧
      s'.peer.cap = some (capLetters (if e.sys.capActive = 4 then 4 else e.sys.capActive &&& 26)) ∧
      s'.peer.inet4 = ((carrier e :: e.mnetif.toList).map (·.ipaddr4)).find? (fun a => configured a) ∧
      s'.peer.inet6 = ((carrier e :: e.mnetif.toList).map (·.ipaddr6)).find? (fun a => configured a) := by
  obtain ⟨hc, _, rfl, rfl⟩ := builds_of_ok (cdpPacket_eq cdp1 mem e h hm) hb
  have hw6 : e.nif.hwaddr.length = 6 := h.1.2.2.2.2.2.1
  have hl : (cdpData cdp1 e).length = 4 + (cdpEnc (cdpAdvert e)).length := by
    unfold cdpData; simp [le16]; omega
  have hfl := llcFrame_length (dst := [0x01, 0x00, 0x0c, 0xcc, 0xcc, 0xcc]) (src := e.nif.hwaddr) (org := [0x00, 0x00, 0x0c])
    (pid := 0x2000) (payload := cdpData cdp1 e) rfl hw6 rfl
  have hfr : CdpFrame _ _ := llcFrame_is (dst := [0x01, 0x00, 0x0c, 0xcc, 0xcc, 0xcc]) (src := e.nif.hwaddr)
    (org := [0x00, 0x00, 0x0c]) (pid := 0x2000) (payload := cdpData cdp1 e) hw6 (by omega)
  have hlearn := cdp_learn e h { s with proto := (if cdp1 then 5 else 1), ttl := 180 } hs
  refine ⟨{ s with proto := (if cdp1 then 5 else 1), ttl := 180, peer := cdpPeer e }, ?_, rfl, rfl, ?_, ?_, ?_, ?_, ?_⟩
  · rw [List.take_left]
    refine cdpDecode_complete false _ pad _ s _ (by omega) (by omega) hfr ?_
    refine ⟨_, 180, _, _, cdpAdvert e, rfl, cdpAdvert_wf e hc, ?_, ?_⟩
    · cases cdp1 <;> simp
    · have e1 : (if (if cdp1 = true then (1 : UInt8) else 2) = 1 then 5 else 1) = (if cdp1 then 5 else 1) := by
        cases cdp1 <;> rfl
      rw [e1]
      exact hlearn
  · refine ⟨shown e.sys.hostname, ?_, unshow_shown h.2.2.2.2.1 (by omega)⟩
    simp only [cdpPeer, learnAddrs]; cases e.mnetif <;> rfl
  · refine ⟨shown e.nif.name, ?_, unshow_shown h.1.2.1 (by omega)⟩
    simp only [cdpPeer, learnAddrs]; cases e.mnetif <;> rfl
  · have : (cdpPeer e).cap = some (capLetters (cdpCaps (cdpCapBits e.sys.capActive))) := by
      simp only [cdpPeer, learnAddrs]; cases e.mnetif <;> rfl
    rw [this]
    congr 2
    unfold cdpCapBits
    by_cases h4 : e.sys.capActive = 4
    · simp [h4]; decide
    · rw [if_neg h4, if_neg h4]
      have e26 : e.sys.capActive &&& 26 = (if e.sys.capActive.testBit 1 then 2 else 0) + (if e.sys.capActive.testBit 3 then 8 else 0) +
          (if e.sys.capActive.testBit 4 then 16 else 0) := by
        have : e.sys.capActive &&& 26 = (e.sys.capActive % 32) &&& 26 := by
          apply Nat.eq_of_testBit_eq
          intro i
          have h26 : ∀ i, Nat.testBit 26 i = true → i < 5 := by
            intro i hi
            have := Nat.ge_two_pow_of_testBit hi
            apply Decidable.byContradiction
            intro hn
            have : 2 ^ 5 ≤ 2 ^ i := Nat.pow_le_pow_right (by omega) (by omega)
            omega
          rw [show (32 : Nat) = 2 ^ 5 from rfl]
          simp only [Nat.testBit_and, Nat.testBit_mod_two_pow]
          by_cases hi : i < 5
          · simp [hi]
          · have : Nat.testBit 26 i = false := by
              cases hx : Nat.testBit 26 i with
              | false => rfl
              | true => exact absurd (h26 i hx) hi
            simp [this]
        rw [this]
        have tb : ∀ i, i < 5 → e.sys.capActive.testBit i = (e.sys.capActive % 32).testBit i := by
          intro i hi
          rw [show (32 : Nat) = 2 ^ 5 from rfl, Nat.testBit_mod_two_pow]; simp [hi]
        rw [tb 1 (by omega), tb 3 (by omega), tb 4 (by omega)]
        have : ∀ k : Fin 32, k.val &&& 26 = (if k.val.testBit 1 then 2 else 0) + (if k.val.testBit 3 then 8 else 0) +
          (if k.val.testBit 4 then 16 else 0) := by decide
        exact this ⟨e.sys.capActive % 32, Nat.mod_lt _ (by omega)⟩
      rw [e26]
      cases e.sys.capActive.testBit 1 <;> cases e.sys.capActive.testBit 3 <;> cases e.sys.capActive.testBit 4 <;> decide
  · simp only [cdpPeer, learnAddrs]
    cases e.mnetif with
    | none => by_cases c : configured (carrier e).ipaddr4 <;> simp [c, first]
    | some m =>
      by_cases c : configured (carrier e).ipaddr4 <;> by_cases c' : configured m.ipaddr4 <;> simp [c, c', first]
  · simp only [cdpPeer, learnAddrs]
    cases e.mnetif with
    | none => by_cases c : configured (carrier e).ipaddr6 <;> simp [c, first]
    | some m =>
      by_cases c : configured (carrier e).ipaddr6 <;> by_cases c' : configured m.ipaddr6 <;> simp [c, c', first]

/-- An FDP advertisement is understood by the own receiver: host name, port name, capability and lifetime.
(That the frame carries the addresses is `C38_fdp`; the receiver does not look at them.) -/
theorem C03_roundtrip (mem mem' pad : Bytes) (n : Nat) (e : PktEnv) (h : EnvOk e)
    (hm : 1518 ≤ mem.length) (hb : fdpPacket mem e = .ok (mem', n)) (s : Msg) (hs : s.peer = {}) :
    ∃ s', fdpDecode (mem'.take n ++ pad) n s = .ok (s', n) ∧ s'.ttl = 180 ∧ s'.proto = s.proto ∧
      Recovers s'.peer.hostname e.sys.hostname ∧ Recovers s'.peer.portname e.nif.name ∧
      s'.peer.cap = some (if e.sys.capActive.testBit 3 then [0x52] else if e.sys.capActive.testBit 4 then [0x53]
        else if e.sys.capActive.testBit 1 then [0x42] else [0x48]) := by
  obtain ⟨hc, _, rfl, rfl⟩ := builds_of_ok (fdpPacket_eq mem e h hm) hb
  have hw6 : e.nif.hwaddr.length = 6 := h.1.2.2.2.2.2.1
  have hl : (fdpData e).length = 4 + (cdpEnc (fdpAdvert e)).length := by
    unfold fdpData; simp [le16]; omega
  have hfl := llcFrame_length (dst := [0x01, 0xe0, 0x52, 0xcc, 0xcc, 0xcc]) (src := e.nif.hwaddr) (org := [0x00, 0xe0, 0x52])
    (pid := 0x2000) (payload := fdpData e) rfl hw6 rfl
  have hfr : FdpFrame _ _ := llcFrame_is (dst := [0x01, 0xe0, 0x52, 0xcc, 0xcc, 0xcc]) (src := e.nif.hwaddr)
    (org := [0x00, 0xe0, 0x52]) (pid := 0x2000) (payload := fdpData e) hw6 (by omega)
  have hlearn := fdp_learn e { s with ttl := 180 } hs
  refine ⟨{ s with ttl := 180, peer := fdpPeer e }, ?_, rfl, rfl, ?_, ?_, ?_⟩
  · rw [List.take_left]
    refine fdpDecode_complete _ pad _ s _ (by omega) (by omega) hfr ?_
    exact ⟨180, _, _, fdpAdvert e, rfl, fdpAdvert_wf e hc, hlearn.symm⟩
  · exact ⟨_, rfl, unshow_shownGlob h.2.2.2.2.1 (by omega)⟩
  · exact ⟨_, rfl, unshow_shownGlob h.1.2.1 (by omega)⟩
  · show some _ = some _
    congr 1
    unfold fdpCapName
    split
    · decide
    split
    · decide
    split
    · decide
    · decide

/-- An EDP advertisement is understood by the own receiver: host name and lifetime. -/
theorem C04_roundtrip (mem mem' pad : Bytes) (n seq : Nat) (e : PktEnv) (h : EnvOk e)
    (hm : 1518 ≤ mem.length) (hb : edpPacket mem e seq = .ok (mem', n)) (s : Msg) (hs : s.peer = {}) :
    ∃ s', edpDecode (mem'.take n ++ pad) n s = .ok (s', n) ∧ s'.ttl = 180 ∧ s'.proto = s.proto ∧
      Recovers s'.peer.hostname e.sys.hostname := by
  obtain ⟨hc, _, rfl, rfl⟩ := builds_of_ok (edpPacket_eq mem e seq h hm) hb
  have hw6 : e.nif.hwaddr.length = 6 := h.1.2.2.2.2.2.1
  have hch := chassisAddr_length h
  have hl : (edpData e seq).length = 16 + (edpEnc (marked (edpAdvert e))).length := by
    unfold edpData; simp [hch, le16]; omega
  have hfl := llcFrame_length (dst := [0x00, 0xe0, 0x2b, 0x00, 0x00, 0x00]) (src := e.nif.hwaddr) (org := [0x00, 0xe0, 0x2b])
    (pid := 0x00bb) (payload := edpData e seq) rfl hw6 rfl
  have hfr : EdpFrame _ _ := llcFrame_is (dst := [0x00, 0xe0, 0x2b, 0x00, 0x00, 0x00]) (src := e.nif.hwaddr)
    (org := [0x00, 0xe0, 0x2b]) (pid := 0x00bb) (payload := edpData e seq) hw6 (by omega)
  have hlearn := edp_learn e { s with ttl := 180 } hs
  refine ⟨{ s with ttl := 180, peer := edpPeer e }, ?_, rfl, rfl, ?_⟩
  · rw [List.take_left]
    refine edpDecode_complete _ pad _ s _ (by omega) (by omega) hfr ?_
    refine ⟨(edpData e seq).tail.take 15, marked (edpAdvert e), ?_, ?_, edpAdvert_wf e hc, hlearn.symm⟩
    · have e1 : edpData e seq = 1 :: (edpData e seq).tail := by simp [edpData]
      have e2 : (edpData e seq).tail.drop 15 = edpEnc (marked (edpAdvert e)) := by
        unfold edpData
        simp only [List.cons_append, List.nil_append, List.tail_cons, List.append_assoc]
        simp [le16, be16]
        rw [← hch, List.drop_left]
      conv => lhs; rw [e1]
      rw [← e2, List.cons_append, List.take_append_drop]
    · simp [hl]
  · exact ⟨_, rfl, unshow_shownGlob_nul h.2.2.2.2.1 (by omega)⟩

/-- Every NDP frame has 64 bytes, carries the address of the port or its aggregate behind the headers, and is
accepted by the own receiver with a lifetime of 180 seconds.  Building it never fails. -/
theorem C05_ndp (mem pad : Bytes) (e : PktEnv) (h : EnvOk e) (hm : 1518 ≤ mem.length) (s : Msg) :
    ∃ f : Bytes, f.length = 64 ∧ Builds (ndpPacket mem e) mem f ∧
      f.take 22 = [0x01, 0x00, 0x81, 0x00, 0x01, 0x00] ++ e.nif.hwaddr ++ [0, 50, 0xaa, 0xaa, 0x03, 0x00, 0x00, 0x81, 0x01, 0xa2] ∧
      (f.drop 22).take 4 = (carrier e).ipaddr4 ∧
      (f.drop 26).take 3 = [0, 0, UInt8.ofNat e.nif.index] ∧
      ndpDecode (f ++ pad) f.length s = .ok ({ s with ttl := 180 }, 33) := by
  have hw6 : e.nif.hwaddr.length = 6 := h.1.2.2.2.2.2.1
  have h4 : (carrier e).ipaddr4.length = 4 := (carrier_ok h).2.2.2.2.2.2.1
  have hl : (ndpData e).length = 42 := by unfold ndpData; simp [h4]
  have hfl := llcFrame_length (dst := [0x01, 0x00, 0x81, 0x00, 0x01, 0x00]) (src := e.nif.hwaddr) (org := [0x00, 0x00, 0x81])
    (pid := 0x01a2) (payload := ndpData e) rfl hw6 rfl
  have hfr : NdpFrame _ _ := llcFrame_is (dst := [0x01, 0x00, 0x81, 0x00, 0x01, 0x00]) (src := e.nif.hwaddr)
    (org := [0x00, 0x00, 0x81]) (pid := 0x01a2) (payload := ndpData e) hw6 (by omega)
  have hsplit : llcFrame [0x01, 0x00, 0x81, 0x00, 0x01, 0x00] e.nif.hwaddr [0x00, 0x00, 0x81] 0x01a2 (ndpData e) =
      ([0x01, 0x00, 0x81, 0x00, 0x01, 0x00] ++ e.nif.hwaddr ++ [0, 50, 0xaa, 0xaa, 0x03, 0x00, 0x00, 0x81, 0x01, 0xa2]) ++ ndpData e := by
    unfold llcFrame; rw [hl]; simp [llcHdr, be16]
  have h22 : ([0x01, 0x00, 0x81, 0x00, 0x01, 0x00] ++ e.nif.hwaddr ++ [0, 50, 0xaa, 0xaa, 0x03, 0x00, 0x00, 0x81, 0x01, 0xa2]).length = 22 := by
    simp [hw6]
  generalize hf : llcFrame [0x01, 0x00, 0x81, 0x00, 0x01, 0x00] e.nif.hwaddr [0x00, 0x00, 0x81] 0x01a2 (ndpData e) = f at *
  have hd : f.drop 22 = ndpData e := by rw [hsplit, ← h22, List.drop_left]
  have heq := ndpPacket_eq mem e h hm
  rw [hf] at heq
  have h64 : f.length = 64 := by omega
  refine ⟨f, h64, ?_, ?_, ?_, ?_, ?_⟩
  · unfold Builds; rw [h64]; dsimp only at heq; rw [h64] at heq; exact heq
  · rw [hsplit, ← h22, List.take_left]
  · rw [hd]; unfold ndpData; rw [List.append_assoc, ← h4, List.take_left]
  · have : f.drop 26 = (f.drop 22).drop 4 := by rw [List.drop_drop]
    rw [this, hd]; unfold ndpData; rw [List.append_assoc, ← h4, List.drop_left]; rfl
  · rcases ndpDecode_spec f pad s (by omega) (by omega) with ⟨_, hn⟩ | ⟨p, ⟨pre, hp1, hp2⟩, hlt, _⟩ | ⟨p, ⟨pre, hp1, hp2⟩, _, hok⟩
    · exact absurd ⟨_, hfr⟩ hn
    · obtain ⟨pre', hq1, hq2⟩ := hfr
      have := (llcPrefix_unique (pid := 0x01a2) rfl rfl (by omega) hp2 hp1 hq2 hq1).2
      rw [this] at hlt; omega
    · obtain ⟨pre', hq1, hq2⟩ := hfr
      have := (llcPrefix_unique (pid := 0x01a2) rfl rfl (by omega) hp2 hp1 hq2 hq1).2
      rw [hok, this, hl, h64]

/-- An LLDP advertisement is understood by the own receiver: host name, port name, port description, active
capabilities, management addresses and lifetime. -/
theorem C01_roundtrip (mem mem' pad : Bytes) (n : Nat) (e : PktEnv) (h : EnvOk e) (hcap : CapsOk e.sys)
    (hm : 1518 ≤ mem.length) (hp : 2 ≤ pad.length) (hb : lldpPacket mem e = .ok (mem', n)) (s : Msg)
    (hs : s.peer = {}) :
    ∃ s', lldpDecode false (mem'.take n ++ pad) n s = .ok (s', n) ∧ s'.ttl = 180 ∧ s'.proto = s.proto ∧
      Recovers s'.peer.hostname e.sys.hostname ∧ Recovers s'.peer.portname e.nif.name ∧
      (if portDescr e = [] then s'.peer.portdescr = none else Recovers s'.peer.portdescr (portDescr e)) ∧
      s'.peer.cap = some (if e.sys.cap = 4 then [0x48] else
        (if e.sys.capActive.testBit 1 ∨ e.sys.capActive.testBit 4 then [0x42] else []) ++
        (if e.sys.capActive.testBit 3 then [0x52] else []) ++ (if e.sys.capActive.testBit 5 then [0x57] else [])) ∧
      s'.peer.inet4 = (if configured (manager e).ipaddr4 then some (manager e).ipaddr4 else none) ∧
      s'.peer.inet6 = (if configured (manager e).ipaddr6 then some (manager e).ipaddr6 else none) ∧
      s'.peer.mac = some (manager e).hwaddr := by
  obtain ⟨hc, _, rfl, rfl⟩ := builds_of_ok (lldpPacket_eq mem e h hm) hb
  have hw6 : e.nif.hwaddr.length = 6 := h.1.2.2.2.2.2.1
  have hch := chassisAddr_length h
  have hn := h.1.2.1.1
  have hn0 : 0 < e.nif.name.length := List.length_pos_iff.mpr h.1.2.2.1
  have hfl : (lldpFrame e).length = 14 + (lldpEnc (lldpTlvs e)).length := by unfold lldpFrame; simp [hw6]; omega
  have hge := lldpLen_ge e h
  have hfr : LldpFrame (lldpFrame e) (lldpEnc (lldpTlvs e) ++ []) := by
    refine ⟨[0x01, 0x80, 0xc2, 0x00, 0x00, 0x0e] ++ e.nif.hwaddr ++ [0x88, 0xcc], ⟨e.nif.hwaddr, hw6, Or.inl rfl⟩, ?_⟩
    unfold lldpFrame; simp
  have hlearn := lldp_learn e h hcap { s with ttl := 180, peer := { portname := some (shown e.nif.name) } } rfl
  refine ⟨{ s with ttl := 180, peer := lldpPeer e }, ?_, rfl, rfl, ?_, ?_, ?_, ?_, rfl, rfl, rfl⟩
  · rw [List.take_left]
    refine lldpDecode_complete false _ pad (lldpEnc (lldpTlvs e)) [] s _ (by omega) (by omega) hp hfr ?_
    refine ⟨4 :: chassisAddr e, 5 :: e.nif.name, 0, 180, lldpAdvert e, s, { s with peer := { portname := some (shown e.nif.name) } },
      rfl, ?_, ?_, ?_, hlearn⟩
    · intro t ht
      simp only [List.mem_append, List.mem_cons, List.not_mem_nil, or_false] at ht
      rcases ht with (rfl | rfl) | ht
      · exact ⟨by simp, by simp [hch]⟩
      · exact ⟨by simp, by simp; omega⟩
      · exact lldpAdvert_wf e h t ht
    · unfold chassisMeaning
      split
      · rename_i heq; cases heq
      · rename_i heq
        have := congrArg List.length heq
        simp [hch] at this
      · rename_i heq
        cases heq
        rw [if_neg (by omega)]; rfl
    · unfold portMeaning
      split
      · rename_i heq; cases heq
      · rename_i heq
        have := congrArg List.length heq
        simp at this
        exact absurd this (List.length_pos_iff.mp hn0)
      · rename_i heq
        cases heq
        rw [if_neg (by omega), if_pos (by decide)]
        simp [showOr, hs, first]
  · exact ⟨_, rfl, unshow_shown h.2.2.2.2.1 (by omega)⟩
  · exact ⟨_, rfl, unshow_shown h.1.2.1 (by omega)⟩
  · split
    · rename_i hd; simp [lldpPeer, hd]
    · rename_i hd
      exact ⟨shown (portDescr e), by simp [lldpPeer, hd], unshow_shown (portDescr_le h) (by omega)⟩
  · apply congrArg some
    by_cases h4 : e.sys.cap = 4
    · simp only [h4, if_true]; decide
    · simp only [h4, if_false]
      unfold lldpCapWord
      cases e.sys.capActive.testBit 1 <;> cases e.sys.capActive.testBit 3 <;> cases e.sys.capActive.testBit 4 <;>
        cases e.sys.capActive.testBit 5 <;> decide

/-! ## C06 Frame buffer and Ethernet limits -/

/-- Every builder either fails for every buffer, or there is one frame, of a length the privileged sender
accepts, that is written at the start of any buffer, completely and nothing else.  It passes its own frame
check.  (CDP and FDP frames reach the minimum length because of the system texts.) -/
theorem C06_built (p : Proto) (e : PktEnv) (seq : Nat) (h : EnvOk e)
    (ht : 9 ≤ e.sys.hostname.length + e.sys.utsStr.length + e.sys.platform.length) :
    (∀ mem : Bytes, 1518 ≤ mem.length → p.build mem e seq = .fail) ∨
    ∃ f : Bytes, 60 ≤ f.length ∧ f.length ≤ 1518 ∧
      (∀ mem : Bytes, 1518 ≤ mem.length → Builds (p.build mem e seq) mem f) ∧
      ∃ k, ∀ pad, p.check (f ++ pad) f.length = .ok k := by
  have hw6 : e.nif.hwaddr.length = 6 := h.1.2.2.2.2.2.1
  have hch := chassisAddr_length h
  have hchk : ∀ (dst org : Bytes) (pid : Nat) (f payload : Bytes), dst.length = 6 → org.length = 3 → pid < 65536 →
      26 ≤ f.length → f.length ≤ 1518 → LlcFrame dst org (be16 pid) f payload →
      ∃ k, ∀ pad, llcCheck dst org pid (f ++ pad) f.length = .ok k := by
    intro dst org pid f payload hd ho hp h1 h2 ⟨pre, hpre, he⟩
    refine ⟨pre.length, fun pad => ?_⟩
    rcases llcCheck_spec dst org pid f pad hd ho hp h1 h2 with ⟨pre', payload', e', hpre', hok⟩ | ⟨_, hn⟩
    · rw [hok, (llcPrefix_unique hd ho h1 e' hpre' he hpre).1]
    · exact absurd ⟨pre, payload, he, hpre⟩ hn
  have hcdp : ∀ cdp1 : Bool, (∀ mem : Bytes, 1518 ≤ mem.length → cdpPacket cdp1 mem e = .fail) ∨
      ∃ f : Bytes, 60 ≤ f.length ∧ f.length ≤ 1518 ∧ (∀ mem : Bytes, 1518 ≤ mem.length → Builds (cdpPacket cdp1 mem e) mem f) ∧
      ∃ k, ∀ pad, cdpCheck (f ++ pad) f.length = .ok k := by
    intro cdp1
    by_cases hc : 26 + (cdpEnc (cdpAdvert e)).length ≤ 1518
    · right
      have hl : (cdpData cdp1 e).length = 4 + (cdpEnc (cdpAdvert e)).length := by unfold cdpData; simp [le16]; omega
      have hfl := llcFrame_length (dst := [0x01, 0x00, 0x0c, 0xcc, 0xcc, 0xcc]) (src := e.nif.hwaddr) (org := [0x00, 0x00, 0x0c])
        (pid := 0x2000) (payload := cdpData cdp1 e) rfl hw6 rfl
      have hge := cdpLen_ge e h
      refine ⟨llcFrame [0x01, 0x00, 0x0c, 0xcc, 0xcc, 0xcc] e.nif.hwaddr [0x00, 0x00, 0x0c] 0x2000 (cdpData cdp1 e), by omega, by omega, fun mem hm => ?_, hchk CDP_DST CDP_ORG CDP_PID _ _ rfl rfl (by decide) (by omega) (by omega)
        (llcFrame_is hw6 (by omega))⟩
      have := cdpPacket_eq cdp1 mem e h hm
      rw [if_pos hc] at this; exact this
    · left; intro mem hm; rw [cdpPacket_eq cdp1 mem e h hm, if_neg hc]
  cases p with
  | cdp => exact hcdp false
  | cdp1 => exact hcdp true
  | fdp =>
    show (∀ mem : Bytes, 1518 ≤ mem.length → fdpPacket mem e = .fail) ∨ _
    by_cases hc : 26 + (cdpEnc (fdpAdvert e)).length ≤ 1518
    · right
      have hl : (fdpData e).length = 4 + (cdpEnc (fdpAdvert e)).length := by unfold fdpData; simp [le16]; omega
      have hfl := llcFrame_length (dst := [0x01, 0xe0, 0x52, 0xcc, 0xcc, 0xcc]) (src := e.nif.hwaddr) (org := [0x00, 0xe0, 0x52])
        (pid := 0x2000) (payload := fdpData e) rfl hw6 rfl
      have hge := fdpLen_ge e h
      refine ⟨llcFrame [0x01, 0xe0, 0x52, 0xcc, 0xcc, 0xcc] e.nif.hwaddr [0x00, 0xe0, 0x52] 0x2000 (fdpData e), by omega, by omega, fun mem hm => ?_, hchk FDP_DST FDP_ORG FDP_PID _ _ rfl rfl (by decide) (by omega) (by omega)
        (llcFrame_is hw6 (by omega))⟩
      have := fdpPacket_eq mem e h hm
      rw [if_pos hc] at this; exact this
    · left; intro mem hm; rw [fdpPacket_eq mem e h hm, if_neg hc]
  | edp =>
    show (∀ mem : Bytes, 1518 ≤ mem.length → edpPacket mem e seq = .fail) ∨ _
    by_cases hc : 38 + (edpEnc (marked (edpAdvert e))).length ≤ 1518
    · right
      have hl : (edpData e seq).length = 16 + (edpEnc (marked (edpAdvert e))).length := by
        unfold edpData; simp [hch, le16]; omega
      have hfl := llcFrame_length (dst := [0x00, 0xe0, 0x2b, 0x00, 0x00, 0x00]) (src := e.nif.hwaddr) (org := [0x00, 0xe0, 0x2b])
        (pid := 0x00bb) (payload := edpData e seq) rfl hw6 rfl
      have hge := edpLen_ge e h
      refine ⟨llcFrame [0x00, 0xe0, 0x2b, 0x00, 0x00, 0x00] e.nif.hwaddr [0x00, 0xe0, 0x2b] 0x00bb (edpData e seq), by omega, by omega, fun mem hm => ?_, hchk EDP_DST EDP_ORG EDP_PID _ _ rfl rfl (by decide) (by omega) (by omega)
        (llcFrame_is hw6 (by omega))⟩
      have := edpPacket_eq mem e seq h hm
      rw [if_pos hc] at this; exact this
    · left; intro mem hm; rw [edpPacket_eq mem e seq h hm, if_neg hc]
  | ndp =>
    right
    show ∃ f : Bytes, _ ∧ _ ∧ (∀ mem : Bytes, 1518 ≤ mem.length → Builds (ndpPacket mem e) mem f) ∧ _
    have h4 : (carrier e).ipaddr4.length = 4 := (carrier_ok h).2.2.2.2.2.2.1
    have hl : (ndpData e).length = 42 := by unfold ndpData; simp [h4]
    have hfl := llcFrame_length (dst := [0x01, 0x00, 0x81, 0x00, 0x01, 0x00]) (src := e.nif.hwaddr) (org := [0x00, 0x00, 0x81])
      (pid := 0x01a2) (payload := ndpData e) rfl hw6 rfl
    refine ⟨llcFrame [0x01, 0x00, 0x81, 0x00, 0x01, 0x00] e.nif.hwaddr [0x00, 0x00, 0x81] 0x01a2 (ndpData e), by omega, by omega, fun mem hm => ?_, hchk NDP_DST NDP_ORG NDP_PID _ _ rfl rfl (by decide) (by omega) (by omega)
        (llcFrame_is hw6 (by omega))⟩
    have := ndpPacket_eq mem e h hm
    unfold Builds
    dsimp only at this
    rw [this]
    simp only [Res.ok.injEq, Prod.mk.injEq]
    exact ⟨trivial, by omega⟩
  | lldp =>
    show (∀ mem : Bytes, 1518 ≤ mem.length → lldpPacket mem e = .fail) ∨ _
    by_cases hc : 14 + (lldpEnc (lldpTlvs e)).length ≤ 1518
    · right
      have hfl : (lldpFrame e).length = 14 + (lldpEnc (lldpTlvs e)).length := by unfold lldpFrame; simp [hw6]; omega
      have hge := lldpLen_ge e h
      refine ⟨lldpFrame e, by omega, by omega, fun mem hm => ?_, ?_⟩
      · have := lldpPacket_eq mem e h hm
        rw [if_pos hc] at this; exact this
      · refine ⟨14, fun pad => ?_⟩
        have hpre : LldpPrefix ([0x01, 0x80, 0xc2, 0x00, 0x00, 0x0e] ++ e.nif.hwaddr ++ [0x88, 0xcc]) :=
          ⟨e.nif.hwaddr, hw6, Or.inl rfl⟩
        have h14 : ([0x01, 0x80, 0xc2, 0x00, 0x00, 0x0e] ++ e.nif.hwaddr ++ [0x88, 0xcc]).length = 14 := by simp [hw6]
        rcases lldpCheck_spec (lldpFrame e) pad (by omega) (by omega) with ⟨pre', payload', e', hpre', hok⟩ | ⟨_, hn⟩
        · show lldpCheck _ _ = _
          rw [hok, (lldpPrefix_unique (by omega) e' hpre' rfl hpre).1, h14]
        · exact absurd ⟨_, _, rfl, hpre⟩ hn
    · left; intro mem hm; rw [lldpPacket_eq mem e h hm, if_neg hc]

/-- CDP (both versions), FDP and NDP advertisements always fit; EDP with up to 37 and LLDP with up to 10 VLANs
on the port. -/
theorem C06_fits (p : Proto) (mem : Bytes) (e : PktEnv) (seq : Nat) (h : EnvOk e) (hm : 1518 ≤ mem.length)
    (hv : match p with
      | .edp => (vlansOf e).length ≤ 37
      | .lldp => (vlansOf e).length ≤ 10
      | _ => True) :
    ∃ r, p.build mem e seq = .ok r := by
  have hcdp := cdpLen_le e h
  cases p with
  | cdp => exact ⟨_, by show cdpPacket false mem e = _; rw [cdpPacket_eq _ _ _ h hm, if_pos (by omega)]⟩
  | cdp1 => exact ⟨_, by show cdpPacket true mem e = _; rw [cdpPacket_eq _ _ _ h hm, if_pos (by omega)]⟩
  | fdp =>
    have := fdpLen_le e h
    exact ⟨_, by show fdpPacket mem e = _; rw [fdpPacket_eq _ _ h hm, if_pos (by omega)]⟩
  | edp =>
    have := edpLen_le e h
    dsimp only at hv
    exact ⟨_, by show edpPacket mem e seq = _; rw [edpPacket_eq _ _ _ h hm, if_pos (by omega)]⟩
  | ndp => exact ⟨_, by show ndpPacket mem e = _; rw [ndpPacket_eq _ _ h hm]⟩
  | lldp =>
    have := lldpLen_le e h
    dsimp only at hv
    exact ⟨_, by show lldpPacket mem e = _; rw [lldpPacket_eq _ _ h hm, if_pos (by omega)]⟩

/-! ## Examples -/

/-- A bonded port with a VLAN, addresses, descriptions and special characters. -/
def exEnv : PktEnv := {
  nif := { index := 2, name := lit "eth0", hwaddr := [2, 0, 0, 0, 0, 2], mtu := 1500, duplex := 1,
           autonegSupported := 1, autonegEnabled := 1, description := lit "up\\link", child := 1 }
  parent := some { index := 4, name := lit "bond0", hwaddr := [2, 0, 0, 0, 0, 4], type := 12, bondingMode := 1,
                   ipaddr4 := [192, 0, 2, 1], subif := some 2 }
  mnetif := some { index := 5, name := lit "lo1", hwaddr := [2, 0, 0, 0, 0, 5], ipaddr4 := [10, 0, 0, 1],
                   ipaddr6 := [0x20, 1, 0xd, 0xb8, 0, 0, 0, 0, 0, 0, 0, 0, 0, 0, 0, 1] }
  netifs := [{ index := 6, name := lit "vlan7", hwaddr := [2, 0, 0, 0, 0, 4], type := -1, vlanId := 7, vlanParent := 4 }]
  sys := { hostname := lit "host*?", utsStr := lit "Linux 6.1", platform := lit "Linux", cap := 12, capActive := 12,
           hwaddr := [2, 0, 0, 0, 0, 2] }
  opts := 2 }

example : EnvOk exEnv ∧ CapsOk exEnv.sys ∧
    9 ≤ exEnv.sys.hostname.length + exEnv.sys.utsStr.length + exEnv.sys.platform.length ∧ (vlansOf exEnv).length = 1 := by
  decide +kernel
/-- Length of a built frame. -/
def builtLen : Res (Bytes × Nat) → Nat
  | .ok r => r.2
  | _ => 0
example : builtLen (cdpPacket false (List.replicate 1518 0xee) exEnv) = 159 := by decide +kernel
example : builtLen (fdpPacket (List.replicate 1518 0xee) exEnv) = 121 := by decide +kernel
example : builtLen (edpPacket (List.replicate 1518 0xee) exEnv 3) = 130 := by decide +kernel
example : builtLen (ndpPacket (List.replicate 1518 0xee) exEnv) = 64 := by decide +kernel
example : builtLen (lldpPacket (List.replicate 1518 0xee) exEnv) = 179 := by decide +kernel

end Ladvd.Props
