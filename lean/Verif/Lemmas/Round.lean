import Verif.Lemmas.Learn
/-!
# Built frames as frames of the wire specification
-/

namespace Ladvd

open Spec

theorem llcFrame_is {dst src org : Bytes} {pid : Nat} {payload : Bytes} (hs : src.length = 6)
    (hl : payload.length ≤ 1496) : LlcFrame dst org (be16 pid) (llcFrame dst src org pid payload) payload := by
  refine ⟨dst ++ src ++ be16 (8 + payload.length) ++ llcHdr org pid, ⟨src, be16 (8 + payload.length), hs, rfl, Or.inl ⟨?_, ?_⟩⟩, rfl⟩
  · unfold llcHdr; simp [List.append_assoc]
  · intro h
    have := congrArg beNat h
    rw [beNat_be16] at this
    have e : beNat [0x81, 0x00] = 33024 := by decide
    omega

theorem cdpEnc_mem {ts : List Tlv} {t : Tlv} (h : t ∈ ts) : t.2.length + 4 ≤ (cdpEnc ts).length := by
  induction ts with
  | nil => cases h
  | cons a ts ih =>
    simp only [cdpEnc, List.flatMap_cons, List.length_append]
    rcases List.mem_cons.mp h with rfl | h
    · simp only [cdpEnc1, List.length_append, be16_length]; omega
    · have := ih h; unfold cdpEnc at this; omega

theorem edpEnc_mem {ts : List (UInt8 × Tlv)} {t : UInt8 × Tlv} (h : t ∈ ts) : t.2.2.length + 4 ≤ (edpEnc ts).length := by
  induction ts with
  | nil => cases h
  | cons a ts ih =>
    simp only [edpEnc, List.flatMap_cons, List.length_append]
    rcases List.mem_cons.mp h with rfl | h
    · simp only [edpEnc1, List.length_append, be16_length, List.length_cons, List.length_nil]; omega
    · have := ih h; unfold edpEnc at this; omega

/-! ## Types -/

theorem addrTlv_type (t : Nat) (n : Netif) : ∀ x ∈ addrTlv t n, x.1 = t := by
  intro x hx
  unfold addrTlv at hx
  dsimp only at hx
  generalize (_ ++ _ : List Bytes) = l at hx
  split at hx
  · cases hx
  · rw [List.mem_singleton.mp hx]

theorem cdpAdvert_type (e : PktEnv) : ∀ t ∈ cdpAdvert e, t.1 < 65536 := by
  intro t ht
  unfold cdpAdvert mgmtAddrs at ht
  simp only [List.mem_append] at ht
  rcases ht with (((((h | h) | h) | h) | h) | h) | h
  · simp only [List.mem_cons, List.not_mem_nil, or_false] at h
    rcases h with h | h | h | h | h <;> simp [h]
  · simp [addrTlv_type _ _ t h]
  · split at h
    · simp [addrTlv_type _ _ t h]
    · cases h
  · split at h
    · cases h
    · simp [List.mem_singleton.mp h]
  · split at h
    · cases h
    · simp [List.mem_singleton.mp h]
  · split at h
    · cases h
    · simp [List.mem_singleton.mp h]
  · simp [List.mem_singleton.mp h]

theorem cdpAdvert_wf (e : PktEnv) (h : 26 + (cdpEnc (cdpAdvert e)).length ≤ 1518) : CdpWf (cdpAdvert e) :=
  fun t ht => ⟨cdpAdvert_type e t ht, by have := cdpEnc_mem ht; omega⟩

theorem fdpAdvert_wf (e : PktEnv) (h : 26 + (cdpEnc (fdpAdvert e)).length ≤ 1518) : CdpWf (fdpAdvert e) := by
  intro t ht
  refine ⟨?_, by have := cdpEnc_mem ht; omega⟩
  unfold fdpAdvert at ht
  simp only [List.mem_append] at ht
  rcases ht with h | h
  · simp only [List.mem_cons, List.not_mem_nil, or_false] at h
    rcases h with h | h | h | h | h <;> simp [h]
  · simp [addrTlv_type _ _ t h]

theorem edpAdvert_wf (e : PktEnv) (h : 38 + (edpEnc (marked (edpAdvert e))).length ≤ 1518) :
    EdpWf (marked (edpAdvert e)) := by
  intro t ht
  refine ⟨?_, by have := edpEnc_mem ht; omega⟩
  unfold marked at ht
  obtain ⟨a, ha, rfl⟩ := List.mem_map.mp ht
  unfold edpAdvert at ha
  simp only [List.mem_append, List.mem_map] at ha
  rcases ha with ((h | h) | ⟨v, _, h⟩) | h
  · simp only [List.mem_cons, List.not_mem_nil, or_false] at h
    rcases h with h | h <;> simp [h]
  · split at h
    · simp [List.mem_singleton.mp h]
    · cases h
  · simp [← h]
  · simp [List.mem_singleton.mp h]

theorem inventory_wf (sub : UInt8) (v : Bytes) (hv : cText 32 v) : ∀ t ∈ inventory sub v, t.1 < 128 ∧ t.2.length < 512 := by
  intro t ht
  unfold inventory at ht
  split at ht
  · cases ht
  · have := hv.1
    rw [List.mem_singleton.mp ht]
    simp; omega

theorem lldpAdvert_wf (e : PktEnv) (h : EnvOk e) : LldpWf (lldpAdvert e) := by
  have hm := manager_ok h
  have h4 : (manager e).ipaddr4.length = 4 := hm.2.2.2.2.2.2.1
  have h6 : (manager e).ipaddr6.length = 16 := hm.2.2.2.2.2.2.2.1
  have hw6 : (manager e).hwaddr.length = 6 := hm.2.2.2.2.2.1
  obtain ⟨_, _, _, _, hh, hu, hpl, hl, hc, _, _, _, _, _, i1, i2, i3, i4, i5, i6, i7⟩ := h
  have hd := portDescr_le (e := e) ⟨by assumption, by assumption, by assumption, by assumption, hh, hu, hpl, hl, hc, by assumption, by assumption, by assumption, by assumption, by assumption, i1, i2, i3, i4, i5, i6, i7⟩
  have hv := vlansOf_ok (e := e) ⟨by assumption, by assumption, by assumption, by assumption, hh, hu, hpl, hl, hc, by assumption, by assumption, by assumption, by assumption, by assumption, i1, i2, i3, i4, i5, i6, i7⟩
  intro t ht
  unfold lldpAdvert at ht
  simp only [List.mem_append] at ht
  rcases ht with ((((((((((((((((h | h) | h) | h) | h) | h) | h) | h) | h) | h) | h) | h) | h) | h) | h) | h) | h) | h
  · split at h
    · cases h
    · have := hd.1
      rw [List.mem_singleton.mp h]
      exact ⟨by simp, by simp only; omega⟩
  · simp only [List.mem_cons, List.not_mem_nil, or_false] at h
    have := hh.1
    have := hu.1
    rcases h with h | h | h <;> subst h
    · exact ⟨by simp, by simp only; omega⟩
    · exact ⟨by simp, by simp only; omega⟩
    · refine ⟨by simp, ?_⟩
      unfold lldpCapPair; split <;> simp
  · split at h
    · rw [List.mem_singleton.mp h]; unfold mgmtTlv; simp; omega
    · cases h
  · split at h
    · rw [List.mem_singleton.mp h]; unfold mgmtTlv; simp; omega
    · cases h
  · rw [List.mem_singleton.mp h]; unfold mgmtTlv; simp; omega
  · obtain ⟨v, hv', rfl⟩ := List.mem_map.mp h
    have := (hv v hv').2.1.1
    simp; omega
  · split at h
    · cases h
    · rw [List.mem_singleton.mp h]; simp
  · split at h
    · rw [List.mem_singleton.mp h]; simp
    · cases h
  · split at h
    · cases h
    · rw [List.mem_singleton.mp h]; simp
  · rw [List.mem_singleton.mp h]; simp
  · split at h
    · have := hl.1; have := hc.1
      rw [List.mem_singleton.mp h]; simp; omega
    · cases h
  · exact inventory_wf _ _ i1 t h
  · exact inventory_wf _ _ i2 t h
  · exact inventory_wf _ _ i3 t h
  · exact inventory_wf _ _ i4 t h
  · exact inventory_wf _ _ i5 t h
  · exact inventory_wf _ _ i6 t h
  · exact inventory_wf _ _ i7 t h

/-! ## Lengths -/

theorem cdpEnc_nlen : (cdpEnc []).length = 0 := rfl
theorem cdpEnc_clen (t : Tlv) (ts : List Tlv) : (cdpEnc (t :: ts)).length = t.2.length + 4 + (cdpEnc ts).length := by
  simp only [cdpEnc, List.flatMap_cons, List.length_append, cdpEnc1, be16_length]; omega

theorem lldpEnc_nlen : (lldpEnc []).length = 0 := rfl
theorem lldpEnc_clen (t : Tlv) (ts : List Tlv) : (lldpEnc (t :: ts)).length = t.2.length + 2 + (lldpEnc ts).length := by
  simp only [lldpEnc, List.flatMap_cons, List.length_append, lldpEnc1, be16_length]; omega

theorem edpEnc_nlen : (edpEnc (marked [])).length = 0 := rfl
theorem edpEnc_clen (t : Tlv) (ts : List Tlv) :
    (edpEnc (marked (t :: ts))).length = t.2.length + 4 + (edpEnc (marked ts)).length := by
  simp only [edpEnc, marked, List.map_cons, List.flatMap_cons, List.length_append, edpEnc1, be16_length, List.length_cons, List.length_nil]; omega

theorem addrTlv_le (t : Nat) (n : Netif) (hn : NetifOk n) : (cdpEnc (addrTlv t n)).length ≤ 45 := by
  have h4 : n.ipaddr4.length = 4 := hn.2.2.2.2.2.2.1
  have h6 : n.ipaddr6.length = 16 := hn.2.2.2.2.2.2.2.1
  unfold addrTlv
  by_cases c4 : configured n.ipaddr4 <;> by_cases c6 : configured n.ipaddr6 <;>
    simp [c4, c6, cdpEnc_clen, cdpEnc_nlen, h4, h6]

theorem cdpLen_le (e : PktEnv) (h : EnvOk e) : (cdpEnc (cdpAdvert e)).length ≤ 1426 := by
  have hc := addrTlv_le 0x02 _ (carrier_ok h)
  have hm : (cdpEnc (mgmtAddrs e)).length ≤ 45 := by
    unfold mgmtAddrs
    cases hp : e.mnetif with
    | none => simp [cdpEnc_nlen]
    | some m => exact addrTlv_le _ _ (h.2.2.1 m (by simp [hp]))
  have h1 := h.2.2.2.2.1.1
  have h2 := h.2.2.2.2.2.1.1
  have h3 := h.2.2.2.2.2.2.1.1
  have h4 := h.2.2.2.2.2.2.2.1.1
  have h5 := h.1.2.1.1
  unfold cdpAdvert
  simp only [cdpEnc_append, List.length_append, cdpEnc_clen, cdpEnc_nlen, be32_length]
  have q1 : (cdpEnc (if e.nif.mtu = 0 then [] else [(0x11, be32 e.nif.mtu)])).length ≤ 8 := by
    split <;> simp [cdpEnc_clen, cdpEnc_nlen]
  have q2 : (cdpEnc (if e.nif.duplex = -1 then [] else [(0x0b, [UInt8.ofInt e.nif.duplex])])).length ≤ 5 := by
    split <;> simp [cdpEnc_clen, cdpEnc_nlen]
  have q3 : (cdpEnc (if e.sys.location = [] then [] else [(0x17, 0 :: e.sys.location)])).length ≤ 260 := by
    split <;> simp [cdpEnc_clen, cdpEnc_nlen] <;> omega
  omega

theorem cdpLen_ge (e : PktEnv) (h : EnvOk e) :
    29 + e.sys.hostname.length + e.sys.utsStr.length + e.sys.platform.length ≤ (cdpEnc (cdpAdvert e)).length := by
  have hn : 0 < e.nif.name.length := List.length_pos_iff.mpr h.1.2.2.1
  unfold cdpAdvert
  simp only [cdpEnc_append, List.length_append, cdpEnc_clen, cdpEnc_nlen, be32_length]
  omega

theorem fdpCapName_len (c : Nat) : 4 ≤ (fdpCapName c).length ∧ (fdpCapName c).length ≤ 6 := by
  unfold fdpCapName; repeat' split
  all_goals simp

theorem fdpLen_le (e : PktEnv) (h : EnvOk e) : (cdpEnc (fdpAdvert e)).length ≤ 851 := by
  have hm := addrTlv_le 2 _ (manager_ok h)
  have h1 := h.2.2.2.2.1.1
  have h2 := h.2.2.2.2.2.1.1
  have h3 := h.2.2.2.2.2.2.1.1
  have h5 := h.1.2.1.1
  have h6 := fdpCapName_len e.sys.capActive
  unfold fdpAdvert
  simp only [cdpEnc_append, List.length_append, cdpEnc_clen, cdpEnc_nlen]
  omega

theorem fdpLen_ge (e : PktEnv) (h : EnvOk e) :
    25 + e.sys.hostname.length + e.sys.utsStr.length + e.sys.platform.length ≤ (cdpEnc (fdpAdvert e)).length := by
  have hn : 0 < e.nif.name.length := List.length_pos_iff.mpr h.1.2.2.1
  have h6 := fdpCapName_len e.sys.capActive
  unfold fdpAdvert
  simp only [cdpEnc_append, List.length_append, cdpEnc_clen, cdpEnc_nlen]
  omega

theorem vlanEdp_len (e : PktEnv) (h : EnvOk e) (l : List Netif) (hl : ∀ v ∈ l, NetifOk v) :
    (edpEnc (marked (l.map (fun v =>
      (5, [(if configured v.ipaddr4 then 0x80 else 0), 0] ++ be16 v.vlanId ++ [0, 0, 0, 0] ++ v.ipaddr4 ++
        e.nif.name))))).length ≤ 31 * l.length := by
  have h5 := h.1.2.1.1
  induction l with
  | nil => simp [edpEnc_nlen]
  | cons v l ih =>
    have := ih (fun x hx => hl x (by simp [hx]))
    have h4 : v.ipaddr4.length = 4 := (hl v (by simp)).2.2.2.2.2.2.1
    simp only [List.map_cons, edpEnc_clen, List.length_append, List.length_cons, List.length_nil, be16_length] at this ⊢
    omega

theorem edpLen_le (e : PktEnv) (h : EnvOk e) : (edpEnc (marked (edpAdvert e))).length ≤ 332 + 31 * (vlansOf e).length := by
  have h1 := h.2.2.2.2.1.1
  have hr := h.2.2.2.2.2.2.2.2.2.1
  have h5 := h.1.2.1.1
  have h4 : (carrier e).ipaddr4.length = 4 := (carrier_ok h).2.2.2.2.2.2.1
  have hv := vlanEdp_len e h _ (vlansOf_ok h)
  unfold edpAdvert
  simp only [edpEnc_marked, List.length_append, edpEnc_clen, edpEnc_nlen, List.length_cons, List.length_nil, be16_length,
    List.length_replicate]
  have q : (edpEnc (marked (if configured (carrier e).ipaddr4 then
    [(5, [0x80, 0, 0, 0, 0, 0, 0, 0] ++ (carrier e).ipaddr4 ++ e.nif.name ++ [0])] else []))).length ≤ 32 := by
    split
    · simp only [edpEnc_clen, edpEnc_nlen, List.length_append, List.length_cons, List.length_nil]; omega
    · simp [edpEnc_nlen]
  omega

theorem edpLen_ge (e : PktEnv) (h : EnvOk e) : 45 ≤ (edpEnc (marked (edpAdvert e))).length := by
  have hr := h.2.2.2.2.2.2.2.2.2.1
  unfold edpAdvert
  simp only [edpEnc_marked, List.length_append, edpEnc_clen, edpEnc_nlen, List.length_cons, List.length_nil, be16_length,
    List.length_replicate]
  omega

theorem inventory_le (sub : UInt8) (v : Bytes) (hv : cText 32 v) : (lldpEnc (inventory sub v)).length ≤ 38 := by
  have := hv.1
  unfold inventory
  split
  · simp [lldpEnc_nlen]
  · simp only [lldpEnc_clen, lldpEnc_nlen, List.length_append, List.length_cons, List.length_nil]; omega

theorem vlanLldp_len (l : List Netif) (hl : ∀ v ∈ l, NetifOk v) :
    (lldpEnc (l.map (fun v => (127, [0x00, 0x80, 0xc2, 3] ++ be16 v.vlanId ++ [UInt8.ofNat v.name.length] ++ v.name)))).length
      ≤ 24 * l.length := by
  induction l with
  | nil => simp [lldpEnc_nlen]
  | cons v l ih =>
    have := ih (fun x hx => hl x (by simp [hx]))
    have h5 := (hl v (by simp)).2.1.1
    simp only [List.map_cons, lldpEnc_clen, List.length_append, List.length_cons, List.length_nil, be16_length] at this ⊢
    omega

theorem lldpLen_le (e : PktEnv) (h : EnvOk e) : (lldpEnc (lldpTlvs e)).length ≤ 1261 + 24 * (vlansOf e).length - 14 := by
  have hm := manager_ok h
  have h4 : (manager e).ipaddr4.length = 4 := hm.2.2.2.2.2.2.1
  have h6 : (manager e).ipaddr6.length = 16 := hm.2.2.2.2.2.2.2.1
  have hw6 : (manager e).hwaddr.length = 6 := hm.2.2.2.2.2.1
  have hd := (portDescr_le h).1
  have hv := vlanLldp_len _ (vlansOf_ok h)
  have hch := chassisAddr_length h
  have h5 := h.1.2.1.1
  obtain ⟨_, _, _, _, hh, hu, hpl, hl, hc, _, _, _, _, _, i1, i2, i3, i4, i5, i6, i7⟩ := h
  have hh := hh.1
  have hu := hu.1
  have hl := hl.1
  have hc := hc.1
  have j1 := inventory_le 5 _ i1
  have j2 := inventory_le 6 _ i2
  have j3 := inventory_le 7 _ i3
  have j4 := inventory_le 8 _ i4
  have j5 := inventory_le 9 _ i5
  have j6 := inventory_le 10 _ i6
  have j7 := inventory_le 11 _ i7
  unfold lldpTlvs lldpAdvert
  simp only [lldpEnc_append', List.length_append, lldpEnc_clen, lldpEnc_nlen, List.length_cons, List.length_nil, be16_length,
    mgmtTlv, be32_length]
  have q1 : (lldpEnc (if portDescr e = [] then [] else [(4, portDescr e)])).length ≤ 65 := by
    split
    · simp [lldpEnc_nlen]
    · simp only [lldpEnc_clen, lldpEnc_nlen]; omega
  have q2 : (lldpCapPair e.sys).length = 4 := by unfold lldpCapPair; split <;> simp
  have q3 : (lldpEnc (if configured (manager e).ipaddr4 then
      [(8, [UInt8.ofNat ((manager e).ipaddr4.length + 1), 1] ++ (manager e).ipaddr4 ++ [2] ++ be32 (manager e).index ++ [0])] else [])).length ≤ 14 := by
    split
    · simp [lldpEnc_nlen, lldpEnc_clen, h4]
    · simp [lldpEnc_nlen]
  have q4 : (lldpEnc (if configured (manager e).ipaddr6 then
      [(8, [UInt8.ofNat ((manager e).ipaddr6.length + 1), 2] ++ (manager e).ipaddr6 ++ [2] ++ be32 (manager e).index ++ [0])] else [])).length ≤ 26 := by
    split
    · simp [lldpEnc_nlen, lldpEnc_clen, h6]
    · simp [lldpEnc_nlen]
  have q5 : (lldpEnc (if e.nif.autonegSupported = -1 then [] else
    [(127, [0x00, 0x12, 0x0f, 1, UInt8.ofInt (e.nif.autonegSupported + 2 * e.nif.autonegEnabled)] ++
      be16 e.nif.autonegPmd ++ be16 e.nif.mau)])).length ≤ 11 := by
    split <;> simp [lldpEnc_nlen, lldpEnc_clen]
  have q6 : (lldpEnc (if (carrier e).bondingMode = 1 then [(127, [0x00, 0x12, 0x0f, 3, 3] ++ be32 e.nif.lacpIndex)] else [])).length ≤ 11 := by
    split <;> simp [lldpEnc_nlen, lldpEnc_clen]
  have q7 : (lldpEnc (if e.nif.mtu = 0 then [] else [(127, [0x00, 0x12, 0x0f, 4] ++ be16 (e.nif.mtu + 22))])).length ≤ 8 := by
    split <;> simp [lldpEnc_nlen, lldpEnc_clen]
  have q8 : (lldpEnc (if e.sys.country.length = 2 ∧ e.sys.location ≠ [] then
    [(127, [0x00, 0x12, 0xbb, 3, 2, UInt8.ofNat (5 + e.sys.location.length), 2] ++ e.sys.country ++
      [22, UInt8.ofNat e.sys.location.length] ++ e.sys.location)] else [])).length ≤ 268 := by
    split
    · simp [lldpEnc_nlen, lldpEnc_clen]; omega
    · simp [lldpEnc_nlen]
  omega

theorem lldpLen_ge (e : PktEnv) (h : EnvOk e) : 53 ≤ (lldpEnc (lldpTlvs e)).length := by
  have hw6 : (manager e).hwaddr.length = 6 := (manager_ok h).2.2.2.2.2.1
  have hch := chassisAddr_length h
  have hn : 0 < e.nif.name.length := List.length_pos_iff.mpr h.1.2.2.1
  unfold lldpTlvs lldpAdvert
  simp only [lldpEnc_append', List.length_append, lldpEnc_clen, lldpEnc_nlen, List.length_cons, List.length_nil, be16_length,
    mgmtTlv, be32_length]
  have q2 : (lldpCapPair e.sys).length = 4 := by unfold lldpCapPair; split <;> simp
  omega

end Ladvd
