import Verif.Spec.Conform
import Verif.Lemmas.Round
import Verif.Props.Decode
/-!
# Conformance of the LLDP TLVs
-/

namespace Ladvd

open Spec

theorem word_be16 {n : Nat} (h : n < 65536) : ∃ a b, be16 n = [a, b] ∧ word a b = n := by
  refine ⟨_, _, rfl, ?_⟩
  unfold word
  rw [UInt8.toNat_ofNat', UInt8.toNat_ofNat']
  omega

theorem be32_shape (n : Nat) : ∃ a b c d, be32 n = [a, b, c, d] := ⟨_, _, _, _, rfl⟩

theorem capWord_lt (c : Nat) : lldpCapWord c < 65536 := by unfold lldpCapWord; split <;> split <;> split <;> omega

theorem capWord_bits (c i : Nat) : (lldpCapWord c).testBit i = true ↔
    (i = 2 ∧ (c.testBit 1 = true ∨ c.testBit 4 = true)) ∨ (i = 4 ∧ c.testBit 3 = true) ∨ (i = 3 ∧ c.testBit 5 = true) := by
  unfold lldpCapWord
  generalize c.testBit 1 = x1
  generalize c.testBit 3 = x3
  generalize c.testBit 4 = x4
  generalize c.testBit 5 = x5
  by_cases hi : i < 5
  · revert x1 x3 x4 x5
    match i, hi with
    | 0, _ => decide
    | 1, _ => decide
    | 2, _ => decide
    | 3, _ => decide
    | 4, _ => decide
  · have h2 : 2 ^ 5 ≤ 2 ^ i := Nat.pow_le_pow_right (by omega) (by omega)
    rw [Nat.testBit_lt_two_pow (by split <;> split <;> split <;> omega)]
    constructor
    · intro h; cases h
    · rintro (h | h | h) <;> omega

theorem conforms_caps {s : SysInfo} (h : CapsOk s) : TlvConforms (7, lldpCapPair s) := by
  unfold lldpCapPair
  split
  · exact ⟨by decide, 0, 128, 0, 128, rfl, fun i h => h⟩
  · obtain ⟨a, b, h1, h2⟩ := word_be16 (capWord_lt s.cap)
    obtain ⟨c, d, h3, h4⟩ := word_be16 (capWord_lt s.capActive)
    rw [h1, h3]
    refine ⟨by simp, a, b, c, d, rfl, ?_⟩
    rw [h2, h4]
    intro i hi
    rw [capWord_bits] at hi ⊢
    rcases hi with ⟨rfl, hi | hi⟩ | ⟨rfl, hi⟩ | ⟨rfl, hi⟩
    · exact .inl ⟨rfl, .inl (h 1 (by simp) hi)⟩
    · exact .inl ⟨rfl, .inr (h 4 (by simp) hi)⟩
    · exact .inr (.inl ⟨rfl, h 3 (by simp) hi⟩)
    · exact .inr (.inr ⟨rfl, h 5 (by simp) hi⟩)

theorem conforms_mgmt {fam : UInt8} {a : Bytes} {i : Nat} (h1 : 1 ≤ a.length) (h2 : a.length ≤ 31) (h4 : fam = 1 → a.length = 4)
    (h6 : fam = 2 → a.length = 16) (hm : fam = 6 → a.length = 6) : TlvConforms (mgmtTlv fam a i) := by
  obtain ⟨p, q, r, s, h⟩ := be32_shape i
  unfold mgmtTlv
  rw [h]
  refine ⟨by simp; omega, UInt8.ofNat (a.length + 1), fam, a, 2, p, q, r, s, 0, [], by simp, ?_, h1, h2, by decide, by decide, rfl, by simp, h4, h6, hm⟩
  rw [UInt8.toNat_ofNat']; omega

theorem conforms_org {oui : Bytes} {sub : UInt8} {info v : Bytes} (hv : v = oui ++ sub :: info) (hl : oui.length = 3) (hs : info.length < 508)
    (h : OrgConforms oui sub info) : TlvConforms (127, v) :=
  ⟨by rw [hv]; simp; omega, oui, sub, info, hv, hl, h⟩

theorem conforms_inventory {sub : UInt8} {v : Bytes} (hs : 5 ≤ sub.toNat ∧ sub.toNat ≤ 11) (hv : v.length ≤ 32) : ∀ t ∈ inventory sub v, TlvConforms t := by
  intro t ht
  unfold inventory at ht
  split at ht
  · cases ht
  · rw [List.mem_singleton] at ht
    subst ht
    refine conforms_org (oui := [0x00, 0x12, 0xbb]) (sub := sub) (info := v) rfl rfl (by omega) ?_
    unfold OrgConforms
    rw [if_neg (by decide), if_neg (by decide), if_pos rfl]
    exact .inr (.inr ⟨hs.1, hs.2, hv⟩)


/-- Every TLV between the mandatory ones and End conforms and is optional. -/
theorem advert_conforms {e : PktEnv} (h : Announceable e) : ∀ t ∈ lldpAdvert e, TlvConforms t ∧ 4 ≤ t.1 := by
  obtain ⟨⟨hn, hp, hm, hv, hs⟩, hc, hl, hvl, ha, hmed⟩ := h
  have hcar : NetifOk (carrier e) := by
    unfold carrier
    cases he : e.parent with
    | none => exact hn
    | some p => exact hp p (by rw [he]; rfl)
  have hman : NetifOk (manager e) := by
    unfold manager
    cases he : e.mnetif with
    | none => exact hcar
    | some p => exact hm p (by rw [he]; rfl)
  obtain ⟨s1, s2, s3, s4, s5, s6, s7, s8, s9, s10, i1, i2, i3, i4, i5, i6, i7⟩ := hs
  have hpd : (portDescr e).length ≤ 63 := by
    unfold portDescr
    have h1 : e.nif.description.length ≤ 63 := hn.2.2.2.1.1
    have h2 : (carrier e).description.length ≤ 63 := hcar.2.2.2.1.1
    have h3 : e.nif.deviceName.length ≤ 63 := hn.2.2.2.2.1.1
    split
    · exact h3
    · rw [List.filter_cons, List.filter_cons, List.filter_nil]
      split
      · exact h1
      · split
        · exact h2
        · exact h3
  have inv : ∀ {sub : UInt8} {v : Bytes}, 5 ≤ sub.toNat ∧ sub.toNat ≤ 11 → cText 32 v → ∀ t ∈ inventory sub v, TlvConforms t ∧ 4 ≤ t.1 := by
    intro sub v h1 h2 t ht
    refine ⟨conforms_inventory h1 h2.1 t ht, ?_⟩
    unfold inventory at ht
    split at ht
    · cases ht
    · rw [List.mem_singleton] at ht; subst ht; exact (by decide : 4 ≤ 127)
  intro t ht
  unfold lldpAdvert at ht
  simp only [List.mem_append] at ht
  rcases ht with ((((((((((((((((ht | ht) | ht) | ht) | ht) | ht) | ht) | ht) | ht) | ht) | ht) | ht) | ht) | ht) | ht) | ht) | ht) | ht
  · -- port description
    split at ht
    · cases ht
    · rw [List.mem_singleton] at ht; subst ht
      exact ⟨⟨by dsimp only; omega, by show (portDescr e).length ≤ 255; omega⟩, (by decide : 4 ≤ 4)⟩
  · -- system name, description, capabilities
    simp only [List.mem_cons, List.not_mem_nil, or_false] at ht
    rcases ht with rfl | rfl | rfl
    · exact ⟨⟨by have := s1.1; dsimp only; omega, s1.1⟩, (by decide : 4 ≤ 5)⟩
    · exact ⟨⟨by have := s2.1; dsimp only; omega, s2.1⟩, (by decide : 4 ≤ 6)⟩
    · exact ⟨conforms_caps hc, (by decide : 4 ≤ 7)⟩
  · split at ht
    · rw [List.mem_singleton] at ht; subst ht
      have := hman.2.2.2.2.2.2.1
      exact ⟨conforms_mgmt (by omega) (by omega) (fun _ => this) (fun h => absurd h (by decide)) (fun h => absurd h (by decide)), (by decide : 4 ≤ 8)⟩
    · cases ht
  · split at ht
    · rw [List.mem_singleton] at ht; subst ht
      have := hman.2.2.2.2.2.2.2.1
      exact ⟨conforms_mgmt (by omega) (by omega) (fun h => absurd h (by decide)) (fun _ => this) (fun h => absurd h (by decide)), (by decide : 4 ≤ 8)⟩
    · cases ht
  · rw [List.mem_singleton] at ht; subst ht
    have := hman.2.2.2.2.2.1
    exact ⟨conforms_mgmt (by omega) (by omega) (fun h => absurd h (by decide)) (fun h => absurd h (by decide)) (fun _ => this), (by decide : 4 ≤ 8)⟩
  · -- VLAN names
    obtain ⟨v, hvm, rfl⟩ := List.mem_map.mp ht
    refine ⟨?_, (by decide : 4 ≤ 127)⟩
    have hve : v ∈ e.netifs := by unfold vlansOf at hvm; exact (List.mem_filter.mp hvm).1
    have hname : v.name.length ≤ 15 := (hv v hve).2.1.1
    obtain ⟨a, b, hw1, hw2⟩ := word_be16 (n := v.vlanId) (by have := hvl v hvm; omega)
    rw [hw1]
    refine conforms_org (oui := [0x00, 0x80, 0xc2]) (sub := 3) (info := [a, b, UInt8.ofNat v.name.length] ++ v.name) rfl rfl (by simp; omega) ?_
    unfold OrgConforms
    rw [if_pos rfl]
    refine ⟨rfl, a, b, _, v.name, rfl, by rw [hw2]; exact hvl v hvm, ?_, by omega⟩
    rw [UInt8.toNat_ofNat']; omega
  · -- MAC/PHY
    split at ht
    · cases ht
    · rename_i hne
      rw [List.mem_singleton] at ht; subst ht
      refine ⟨?_, (by decide : 4 ≤ 127)⟩
      refine conforms_org (oui := [0x00, 0x12, 0x0f]) (sub := 1) (info := [UInt8.ofInt (e.nif.autonegSupported + 2 * e.nif.autonegEnabled)] ++
        be16 e.nif.autonegPmd ++ be16 e.nif.mau) rfl rfl (by simp [be16]) ?_
      unfold OrgConforms
      rw [if_neg (by decide), if_pos rfl]
      refine .inl ⟨rfl, _, _, _, _, _, rfl, ?_⟩
      rcases ha with ha | ⟨ha, hb | hb⟩ | ⟨ha, hb⟩
      · exact absurd ha hne
      all_goals rw [ha, hb]; decide
  · -- link aggregation
    split at ht
    · rw [List.mem_singleton] at ht; subst ht
      refine ⟨?_, (by decide : 4 ≤ 127)⟩
      refine conforms_org (oui := [0x00, 0x12, 0x0f]) (sub := 3) (info := [3] ++ be32 e.nif.lacpIndex) rfl rfl (by simp [be32]) ?_
      unfold OrgConforms
      rw [if_neg (by decide), if_pos rfl]
      exact .inr (.inl ⟨rfl, 3, _, _, _, _, rfl, by decide, by decide⟩)
    · cases ht
  · -- maximum frame size
    split at ht
    · cases ht
    · rw [List.mem_singleton] at ht; subst ht
      refine ⟨?_, (by decide : 4 ≤ 127)⟩
      refine conforms_org (oui := [0x00, 0x12, 0x0f]) (sub := 4) (info := be16 (e.nif.mtu + 22)) rfl rfl (by simp [be16]) ?_
      unfold OrgConforms
      rw [if_neg (by decide), if_pos rfl]
      exact .inr (.inr ⟨rfl, rfl⟩)
  · -- LLDP-MED capabilities
    rw [List.mem_singleton] at ht; subst ht
    refine ⟨?_, (by decide : 4 ≤ 127)⟩
    obtain ⟨a, b, hw1, hw2⟩ := word_be16 s10
    rw [hw1]
    refine conforms_org (oui := [0x00, 0x12, 0xbb]) (sub := 1) (info := [a, b, UInt8.ofInt e.sys.lldpmedDevtype]) rfl rfl (by simp) ?_
    unfold OrgConforms
    rw [if_neg (by decide), if_neg (by decide), if_pos rfl]
    refine .inl ⟨rfl, a, b, _, rfl, by rw [hw2]; exact hmed.1, ?_⟩
    obtain ⟨n, hn'⟩ := Int.eq_ofNat_of_zero_le hmed.2.1
    have := hmed.2.2
    rw [hn'] at this ⊢
    match n, this with
    | 0, _ => decide
    | 1, _ => decide
    | 2, _ => decide
    | 3, _ => decide
    | 4, _ => decide
    | k + 5, h => omega
  · -- location
    split at ht
    · rename_i hcl
      replace hl := hl hcl.1
      rw [List.mem_singleton] at ht; subst ht
      refine ⟨?_, (by decide : 4 ≤ 127)⟩
      refine conforms_org (oui := [0x00, 0x12, 0xbb]) (sub := 3) (info := [2, UInt8.ofNat (5 + e.sys.location.length), 2] ++ e.sys.country ++
        [22, UInt8.ofNat e.sys.location.length] ++ e.sys.location) (by simp) rfl (by simp; omega) ?_
      unfold OrgConforms
      rw [if_neg (by decide), if_neg (by decide), if_pos rfl]
      refine .inr (.inl ⟨rfl, UInt8.ofNat (5 + e.sys.location.length), 2, e.sys.country, [(22, e.sys.location)], by simp, ?_, by decide, hcl.1, ?_⟩)
      · rw [UInt8.toNat_ofNat']; simp; omega
      · intro x hx; rw [List.mem_singleton] at hx; subst hx; dsimp only; omega
    · cases ht
  · exact inv (by decide) i1 t ht
  · exact inv (by decide) i2 t ht
  · exact inv (by decide) i3 t ht
  · exact inv (by decide) i4 t ht
  · exact inv (by decide) i5 t ht
  · exact inv (by decide) i6 t ht
  · exact inv (by decide) i7 t ht


/-! ## Which TLVs there are -/

/-- The management addresses of `lldpAdvert`. -/
def mgmts (e : PktEnv) : List Tlv :=
  (if configured (manager e).ipaddr4 then [mgmtTlv 1 (manager e).ipaddr4 (manager e).index] else []) ++
  (if configured (manager e).ipaddr6 then [mgmtTlv 2 (manager e).ipaddr6 (manager e).index] else []) ++
  [mgmtTlv 6 (manager e).hwaddr (manager e).index]

/-- The VLAN names of `lldpAdvert`. -/
def vlanTlvs (e : PktEnv) : List Tlv :=
  (vlansOf e).map (fun v => (127, [0x00, 0x80, 0xc2, 3] ++ be16 v.vlanId ++ [UInt8.ofNat v.name.length] ++ v.name))

/-- The 802.3 TLVs of `lldpAdvert`. -/
def dot3Tlvs (e : PktEnv) : List Tlv :=
  (if e.nif.autonegSupported = -1 then [] else
    [(127, [0x00, 0x12, 0x0f, 1, UInt8.ofInt (e.nif.autonegSupported + 2 * e.nif.autonegEnabled)] ++
      be16 e.nif.autonegPmd ++ be16 e.nif.mau)]) ++
  (if (carrier e).bondingMode = 1 then [(127, [0x00, 0x12, 0x0f, 3, 3] ++ be32 e.nif.lacpIndex)] else []) ++
  (if e.nif.mtu = 0 then [] else [(127, [0x00, 0x12, 0x0f, 4] ++ be16 (e.nif.mtu + 22))])

/-- The LLDP-MED TLVs of `lldpAdvert` but the first. -/
def medRest (e : PktEnv) : List Tlv :=
  (if e.sys.country.length = 2 ∧ e.sys.location ≠ [] then
    [(127, [0x00, 0x12, 0xbb, 3, 2, UInt8.ofNat (5 + e.sys.location.length), 2] ++ e.sys.country ++
      [22, UInt8.ofNat e.sys.location.length] ++ e.sys.location)] else []) ++
  inventory 5 e.sys.hinv.hwRevision ++ inventory 6 e.sys.hinv.fwRevision ++
  inventory 7 e.sys.hinv.swRevision ++ inventory 8 e.sys.hinv.serialNumber ++
  inventory 9 e.sys.hinv.manufacturer ++ inventory 10 e.sys.hinv.modelName ++
  inventory 11 e.sys.hinv.assetId

/-- All organisationally specific TLVs of an advertisement. -/
def orgTlvs (e : PktEnv) : List Tlv :=
  vlanTlvs e ++ dot3Tlvs e ++ (127, [0x00, 0x12, 0xbb, 1] ++ be16 e.sys.capLldpmed ++ [UInt8.ofInt e.sys.lldpmedDevtype]) :: medRest e

theorem lldpAdvert_parts (e : PktEnv) : lldpAdvert e =
    (if portDescr e = [] then [] else [(4, portDescr e)]) ++ [(5, e.sys.hostname), (6, e.sys.utsStr), (7, lldpCapPair e.sys)] ++ mgmts e ++ orgTlvs e := by
  unfold lldpAdvert orgTlvs mgmts vlanTlvs dot3Tlvs medRest
  simp only [List.append_assoc, List.cons_append, List.nil_append]

theorem inventory_127 (s : UInt8) (v : Bytes) : ∀ t ∈ inventory s v, t.1 = 127 ∧ t.2.take 4 = [0x00, 0x12, 0xbb, s] := by
  intro t ht
  unfold inventory at ht
  split at ht
  · cases ht
  · rw [List.mem_singleton] at ht; subst ht; exact ⟨rfl, rfl⟩

theorem vlanTlvs_127 (e : PktEnv) : ∀ t ∈ vlanTlvs e, t.1 = 127 ∧ t.2.take 4 = [0x00, 0x80, 0xc2, 3] := by
  intro t ht
  obtain ⟨v, -, rfl⟩ := List.mem_map.mp ht
  exact ⟨rfl, rfl⟩

theorem dot3Tlvs_127 (e : PktEnv) : ∀ t ∈ dot3Tlvs e, t.1 = 127 ∧ t.2.take 3 = [0x00, 0x12, 0x0f] := by
  intro t ht
  unfold dot3Tlvs at ht
  simp only [List.mem_append] at ht
  rcases ht with (ht | ht) | ht <;> split at ht <;> first | (rw [List.mem_singleton] at ht; subst ht; exact ⟨rfl, rfl⟩) | cases ht

theorem medRest_127 (e : PktEnv) : ∀ t ∈ medRest e, t.1 = 127 := by
  intro t ht
  unfold medRest at ht
  simp only [List.mem_append] at ht
  rcases ht with ((((((ht | ht) | ht) | ht) | ht) | ht) | ht) | ht
  · split at ht
    · rw [List.mem_singleton] at ht; subst ht; rfl
    · cases ht
  all_goals exact (inventory_127 _ _ t ht).1

theorem mgmts_8 (e : PktEnv) : ∀ t ∈ mgmts e, t.1 = 8 := by
  intro t ht
  unfold mgmts at ht
  simp only [List.mem_append] at ht
  rcases ht with (ht | ht) | ht
  · split at ht
    · rw [List.mem_singleton] at ht; subst ht; rfl
    · cases ht
  · split at ht
    · rw [List.mem_singleton] at ht; subst ht; rfl
    · cases ht
  · rw [List.mem_singleton] at ht; subst ht; rfl

theorem mgmts_nodup (e : PktEnv) : (mgmts e).Nodup := by
  unfold mgmts
  split <;> split <;> simp [mgmtTlv]

theorem orgTlvs_127 (e : PktEnv) : ∀ t ∈ orgTlvs e, t.1 = 127 := by
  intro t ht
  unfold orgTlvs at ht
  simp only [List.mem_append, List.mem_cons] at ht
  rcases ht with (ht | ht) | rfl | ht
  · exact (vlanTlvs_127 e t ht).1
  · exact (dot3Tlvs_127 e t ht).1
  · rfl
  · exact medRest_127 e t ht

theorem filter_none {l : List Tlv} {p : Tlv → Bool} (h : ∀ t ∈ l, p t = false) : l.filter p = [] :=
  List.filter_eq_nil_iff.mpr fun t ht => by rw [h t ht]; exact Bool.false_ne_true

theorem onceOnly_append (a b : List Tlv) : onceOnly (a ++ b) = onceOnly a ++ onceOnly b := by
  unfold onceOnly; rw [List.filter_append, List.map_append]

theorem medTlvs_append (a b : List Tlv) : medTlvs (a ++ b) = medTlvs a ++ medTlvs b := by
  unfold medTlvs; rw [List.filter_append, List.map_append]

theorem onceOnly_none {l : List Tlv} (h : ∀ t ∈ l, t.1 ≠ 127 ∨ t.2.take 4 = [0x00, 0x80, 0xc2, 3]) : onceOnly l = [] := by
  unfold onceOnly
  rw [filter_none fun t ht => ?_]
  · rfl
  · rcases h t ht with h | h <;> simp [h]

theorem medTlvs_none {l : List Tlv} (h : ∀ t ∈ l, t.1 ≠ 127 ∨ t.2.take 3 ≠ [0x00, 0x12, 0xbb]) : medTlvs l = [] := by
  unfold medTlvs
  rw [filter_none fun t ht => ?_]
  · rfl
  · rcases h t ht with h | h <;> simp [h]

/-- At most one TLV, of the given kind. -/
theorem onceOnly_opt {l : List Tlv} {k : Bytes} (h : l = [] ∨ ∃ v, l = [(127, v)] ∧ v.take 4 = k) : (onceOnly l).Sublist [k] := by
  rcases h with rfl | ⟨v, rfl, rfl⟩
  · exact List.nil_sublist _
  · unfold onceOnly
    rw [List.filter_cons, List.filter_nil]
    split
    · exact List.Sublist.refl _
    · exact List.nil_sublist _

theorem onceOnly_inventory (s : UInt8) (v : Bytes) : (onceOnly (inventory s v)).Sublist [[0x00, 0x12, 0xbb, s]] := by
  apply onceOnly_opt
  unfold inventory
  split
  · exact .inl rfl
  · exact .inr ⟨_, rfl, rfl⟩

theorem onceOnly_orgTlvs (e : PktEnv) : (onceOnly (orgTlvs e)).Sublist
    ([[0x00, 0x12, 0x0f, 1]] ++ [[0x00, 0x12, 0x0f, 3]] ++ [[0x00, 0x12, 0x0f, 4]] ++ ([[0x00, 0x12, 0xbb, 1]] ++
      ([[0x00, 0x12, 0xbb, 3]] ++ [[0x00, 0x12, 0xbb, 5]] ++ [[0x00, 0x12, 0xbb, 6]] ++ [[0x00, 0x12, 0xbb, 7]] ++ [[0x00, 0x12, 0xbb, 8]] ++
        [[0x00, 0x12, 0xbb, 9]] ++ [[0x00, 0x12, 0xbb, 10]] ++ [[0x00, 0x12, 0xbb, 11]]))) := by
  unfold orgTlvs
  rw [onceOnly_append, onceOnly_append, onceOnly_none fun t ht => .inr (vlanTlvs_127 e t ht).2, List.nil_append]
  refine List.Sublist.append ?_ ?_
  · unfold dot3Tlvs
    rw [onceOnly_append, onceOnly_append]
    refine List.Sublist.append (List.Sublist.append ?_ ?_) ?_
    all_goals
      apply onceOnly_opt
      split
      all_goals first | exact .inl rfl | exact .inr ⟨_, rfl, rfl⟩
  · rw [← List.singleton_append, onceOnly_append]
    refine List.Sublist.append (onceOnly_opt (.inr ⟨_, rfl, rfl⟩)) ?_
    unfold medRest
    simp only [onceOnly_append]
    refine List.Sublist.append (List.Sublist.append (List.Sublist.append (List.Sublist.append (List.Sublist.append (List.Sublist.append
      (List.Sublist.append ?_ (onceOnly_inventory ..)) (onceOnly_inventory ..)) (onceOnly_inventory ..)) (onceOnly_inventory ..))
      (onceOnly_inventory ..)) (onceOnly_inventory ..)) (onceOnly_inventory ..)
    apply onceOnly_opt
    split
    · exact .inr ⟨_, rfl, rfl⟩
    · exact .inl rfl

/-- The TLVs below the organisationally specific ones. -/
theorem lldpTlvs_parts (e : PktEnv) : ∃ base last, lldpTlvs e = base ++ orgTlvs e ++ last ∧ (∀ t ∈ base, t.1 ≤ 8) ∧ (∀ t ∈ last, t.1 = 0) :=
  ⟨[(1, 4 :: chassisAddr e), (2, 5 :: e.nif.name), (3, [0, 180])] ++ ((if portDescr e = [] then [] else [(4, portDescr e)]) ++
      [(5, e.sys.hostname), (6, e.sys.utsStr), (7, lldpCapPair e.sys)] ++ mgmts e), [(0, [])], by
    unfold lldpTlvs
    rw [lldpAdvert_parts]
    simp only [List.append_assoc, List.cons_append, List.nil_append], by
    intro t ht
    simp only [List.mem_append, List.mem_cons, List.not_mem_nil, or_false] at ht
    rcases ht with (rfl | rfl | rfl) | (ht | rfl | rfl | rfl) | ht
    · show 1 ≤ 8; omega
    · show 2 ≤ 8; omega
    · show 3 ≤ 8; omega
    · split at ht
      · cases ht
      · rw [List.mem_singleton] at ht; subst ht; show 4 ≤ 8; omega
    · show 5 ≤ 8; omega
    · show 6 ≤ 8; omega
    · show 7 ≤ 8; omega
    · rw [mgmts_8 e t ht]; omega, by
    intro t ht
    rw [List.mem_singleton] at ht; subst ht; rfl⟩

theorem lldpTlvs_conforms {e : PktEnv} (h : Announceable e) : Conformant (lldpTlvs e) := by
  obtain ⟨base, last, hparts, hbase, hlast⟩ := lldpTlvs_parts e
  have hmore := advert_conforms h
  have hb127 : ∀ t ∈ base, t.1 ≠ 127 := fun t ht => by have := hbase t ht; omega
  have hl127 : ∀ t ∈ last, t.1 ≠ 127 := fun t ht => by have := hlast t ht; omega
  have hch : (chassisAddr e).length = 6 := by
    unfold chassisAddr
    split
    · exact h.sizes.1.2.2.2.2.2.1
    · exact h.sizes.2.2.2.2.2.2.2.2.2.2.1
  have hname : 1 ≤ e.nif.name.length ∧ e.nif.name.length ≤ 15 :=
    ⟨List.length_pos_iff.mpr h.sizes.1.2.2.1, h.sizes.1.2.1.1⟩
  refine ⟨⟨_, _, _, lldpAdvert e, rfl, fun t ht => (hmore t ht).2⟩, ?_, ?_, ?_, ?_, ?_⟩
  · intro t ht
    unfold lldpTlvs at ht
    simp only [List.mem_append, List.mem_cons, List.not_mem_nil, or_false] at ht
    rcases ht with ((rfl | rfl | rfl) | ht) | rfl
    · refine ⟨by simp [hch], 4, chassisAddr e, rfl, by decide, by decide, by omega, by omega, fun _ => hch⟩
    · refine ⟨by simp; omega, 5, e.nif.name, rfl, by decide, by decide, by omega, by omega, fun h => absurd h (by decide)⟩
    · exact ⟨by decide, rfl⟩
    · exact (hmore t ht).1
    · exact ⟨by decide, rfl⟩
  · intro n h1 h2
    unfold lldpTlvs
    rw [lldpAdvert_parts]
    simp only [List.filter_append]
    rw [filter_none (l := mgmts e) fun t ht => by rw [mgmts_8 e t ht]; exact decide_eq_false (by omega),
      filter_none (l := orgTlvs e) fun t ht => by rw [orgTlvs_127 e t ht]; exact decide_eq_false (by omega)]
    match n, h1, h2 with
    | 4, _, _ => split <;> simp
    | 5, _, _ => split <;> simp
    | 6, _, _ => split <;> simp
    | 7, _, _ => split <;> simp
  · unfold lldpTlvs
    rw [lldpAdvert_parts]
    simp only [List.filter_append]
    rw [filter_none (l := orgTlvs e) fun t ht => by rw [orgTlvs_127 e t ht]; rfl,
      List.filter_eq_self (l := mgmts e) |>.mpr fun t ht => by rw [mgmts_8 e t ht]; rfl]
    have := mgmts_nodup e
    split <;> simpa using this
  · rw [hparts, onceOnly_append, onceOnly_append, onceOnly_none fun t ht => .inl (hb127 t ht), onceOnly_none fun t ht => .inl (hl127 t ht),
      List.nil_append, List.append_nil]
    exact List.Nodup.sublist (onceOnly_orgTlvs e) (by decide)
  · intro v r hv
    rw [hparts, medTlvs_append, medTlvs_append, medTlvs_none fun t ht => .inl (hb127 t ht), medTlvs_none fun t ht => .inl (hl127 t ht),
      List.nil_append, List.append_nil] at hv
    unfold orgTlvs at hv
    rw [medTlvs_append, medTlvs_append, medTlvs_none fun t ht => .inr ?_, medTlvs_none fun t ht => .inr ?_, List.nil_append, List.nil_append] at hv
    · unfold medTlvs at hv
      rw [List.filter_cons, if_pos (by simp), List.map_cons] at hv
      rw [← (List.cons.inj hv).1]
      rfl
    · rw [(dot3Tlvs_127 e t ht).2]; decide
    · have := congrArg (List.take 3) (vlanTlvs_127 e t ht).2
      rw [List.take_take] at this
      rw [show t.2.take 3 = _ from this]; decide

theorem lldpAdvert_types (e : PktEnv) : ∀ t ∈ lldpAdvert e, 4 ≤ t.1 := by
  intro t ht
  rw [lldpAdvert_parts] at ht
  simp only [List.mem_append, List.mem_cons, List.not_mem_nil, or_false] at ht
  rcases ht with ((ht | rfl | rfl | rfl) | ht) | ht
  · split at ht
    · cases ht
    · rw [List.mem_singleton] at ht; subst ht; exact Nat.le_refl 4
  · show 4 ≤ 5; omega
  · show 4 ≤ 6; omega
  · show 4 ≤ 7; omega
  · rw [mgmts_8 e t ht]; omega
  · rw [orgTlvs_127 e t ht]; omega

theorem conforms_type {t : Tlv} (h : TlvConforms t) : t.1 < 128 := by
  obtain ⟨a, b⟩ := t
  obtain ⟨-, h⟩ := h
  dsimp only at h ⊢
  split at h
  all_goals first | omega | exact absurd h id

/-- A conformant data unit with the same encoding consists of the same TLVs. -/
theorem conformant_unique {e : PktEnv} (h : EnvOk e) {ts : List Tlv} (hc : Conformant ts) (he : lldpEnc (lldpTlvs e) = lldpEnc ts) :
    ts = lldpTlvs e := by
  obtain ⟨a, b, c, r, hts, hr⟩ := hc.order
  have hwf : ∀ t ∈ ts, t.1 < 128 ∧ t.2.length < 512 := fun t ht => ⟨conforms_type (hc.each t ht), (hc.each t ht).1⟩
  have hch : (chassisAddr e).length = 6 := by
    unfold chassisAddr
    split
    · exact h.1.2.2.2.2.2.1
    · exact h.2.2.2.2.2.2.2.2.2.2.1
  have hname : e.nif.name.length ≤ 15 := h.1.2.1.1
  have := Props.lldpEnc_end_inj ([(1, 4 :: chassisAddr e), (2, 5 :: e.nif.name), (3, [0, 180])] ++ lldpAdvert e)
    (ts' := [(1, a), (2, b), (3, c)] ++ r) (r := []) (r' := []) ?_ ?_ ?_ ?_ ?_
  · rw [hts, ← this.1]; rfl
  · intro t ht
    simp only [List.mem_append, List.mem_cons, List.not_mem_nil, or_false] at ht
    rcases ht with (rfl | rfl | rfl) | ht
    · simp [hch]
    · simp; omega
    · simp
    · exact lldpAdvert_wf e h t ht
  · intro t ht
    exact hwf t (by rw [hts]; exact List.mem_append_left _ ht)
  · intro t ht
    simp only [List.mem_append, List.mem_cons, List.not_mem_nil, or_false] at ht
    rcases ht with (rfl | rfl | rfl) | ht
    · exact (by decide : (1 : Nat) ≠ 0)
    · exact (by decide : (2 : Nat) ≠ 0)
    · exact (by decide : (3 : Nat) ≠ 0)
    · have := lldpAdvert_types e t ht; omega
  · intro t ht
    simp only [List.mem_append, List.mem_cons, List.not_mem_nil, or_false] at ht
    rcases ht with (rfl | rfl | rfl) | ht
    · exact (by decide : (1 : Nat) ≠ 0)
    · exact (by decide : (2 : Nat) ≠ 0)
    · exact (by decide : (3 : Nat) ≠ 0)
    · have := hr t ht; omega
  · rw [List.append_nil, List.append_nil, ← hts]; exact he

/-- The organisationally specific part of a TLV is determined by its value. -/
theorem conforms_org_inv {oui : Bytes} {sub : UInt8} {info : Bytes} (hl : oui.length = 3) (h : TlvConforms (127, oui ++ sub :: info)) :
    OrgConforms oui sub info := by
  obtain ⟨-, o, s, i, e, hl', hc⟩ := h
  obtain ⟨rfl, e2⟩ := List.append_inj e (by rw [hl, hl'])
  obtain ⟨rfl, rfl⟩ := List.cons.inj e2
  exact hc

end Ladvd
