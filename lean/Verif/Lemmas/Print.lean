import Verif.Lemmas.Decode
import Verif.Spec.Print
/-!
# The printed report against its specification
-/

namespace Ladvd

open Spec

/-! ## Sequencing -/

namespace Pr

variable {α β : Type}

@[simp] theorem pure_eq (a : α) : (pure a : Pr α) = quiet (.ok a) := rfl
@[simp] theorem bind_eq (x : Pr α) (f : α → Pr β) : (x >>= f) = x.bind f := rfl
@[simp] theorem bind_quiet_ok (a : α) (f : α → Pr β) : (quiet (.ok a)).bind f = f a := rfl
@[simp] theorem bind_quiet_fail (f : α → Pr β) : (quiet (.fail : Res α)).bind f = quiet .fail := rfl
@[simp] theorem bind_quiet_oob (f : α → Pr β) : (quiet (.oob : Res α)).bind f = quiet .oob := rfl
@[simp] theorem bind_quiet_abort (f : α → Pr β) : (quiet (.abort : Res α)).bind f = quiet .abort := rfl
@[simp] theorem bind_quiet_stuck (f : α → Pr β) : (quiet (.stuck : Res α)).bind f = quiet .stuck := rfl
@[simp] theorem bind_put (t : Bytes) (f : Unit → Pr β) : (printf t).bind f = ⟨t ++ (f ()).text, (f ()).res⟩ := rfl
@[simp] theorem bind_mk_ok (t : Bytes) (a : α) (f : α → Pr β) : (Pr.mk t (.ok a)).bind f = ⟨t ++ (f a).text, (f a).res⟩ := rfl
@[simp] theorem bind_mk_fail (t : Bytes) (f : α → Pr β) : (Pr.mk t (.fail : Res α)).bind f = ⟨t, .fail⟩ := rfl
@[simp] theorem quiet_text (r : Res α) : (quiet r).text = [] := rfl
@[simp] theorem quiet_res (r : Res α) : (quiet r).res = r := rfl

end Pr

/-- Print the text; error exit for `none`. -/
def prOf {α : Type} (a : α) : Option Bytes → Pr α
  | none => quiet .fail
  | some x => ⟨x, .ok a⟩

/-- Print the text; error exit unless the flag is set. -/
def prIf {α : Type} (a : α) (x : Bytes × Bool) : Pr α := ⟨x.1, if x.2 then .ok a else .fail⟩

/-! ## Texts -/

theorem hexDigit_eq : ∀ k : Fin 16, hexDigit k.1 = (if UInt8.ofNat k.1 < 10 then 0x30 + UInt8.ofNat k.1 else 0x57 + UInt8.ofNat k.1) := by
  decide +kernel

theorem hexByte_eq (b : UInt8) : [hexDigit (b.toNat / 16), hexDigit (b.toNat % 16)] = hexByte b := by
  have hb := b.toNat_lt
  have h1 := hexDigit_eq ⟨b.toNat / 16, by omega⟩
  have h2 := hexDigit_eq ⟨b.toNat % 16, by omega⟩
  have e1 : UInt8.ofNat (b.toNat / 16) = b / 16 := by
    apply UInt8.toNat_inj.mp; rw [UInt8.toNat_ofNat', UInt8.toNat_div]
    have : (16 : UInt8).toNat = 16 := rfl
    rw [this]; omega
  have e2 : UInt8.ofNat (b.toNat % 16) = b % 16 := by
    apply UInt8.toNat_inj.mp; rw [UInt8.toNat_ofNat', UInt8.toNat_mod]
    have : (16 : UInt8).toNat = 16 := rfl
    rw [this]; omega
  simp only at h1 h2
  rw [e1] at h1; rw [e2] at h2
  simp only [hexByte, h1, h2]

theorem macText_eq (a : Bytes) : macText a = etherText a := by
  unfold etherText
  match a with
  | [] => rfl
  | [b] => simp only [macText, List.map, sepBy, hexByte_eq]
  | b :: c :: r =>
    have ih := macText_eq (c :: r)
    unfold etherText at ih
    have hb := hexByte_eq b
    simp only [List.map, sepBy] at ih ⊢
    rw [macText, ih, ← hb]
    · rfl
    · intro h; cases h

theorem inet4Text_eq (a : Bytes) : inet4Text a = dottedText a := by
  unfold dottedText
  match a with
  | [] => rfl
  | [b] =>
    have := b.toNat_lt
    simp only [inet4Text, List.map, sepBy, decimal16_eq (show b.toNat < 65536 by omega)]
  | b :: c :: r =>
    have ih := inet4Text_eq (c :: r)
    unfold dottedText at ih
    have := b.toNat_lt
    simp only [List.map, sepBy] at ih ⊢
    rw [inet4Text, ih, decimal16_eq (show b.toNat < 65536 by omega)]
    · simp
    · intro h; cases h

theorem holdText_eq (env : PrintEnv) (ttl : Nat) : holdText env ttl = decimal (secondsLeft env ttl) := by
  unfold holdText secondsLeft
  exact decimal16_eq (by omega)

theorem indented_eq (t cur : Bytes) :
    indented cur t =
      match splitAtByte 0x0a t with
      | [] => []
      | f :: fs => ((cur ++ f) :: fs).flatMap (fun l => [0x20, 0x20] ++ l ++ [0x0a]) := by
  induction t generalizing cur with
  | nil => simp [indented, splitAtByte, lit]
  | cons b r ih =>
    unfold indented splitAtByte
    have hne : splitAtByte 0x0a r ≠ [] := by
      cases r with
      | nil => simp [splitAtByte]
      | cons x y =>
        unfold splitAtByte
        split
        · simp
        · split <;> simp
    by_cases hb : b = 0x0a
    · rw [if_pos hb, if_pos hb, ih]
      cases hs : splitAtByte 0x0a r with
      | nil => exact absurd hs hne
      | cons f fs =>
        simp [lit]
    · rw [if_neg hb, if_neg hb, ih]
      cases hs : splitAtByte 0x0a r with
      | nil => exact absurd hs hne
      | cons f fs => simp

theorem descrLines_eq (label str : Bytes) : descrLines label str = paragraph label str := by
  have e1 : lit ":\n" = [0x3a, 0x0a] := by decide
  have e2 : lit ": " = [0x3a, 0x20] := by decide
  have e3 : lit "\n" = [0x0a] := by decide
  unfold descrLines paragraph labelled
  rw [e1, e2, e3]
  by_cases h : (0x0a : UInt8) ∈ str
  · rw [if_pos (by simpa using h), if_pos h, indented_eq]
    congr 1
    cases splitAtByte 0x0a str <;> simp
  · rw [if_neg (by simpa using h), if_neg h]

theorem lab {s l : Bytes} (h : s = l ++ [0x3a, 0x20]) (v : Bytes) : s ++ v ++ lit "\n" = labelled l v := by
  have e3 : lit "\n" = [0x0a] := by decide
  rw [h, e3]; rfl

/-- The text of an address in the window. -/
theorem View.addrText {m : Bytes} {c : Cur} {v : Bytes} (h : View m c v) (env : PrintEnv) (af al : Nat) (hal : al ≤ v.length) :
    tlvAddrText env af m c.pos al = .ok
      (if af = 4 ∧ al = 4 then some (dottedText (v.take al))
       else if af = 5 ∧ al = 16 then some (env.ntop6 (v.take al))
       else if af = 6 ∧ al = 6 then some (etherText (v.take al))
       else none) := by
  unfold tlvAddrText PEER_ADDR_INET4 PEER_ADDR_INET6 PEER_ADDR_802
  by_cases h4 : af = 4
  · subst h4
    by_cases ha : al = 4
    · subst ha; simp [h.rd hal, inet4Text_eq]
    · simp [ha]
  by_cases h5 : af = 5
  · subst h5
    by_cases ha : al = 16
    · subst ha; simp [h.rd hal]
    · simp [ha]
  by_cases h6 : af = 6
  · subst h6
    by_cases ha : al = 6
    · subst ha; simp [h.rd hal, macText_eq]
    · simp [ha]
  simp [h4, h5, h6]

/-! ## LLDP -/

theorem u8_1 (a : UInt8) : a.toNat = 1 ↔ a = 1 := u8_eq_lit a 1 (by decide)
theorem u8_2 (a : UInt8) : a.toNat = 2 ↔ a = 2 := u8_eq_lit a 2 (by decide)
theorem u8_3 (a : UInt8) : a.toNat = 3 ↔ a = 3 := u8_eq_lit a 3 (by decide)
theorem u8_4 (a : UInt8) : a.toNat = 4 ↔ a = 4 := u8_eq_lit a 4 (by decide)
theorem u8_5 (a : UInt8) : a.toNat = 5 ↔ a = 5 := u8_eq_lit a 5 (by decide)
theorem u8_6 (a : UInt8) : a.toNat = 6 ↔ a = 6 := u8_eq_lit a 6 (by decide)
theorem u8_7 (a : UInt8) : a.toNat = 7 ↔ a = 7 := u8_eq_lit a 7 (by decide)

theorem lldpChassisIdP_view {m : Bytes} {c : Cur} {v : Bytes} (h : View m c v) (env : PrintEnv) :
    lldpChassisIdP env m c = prOf () (chassisLine env v) := by
  have hlen := h.len
  have lb := lab (show lit "Chassis id: " = lit "Chassis id" ++ [0x3a, 0x20] by decide)
  unfold lldpChassisIdP
  match v, h, hlen with
  | [], h, hlen => rw [if_pos (by simp at hlen; omega)]; rfl
  | [a], h, hlen => rw [if_pos (by simp at hlen; omega)]; rfl
  | sub :: x :: r, h, hlen =>
    simp only [List.length_cons] at hlen
    simp only [chassisLine, List.length_cons]
    by_cases hl : r.length + 1 > 255
    · rw [if_pos (by omega), if_pos hl]; rfl
    · rw [if_neg (by omega), if_neg hl, h.grab 1, if_pos (by simp)]
      have h1 := h.skip (n := 1) (by simp)
      simp only [List.drop_succ_cons, List.drop_zero] at h1
      simp only [Pr.bind_eq, Pr.bind_quiet_ok, List.take_succ_cons, List.take_zero, beNat_1,
        u8_1, u8_2,
        u8_3, u8_4,
        u8_5, u8_6,
        u8_7]
      have hl1 := h1.len
      simp only [List.length_cons] at hl1
      by_cases c1 : sub ∈ [1, 2, 3, 6, 7]
      · have c1' : sub = 1 ∨ sub = 2 ∨ sub = 3 ∨ sub = 6 ∨ sub = 7 := by simpa using c1
        rw [if_pos c1, if_pos c1']
        have := h1.strCopy
        simp only at this
        rw [this]
        simp only [Pr.bind_quiet_ok, Pr.pure_eq, lb, tlvStrCopyVal_eq]
        rfl
      · have c1' : ¬ (sub = 1 ∨ sub = 2 ∨ sub = 3 ∨ sub = 6 ∨ sub = 7) := by simpa using c1
        rw [if_neg c1, if_neg c1']
        by_cases c4 : sub = 4
        · subst c4
          have ha := h1.addrText env PEER_ADDR_802 (r.length + 1) (by simp)
          simp only at ha
          rw [if_pos rfl, hl1, ha]
          simp only [Pr.bind_quiet_ok, PEER_ADDR_802]
          by_cases h6 : r.length + 1 = 6
          · have h5 : r.length = 5 := by omega
            have ht : r.take 5 = r := List.take_of_length_le (by omega)
            simp [h5, ht, lb, prOf, printf]
          · have h5 : r.length ≠ 5 := by omega
            simp [h5, prOf]
            rfl
        · rw [if_neg c4, if_neg (show ¬ (sub = 4 ∧ r.length + 1 = 6) from fun h => c4 h.1)]
          by_cases c5 : sub = 5
          · subst c5
            rw [if_pos rfl, hl1]
            rw [hl1] at h1
            rw [h1.grab 1, if_pos (by simp)]
            have h2 := h1.skip (n := 1) (by simp)
            simp only [List.drop_succ_cons, List.drop_zero] at h2
            have ha := h2.addrText env x.toNat r.length (by simp)
            simp only at ha
            simp only [Pr.bind_quiet_ok, List.take_succ_cons, List.take_zero, beNat_1, Nat.add_sub_cancel]
            rw [ha]
            simp only [Pr.bind_quiet_ok, u8_4,
              u8_5, u8_6, List.head?_cons, List.tail_cons,
              Option.some.injEq, true_and, List.take_length]
            simp only [show r.length + 1 = 5 ↔ r.length = 4 by omega, show r.length + 1 = 17 ↔ r.length = 16 by omega,
              show r.length + 1 = 7 ↔ r.length = 6 by omega]
            by_cases x4 : x = 4 ∧ r.length = 4
            · rw [if_pos x4, if_pos x4]; simp [lb, prOf, printf]
            rw [if_neg x4, if_neg x4]
            by_cases x5 : x = 5 ∧ r.length = 16
            · rw [if_pos x5, if_pos x5]; simp [lb, prOf, printf]
            rw [if_neg x5, if_neg x5]
            by_cases x6 : x = 6 ∧ r.length = 6
            · rw [if_pos x6, if_pos x6]; simp [lb, prOf, printf]
            rw [if_neg x6, if_neg x6]
            rfl
          · rw [if_neg c5]
            simp [c5]
            rfl

theorem lldpPortIdP_view {m : Bytes} {c : Cur} {v : Bytes} (h : View m c v) (env : PrintEnv) (hb : ¬ BadMac v) :
    lldpPortIdP env m c = prOf () (portLine v) := by
  have hlen := h.len
  have lb := lab (show lit "Port id: " = lit "Port id" ++ [0x3a, 0x20] by decide)
  unfold lldpPortIdP
  match v, h, hlen, hb with
  | [], h, hlen, _ => rw [if_pos (by simp at hlen; omega)]; rfl
  | [a], h, hlen, _ => rw [if_pos (by simp at hlen; omega)]; rfl
  | sub :: x :: r, h, hlen, hb =>
    simp only [List.length_cons] at hlen
    simp only [portLine, List.length_cons]
    by_cases hl : r.length + 1 > 255
    · rw [if_pos (by omega), if_pos hl]; rfl
    · rw [if_neg (by omega), if_neg hl, h.grab 1, if_pos (by simp)]
      have h1 := h.skip (n := 1) (by simp)
      simp only [List.drop_succ_cons, List.drop_zero] at h1
      simp only [Pr.bind_eq, Pr.bind_quiet_ok, List.take_succ_cons, List.take_zero, beNat_1,
        u8_1, u8_2,
        u8_3,
        u8_5, u8_6,
        u8_7]
      have hl1 := h1.len
      simp only [List.length_cons] at hl1
      by_cases c1 : sub ∈ [1, 2, 5, 6, 7]
      · have c1' : sub = 1 ∨ sub = 2 ∨ sub = 5 ∨ sub = 6 ∨ sub = 7 := by simpa using c1
        rw [if_pos c1, if_pos c1']
        have := h1.strCopy
        simp only at this
        rw [this]
        simp only [Pr.bind_quiet_ok, lb, tlvStrCopyVal_eq]
        rfl
      · have c1' : ¬ (sub = 1 ∨ sub = 2 ∨ sub = 5 ∨ sub = 6 ∨ sub = 7) := by simpa using c1
        rw [if_neg c1, if_neg c1']
        by_cases c3 : sub = 3
        · subst c3
          have h6 : r.length + 1 = 6 := by
            refine Classical.byContradiction (fun hn => hb ⟨rfl, ?_, ?_, ?_⟩) <;> simp only [List.length_cons] <;> omega
          have ha := h1.addrText env PEER_ADDR_802 (r.length + 1) (by simp)
          simp only at ha
          rw [if_pos rfl, hl1, ha]
          have h5 : r.length = 5 := by omega
          have ht : r.take 5 = r := List.take_of_length_le (by omega)
          simp [h5, ht, lb, prOf, printf, PEER_ADDR_802]
        · rw [if_neg (by simpa using c3), if_neg c3]
          rfl

theorem lldpMgmtAddrP_view {m : Bytes} {c : Cur} {v : Bytes} (h : View m c v) (env : PrintEnv) :
    lldpMgmtAddrP env m c = prOf () (mgmtLine env v) := by
  have l4 := lab (show lit "Management Address " ++ lit "IPv4" ++ lit ": " = lit "Management Address IPv4" ++ [0x3a, 0x20] by decide)
  have l6 := lab (show lit "Management Address " ++ lit "IPv6" ++ lit ": " = lit "Management Address IPv6" ++ [0x3a, 0x20] by decide)
  have le := lab (show lit "Management Address " ++ lit "Ethernet" ++ lit ": " = lit "Management Address Ethernet" ++ [0x3a, 0x20] by decide)
  unfold lldpMgmtAddrP
  rw [h.grab 1]
  match v, h with
  | [], h => simp [mgmtLine, prOf]
  | [a], h =>
    have h1 := h.skip (n := 1) (by simp)
    rw [if_pos (by simp)]
    simp only [Pr.bind_eq, Pr.bind_quiet_ok]
    rw [h1.grab 1]
    simp [mgmtLine, prOf]
  | alen :: fam :: r, h =>
    have h1 := h.skip (n := 1) (by simp)
    rw [if_pos (by simp)]
    simp only [Pr.bind_eq, Pr.bind_quiet_ok]
    rw [h1.grab 1, if_pos (by simp)]
    have h2 := h1.skip (n := 1) (by simp)
    simp only [List.drop_succ_cons, List.drop_zero] at h2
    simp only [Pr.bind_quiet_ok, List.take_succ_cons, List.take_zero, beNat_1, List.drop_succ_cons, List.drop_zero]
    have hl2 := h2.len
    simp only at hl2
    have e : (alen.toNat + 256 - 1) % 256 = (alen - 1).toNat := by
      have := alen.toNat_lt
      rw [UInt8.toNat_sub]
      have e1 : (1 : UInt8).toNat = 1 := rfl
      rw [e1]; congr 1; omega
    rw [hl2, e]
    simp only [mgmtLine]
    generalize (alen - 1).toNat = n
    simp only [u8_1, u8_2,
      u8_6]
    by_cases hfam : fam = 1 ∨ fam = 2 ∨ fam = 6
    · by_cases hn : r.length ≤ n
      · rw [if_pos hn]
        have hn' : ¬ n < r.length := by omega
        rcases hfam with rfl | rfl | rfl <;>
          simp [PEER_ADDR_INET4, PEER_ADDR_INET6, PEER_ADDR_802, hn', prOf]
      · have ha := fun af => h2.addrText env af n (by omega)
        simp only at ha
        have hn' : n < r.length := by omega
        rw [if_neg hn]
        simp only [hn', not_true, if_false, ha]
        rcases hfam with rfl | rfl | rfl
        · by_cases h4 : n = 4
          · subst h4
            simp [PEER_ADDR_INET4, prOf, printf]
            simpa using l4 _
          · simp [PEER_ADDR_INET4, prOf, h4]
        · by_cases h4 : n = 16
          · subst h4
            simp [PEER_ADDR_INET6, prOf, printf]
            simpa using l6 _
          · simp [PEER_ADDR_INET6, prOf, h4]
        · by_cases h4 : n = 6
          · subst h4
            simp [PEER_ADDR_802, prOf, printf]
            simpa using le _
          · simp [PEER_ADDR_802, prOf, h4]
    · have h3 : ¬ fam = 1 ∧ ¬ fam = 2 ∧ ¬ fam = 6 := by simpa [not_or] using hfam
      simp [h3, prOf]

theorem lldpPrivateP_view {m : Bytes} {c : Cur} {v : Bytes} (h : View m c v) : lldpPrivateP m c = prOf () (orgLine v) := by
  have lb := lab (show lit "Port VLAN ID: " = lit "Port VLAN ID" ++ [0x3a, 0x20] by decide)
  unfold lldpPrivateP
  rw [h.grabBytes 3]
  match v, h with
  | [], _ => simp [orgLine, prOf]
  | [_], _ => simp [orgLine, prOf]
  | [_, _], _ => simp [orgLine, prOf]
  | o0 :: o1 :: o2 :: r, h =>
    have h1 := h.skip (n := 3) (by simp)
    rw [if_pos (by simp)]
    simp only [Pr.bind_eq, Pr.bind_quiet_ok, List.take_succ_cons, List.take_zero, List.drop_succ_cons, List.drop_zero] at h1 ⊢
    simp only [orgLine]
    by_cases ho : [o0, o1, o2] = [0x00, 0x80, 0xc2]
    · rw [if_pos ho, if_neg (by simpa using ho)]
      unfold lldpPrivate8021P
      rw [h1.grab 1]
      match r, h1 with
      | [], h1 => simp [prOf]
      | sub :: r, h1 =>
        rw [if_pos (by simp)]
        have h2 := h1.skip (n := 1) (by simp)
        simp only [List.drop_succ_cons, List.drop_zero] at h2
        have hl2 := h2.len
        simp only at hl2
        simp only [Pr.bind_eq, Pr.bind_quiet_ok, List.take_succ_cons, List.take_zero, beNat_1,
          u8_1, hl2]
        by_cases hs : sub = 1
        · subst hs
          by_cases hl : r.length = 2
          · obtain ⟨a, b, rfl⟩ := exists_two' hl
            rw [hl2] at h2
            have hg := h2.grab 2
            simp only [List.length_cons, List.length_nil] at hg
            simp only [List.append_assoc] at lb
            simp [hg, decimal16_eq (beNat_lt_2 a b), prOf, printf, lb]
          · simp [hl, prOf]
        · rw [if_neg (by simpa using hs), if_pos hs]; rfl
    · rw [if_neg ho, if_pos ho]; rfl

theorem lldpSystemCapP_view {m : Bytes} {c : Cur} {v : Bytes} (h : View m c v) : lldpSystemCapP m c = prOf () (capsLine v) := by
  have hlen := h.len
  have la := lab (show lit "System Capabilities: " = lit "System Capabilities" ++ [0x3a, 0x20] by decide)
  have lb := lab (show lit "Enabled Capabilities: " = lit "Enabled Capabilities" ++ [0x3a, 0x20] by decide)
  unfold lldpSystemCapP capsLine
  simp only [hlen]
  by_cases hl : v.length = 4
  · match v, h, hl with
    | [a, b, x, y], h, hl =>
      rw [if_neg (by simp), h.grab 2, if_pos (by simp)]
      have h2 := h.skip (n := 2) (by simp)
      simp only [Pr.bind_eq, Pr.bind_quiet_ok]
      rw [h2.grab 2, if_pos (by simp)]
      simp only [Pr.bind_quiet_ok, List.take_succ_cons, List.take_zero, List.drop_succ_cons, List.drop_zero,
        lldpCapMap_eq, tlvStrCap_lt (lldpCaps_lt _), la, lb]
      generalize beNat [a, b] = avail
      generalize beNat [x, y] = act
      have hao := and_or_iff avail act
      by_cases hc : act &&& avail = act
      · have hc' := hao.mpr hc
        rw [if_neg (by simpa using hc')]
        by_cases h7 : avail.testBit 7 = true ∧ avail ≠ 128
        · rw [if_pos h7]; simp [hc, h7, prOf]
        · rw [if_neg h7]
          simp [hc, h7, prOf, printf]
      · rw [if_pos (fun h => hc (hao.mp h))]
        simp [hc, prOf]
  · simp [hl, prOf]

/-- The message after a TLV: a system name is remembered. -/
def nameIt (s : Msg) (t : Tlv) : Msg :=
  if t.1 = 5 then { s with peer := { s.peer with hostname := first s.peer.hostname (shown t.2) } } else s

theorem lldpTlvP_view {m : Bytes} {c : Cur} {v : Bytes} (h : View m c v) (env : PrintEnv) (t : Nat) (s : Msg) :
    lldpTlvP env m t c s = prOf (nameIt s (t, v)) (lldpLine env s.peer.hostname.isSome (t, v)) := by
  have hlen := h.len
  have ls := lab (show lit "System Name: " = lit "System Name" ++ [0x3a, 0x20] by decide)
  unfold lldpTlvP
  by_cases h5 : t = 5
  · subst h5
    simp only [lldpLine, lldpSystemNameP, if_true, hlen]
    by_cases hl : v.length > 255
    · simp [hl, prOf]
    · cases hh : s.peer.hostname
      · have := h.strCopy
        rw [hlen] at this
        simp only [List.append_assoc] at ls
        simp [hl, this, tlvStrCopyVal_eq, peerStr, prOf, printf, nameIt, hh, first, ls]
      · simp [hl, prOf]
  rw [if_neg h5]
  have hn : nameIt s (t, v) = s := by simp [nameIt, h5]
  rw [hn]
  by_cases h46 : t = 4 ∨ t = 6
  · rw [if_pos h46]
    unfold lldpDescrPrint
    rw [h.strCopy]
    rcases h46 with rfl | rfl <;> simp [lldpLine, tlvStrCopyVal_eq, descrLines_eq, lldpDescrLabel, prOf, printf]
  rw [if_neg h46]
  have h4 : t ≠ 4 := fun h => h46 (Or.inl h)
  have h6 : t ≠ 6 := fun h => h46 (Or.inr h)
  simp only [lldpLine, if_neg h5, if_neg h4, if_neg h6]
  by_cases h7 : t = 7
  · rw [if_pos h7, if_pos h7, lldpSystemCapP_view h]
    cases capsLine v <;> simp [prOf]
  rw [if_neg h7, if_neg h7]
  by_cases h8 : t = 8
  · rw [if_pos h8, if_pos h8, lldpMgmtAddrP_view h]
    cases mgmtLine env v <;> simp [prOf]
  rw [if_neg h8, if_neg h8]
  by_cases h127 : t = 127
  · rw [if_pos h127, if_pos h127, lldpPrivateP_view h]
    cases orgLine v <;> simp [prOf]
  rw [if_neg h127, if_neg h127]
  by_cases hr : 8 < t ∧ t < 127
  · rw [if_pos hr, if_pos (by omega)]; rfl
  · rw [if_neg hr, if_neg (by omega)]; rfl

/-- What follows the TLVs: an empty End TLV, or data cut off. -/
def LldpRest (rest : Bytes) : Prop := LldpCut rest ∨ ∃ trailer, rest = 0 :: 0 :: trailer

/-- Behind the last TLV nothing more is found. -/
theorem lldp_no_tlv {m : Bytes} {c : Cur} {rest : Bytes} (h : View m c rest) (hpad : c.pos + rest.length + 2 ≤ m.length) (hr : LldpRest rest) :
    grabLldpTlv m c = .fail ∨ ∃ t l c', grabLldpTlv m c = .ok (t, l, c') ∧
      (c'.length < l ∨ (t = 0 ∧ l ≠ 0) ∨
        (∃ trailer, rest = 0 :: 0 :: trailer ∧ t = 0 ∧ l = 0 ∧ c' = ⟨c.pos + 2, trailer.length⟩)) := by
  have hlen := h.len
  rw [h.grabLldpTlv hpad]
  by_cases h2 : 2 ≤ rest.length
  · rw [if_pos h2]
    right
    refine ⟨_, _, _, rfl, ?_⟩
    rcases hr with (hs | hs | hs) | ⟨trailer, rfl⟩
    · omega
    · left; simp only; omega
    · right; left; exact hs
    · right; right
      refine ⟨trailer, rfl, by simp [beNat], by simp [beNat], ?_⟩
      simp only [List.length_cons] at hlen
      simp [hlen]
  · left; rw [if_neg h2]

theorem nameIt_isSome (s : Msg) (t : Tlv) : (nameIt s t).peer.hostname.isSome = (s.peer.hostname.isSome || t.1 == 5) := by
  unfold nameIt
  by_cases h : t.1 = 5
  · rw [if_pos h]; cases s.peer.hostname <;> simp [first, h]
  · rw [if_neg h]; simp [h]

theorem lldpLoopP_eq (env : PrintEnv) (fuel : Nat) (m : Bytes) (c : Cur) (ts : List Tlv) (rest : Bytes) (t0 : Nat) (s : Msg)
    (h : View m c (lldpEnc ts ++ rest)) (hf : (lldpEnc ts ++ rest).length < fuel) (hw : LldpWf ts) (hz : ∀ t ∈ ts, t.1 ≠ 0) (ht0 : t0 ≠ 0)
    (hpad : c.pos + (lldpEnc ts ++ rest).length + 2 ≤ m.length) (hr : LldpRest rest) :
    (lldpLoopP env m fuel t0 c s).text = (lldpLines env s.peer.hostname.isSome ts).1 ∧
    ((lldpLines env s.peer.hostname.isSome ts).2 = false → (lldpLoopP env m fuel t0 c s).res = .fail) ∧
    ((lldpLines env s.peer.hostname.isSome ts).2 = true →
      ((∃ trailer, rest = 0 :: 0 :: trailer ∧
        (lldpLoopP env m fuel t0 c s).res = .ok (0, ⟨c.pos + (lldpEnc ts).length + 2, trailer.length⟩, ts.foldl nameIt s)) ∨
      (LldpCut rest ∧ ((lldpLoopP env m fuel t0 c s).res = .fail ∨ ∃ t c' s', t ≠ 0 ∧ (lldpLoopP env m fuel t0 c s).res = .ok (t, c', s'))))) := by
  induction ts generalizing fuel c t0 s with
  | nil =>
    cases fuel with
    | zero => simp at hf
    | succ fuel =>
      have hv : lldpEnc [] ++ rest = rest := rfl
      rw [hv] at h hpad
      unfold lldpLoopP
      have hlen := h.len
      by_cases h0 : c.length = 0
      · rw [if_pos h0]
        refine ⟨rfl, by simp [lldpLines], fun _ => Or.inr ⟨Or.inl (by omega), Or.inr ⟨t0, c, s, ht0, rfl⟩⟩⟩
      · rw [if_neg h0]
        rcases lldp_no_tlv h hpad hr with hg | ⟨t, l, c', hg, hc | ⟨ht, hl⟩ | ⟨trailer, e, rfl, rfl, rfl⟩⟩
        · rw [hg]
          refine ⟨rfl, by simp [lldpLines], fun _ => Or.inr ⟨?_, Or.inl rfl⟩⟩
          rw [h.grabLldpTlv hpad] at hg
          by_cases h2 : 2 ≤ rest.length
          · rw [if_pos h2] at hg; cases hg
          · exact Or.inl (by omega)
        · rw [hg]
          simp only [Pr.bind_eq, Pr.bind_quiet_ok]
          rw [if_pos hc]
          refine ⟨rfl, by simp [lldpLines], fun _ => Or.inr ⟨?_, Or.inl rfl⟩⟩
          rcases hr with hr | ⟨tr, rfl⟩
          · exact hr
          · rw [h.grabLldpTlv hpad, if_pos (by simp)] at hg
            simp only [Res.ok.injEq, Prod.mk.injEq] at hg
            obtain ⟨_, hl, _⟩ := hg
            rw [← hl] at hc
            simp [beNat] at hc
        · rw [hg]
          simp only [Pr.bind_eq, Pr.bind_quiet_ok]
          have hcut : LldpCut rest := by
            rcases hr with hr | ⟨tr, rfl⟩
            · exact hr
            · rw [h.grabLldpTlv hpad, if_pos (by simp)] at hg
              simp only [Res.ok.injEq, Prod.mk.injEq] at hg
              obtain ⟨_, hl', _⟩ := hg
              rw [← hl'] at hl
              simp [beNat] at hl
          by_cases hc : c'.length < l
          · rw [if_pos hc]
            exact ⟨rfl, by simp [lldpLines], fun _ => Or.inr ⟨hcut, Or.inl rfl⟩⟩
          · rw [if_neg hc, if_pos ht, if_pos hl]
            exact ⟨rfl, by simp [lldpLines], fun _ => Or.inr ⟨hcut, Or.inl rfl⟩⟩
        · rw [hg]
          simp only [Pr.bind_eq, Pr.bind_quiet_ok]
          refine ⟨rfl, by simp [lldpLines], fun _ => Or.inl ⟨trailer, e, rfl⟩⟩
  | cons t ts ih =>
    cases fuel with
    | zero => omega
    | succ fuel =>
      have hwt := hw t (by simp)
      have ht := hz t (by simp)
      unfold lldpLoopP
      have hlen := h.len
      have hl1 := lldpEnc1_length t
      rw [lldpEnc_cons, List.append_assoc] at h hlen hf hpad
      rw [List.length_append] at hlen hf
      rw [if_neg (by omega), h.grabLldpTlv hpad, if_pos (by simp; omega)]
      obtain ⟨et, el⟩ := lldpEnc1_hdr t (lldpEnc ts ++ rest) hwt.1 hwt.2
      rw [et, el]
      simp only [Pr.bind_eq, Pr.bind_quiet_ok]
      have h2 := h.skip (n := 2) (by simp; omega)
      rw [lldpEnc1_drop] at h2
      rw [if_neg (by omega), if_neg ht]
      have hval := h2.sub (n := t.2.length) (by simp)
      rw [List.take_left] at hval
      rw [lldpTlvP_view hval]
      have hrest := h2.skip (n := t.2.length) (by simp)
      rw [List.drop_left] at hrest
      simp only [lldpLines]
      cases hc : lldpLine env s.peer.hostname.isSome (t.1, t.2) with
      | none => exact ⟨rfl, fun _ => rfl, fun h => by cases h⟩
      | some x =>
        simp only [prOf, Pr.bind_mk_ok]
        rw [h2.skip_eq, if_pos (by simp)]
        simp only [Pr.bind_quiet_ok]
        obtain ⟨i1, i2, i3⟩ := ih fuel _ t.1 (nameIt s (t.1, t.2)) hrest (by omega) (fun t ht => hw t (by simp [ht]))
          (fun t ht => hz t (by simp [ht])) ht (by rw [List.length_append] at hpad; simp only; omega)
        rw [nameIt_isSome] at i1 i2 i3
        refine ⟨by rw [i1], i2, fun hx => ?_⟩
        rcases i3 hx with ⟨trailer, e, i3⟩ | ⟨e, i3⟩
        · left
          refine ⟨trailer, e, ?_⟩
          rw [i3]
          simp only [lldpEnc_cons, List.length_append, hl1, List.foldl_cons, Res.ok.injEq, Prod.mk.injEq,
            Cur.mk.injEq, and_true, true_and]
          omega
        · exact Or.inr ⟨e, i3⟩

/-- No Ethernet address of the wrong length where the port id is expected. -/
def PortFine (ts : List Tlv) : Prop := ∀ v, ts[1]? = some (2, v) → ¬ BadMac v

/-- Behind the last TLV the code that expects one of type `k ≠ 0` fails. -/
theorem stage_nil {m : Bytes} {c : Cur} {rest : Bytes} (h : View m c rest) (hpad : c.pos + rest.length + 2 ≤ m.length) (hr : LldpRest rest)
    {β : Type} (k : Nat) (hk : k ≠ 0) (K : Nat × Nat × Cur → Pr β) (hK : ∀ t l c', t ≠ k ∨ c'.length < l → K (t, l, c') = quiet .fail) :
    (quiet (grabLldpTlv m c)).bind K = quiet .fail := by
  rcases lldp_no_tlv h hpad hr with hg | ⟨t, l, c', hg, hc | ⟨ht, hl⟩ | ⟨trailer, e, rfl, rfl, rfl⟩⟩
  · rw [hg]; rfl
  · rw [hg, Pr.bind_quiet_ok, hK _ _ _ (Or.inr hc)]
  · rw [hg, Pr.bind_quiet_ok, hK _ _ _ (Or.inl (by omega))]
  · rw [hg, Pr.bind_quiet_ok, hK _ _ _ (Or.inl (by omega))]

theorem lldpDecodeP_eq (env : PrintEnv) (f pad : Bytes) (ts : List Tlv) (rest : Bytes) (s : Msg) (h1 : 18 ≤ f.length)
    (h2 : f.length ≤ 1518) (hpad : 2 ≤ pad.length) (hf : LldpFrame f (lldpEnc ts ++ rest)) (hw : LldpWf ts) (hz : ∀ t ∈ ts, t.1 ≠ 0)
    (hr : LldpRest rest) (hb : PortFine ts) :
    (lldpDecodeP env (f ++ pad) f.length s).text = (lldpReport env s.peer.hostname.isSome ts).1 ∧
    (((lldpReport env s.peer.hostname.isSome ts).2 = true ∧ ∃ trailer ttl, rest = 0 :: 0 :: trailer ∧ ts[2]? = some (3, ttl) ∧
        (lldpDecodeP env (f ++ pad) f.length s).res =
          .ok ((ts.drop 3).foldl nameIt { s with ttl := beNat ttl }, f.length - trailer.length)) ∨
      (((lldpReport env s.peer.hostname.isSome ts).2 = false ∨ LldpCut rest) ∧ (lldpDecodeP env (f ++ pad) f.length s).res = .fail)) := by
  unfold lldpDecodeP
  rcases lldp_cases f pad h1 h2 with ⟨ha, hn⟩ | ⟨pre, payload, e, hpre, hok, hview, hsub, hpl, huniq⟩
  · exact absurd ⟨_, hf⟩ hn
  have := huniq _ hf
  subst this
  rw [hok]
  simp only [Pr.bind_eq, Pr.bind_quiet_ok, hsub]
  have hm : (f ++ pad).length = f.length + pad.length := by simp
  have hfl := congrArg List.length e
  rw [List.length_append] at hfl
  clear hpl hsub huniq hok hpre hf e
  cases ts with
  | nil =>
    have hv : lldpEnc [] ++ rest = rest := rfl
    rw [hv] at hview hfl ⊢
    rw [stage_nil hview (by simp only; omega) hr 1 (by omega) _ (by
      intro t l c' h
      dsimp only
      by_cases ht : t ≠ 1
      · rw [if_pos ht]
      · rw [if_neg ht, if_pos (by omega)])]
    exact ⟨rfl, Or.inr ⟨Or.inl rfl, rfl⟩⟩
  | cons x ts =>
    obtain ⟨t1, chassis⟩ := x
    have hw1 := hw (t1, chassis) (by simp)
    dsimp only at hw1
    rw [lldpEnc_cons, List.append_assoc] at hview hfl ⊢
    obtain ⟨g1, v1⟩ := lldp_grab_complete hview hw1.1 hw1.2
    rw [g1]
    simp only [Pr.bind_quiet_ok, lldpReport]
    by_cases ht1 : t1 ≠ 1
    · rw [if_pos ht1, if_neg ht1]
      exact ⟨rfl, Or.inr ⟨Or.inl rfl, rfl⟩⟩
    have ht1 : t1 = 1 := by omega
    subst ht1
    rw [if_neg (by simp), if_pos rfl]
    have l1 := v1.len
    simp only at l1 v1
    rw [l1] at v1 ⊢
    rw [if_neg (by simp)]
    have hc := lldpChassisIdP_view (v1.sub (n := chassis.length) (by simp)) env
    simp only [List.take_left] at hc
    rw [hc, v1.skip_eq, if_pos (by simp)]
    cases hca : chassisLine env chassis with
    | none => exact ⟨rfl, Or.inr ⟨Or.inl rfl, rfl⟩⟩
    | some a =>
    simp only [prOf, Pr.bind_mk_ok, Pr.bind_quiet_ok]
    have v1' := v1.skip (n := chassis.length) (by simp)
    simp only [List.drop_left] at v1'
    simp only [List.length_append, lldpEnc1_length] at hfl
    cases ts with
    | nil =>
      have hv : lldpEnc [] ++ rest = rest := rfl
      have hv' : (lldpEnc []).length = 0 := rfl
      rw [hv] at v1' ⊢
      rw [stage_nil v1' (by simp only; omega) hr 2 (by omega) _ (by
        intro t l c' h
        dsimp only
        by_cases ht : t ≠ 2
        · rw [if_pos ht]
        · rw [if_neg ht, if_pos (by omega)])]
      simp only [Pr.quiet_text, Pr.quiet_res, List.append_nil]
      simp
    | cons x ts =>
    obtain ⟨t2, port⟩ := x
    have hw2 := hw (t2, port) (by simp)
    dsimp only at hw2
    simp only [lldpEnc_cons, List.append_assoc] at v1' hfl ⊢
    obtain ⟨g2, v2⟩ := lldp_grab_complete v1' hw2.1 hw2.2
    rw [g2]
    simp only [Pr.bind_quiet_ok]
    by_cases ht2 : t2 ≠ 2
    · rw [if_pos ht2, if_neg ht2]
      simp only [Pr.quiet_text, Pr.quiet_res, List.append_nil]
      simp
    have ht2 : t2 = 2 := by omega
    subst ht2
    rw [if_neg (by simp), if_pos rfl]
    have l2 := v2.len
    simp only at l2 v2
    rw [l2] at v2 ⊢
    rw [if_neg (by simp)]
    have hc2 := lldpPortIdP_view (v2.sub (n := port.length) (by simp)) env (by rw [List.take_left]; exact hb port rfl)
    simp only [List.take_left] at hc2
    rw [hc2, v2.skip_eq, if_pos (by simp)]
    cases hpo : portLine port with
    | none =>
      simp only [prOf, Pr.bind_quiet_fail, Pr.quiet_text, Pr.quiet_res, List.append_nil]
      simp
    | some b =>
    simp only [prOf, Pr.bind_mk_ok, Pr.bind_quiet_ok]
    have v2' := v2.skip (n := port.length) (by simp)
    simp only [List.drop_left] at v2'
    simp only [List.length_append, lldpEnc1_length] at hfl
    cases ts with
    | nil =>
      have hv : lldpEnc [] ++ rest = rest := rfl
      have hv' : (lldpEnc []).length = 0 := rfl
      rw [hv] at v2' ⊢
      rw [stage_nil v2' (by simp only; omega) hr 3 (by omega) _ (by
        intro t l c' h
        dsimp only
        by_cases ht : t ≠ 3
        · rw [if_pos ht]
        · rw [if_neg ht]
          by_cases hl : l ≠ 2
          · rw [if_pos hl]
          · rw [if_neg hl]
            have : grab (f ++ pad) 2 c' = .fail := by unfold grab; rw [if_neg (by omega)]
            rw [this]; rfl)]
      simp only [Pr.quiet_text, Pr.quiet_res, List.append_nil]
      simp
    | cons x ts =>
    obtain ⟨t3, ttl⟩ := x
    have hw3 := hw (t3, ttl) (by simp)
    dsimp only at hw3
    simp only [lldpEnc_cons, List.append_assoc] at v2' hfl ⊢
    obtain ⟨g3, v3⟩ := lldp_grab_complete v2' hw3.1 hw3.2
    rw [g3]
    simp only [Pr.bind_quiet_ok]
    by_cases h3 : t3 = 3
    case neg =>
      rw [if_pos h3, if_neg (fun h => h3 h.1)]
      simp only [Pr.quiet_text, Pr.quiet_res, List.append_nil]
      simp
    subst h3
    rw [if_neg (by simp)]
    by_cases h3l : ttl.length = 2
    case neg =>
      rw [if_pos h3l, if_neg (fun h => h3l h.2)]
      simp only [Pr.quiet_text, Pr.quiet_res, List.append_nil]
      simp
    rw [if_neg (by omega), if_pos ⟨rfl, h3l⟩]
    have l3 := v3.len
    simp only at l3 v3
    rw [l3] at v3 ⊢
    have e3 : (ttl ++ (lldpEnc ts ++ rest)).take 2 = ttl := List.take_left' h3l
    have e3' : (ttl ++ (lldpEnc ts ++ rest)).drop 2 = lldpEnc ts ++ rest := List.drop_left' h3l
    rw [v3.grab 2, if_pos (by rw [List.length_append]; omega), e3]
    have v4 := v3.skip (n := 2) (by rw [List.length_append]; omega)
    rw [e3'] at v4
    simp only [List.length_append, lldpEnc1_length] at hfl
    simp only [Pr.bind_quiet_ok, lldpTtlPrint, Pr.bind_put]
    obtain ⟨i1, i2, i3⟩ := lldpLoopP_eq env ((lldpEnc1 (1, chassis) ++ (lldpEnc1 (2, port) ++ (lldpEnc1 (3, ttl) ++ (lldpEnc ts ++ rest)))).length + 1)
      (f ++ pad) _ ts rest 3 { s with ttl := beNat ttl } v4 (by simp only [List.length_append, lldpEnc1_length]; omega)
      (fun t ht => hw t (by simp [ht])) (fun t ht => hz t (by simp [ht])) (by omega)
      (by simp only [List.length_append] at hm ⊢; omega) hr
    have hsm : ({ s with ttl := beNat ttl } : Msg).peer = s.peer := rfl
    rw [hsm] at i1 i2 i3
    generalize hL : lldpLoopP env (f ++ pad) ((lldpEnc1 (1, chassis) ++ (lldpEnc1 (2, port) ++ (lldpEnc1 (3, ttl) ++ (lldpEnc ts ++ rest)))).length + 1)
      3 { pos := pre.length + 2 + chassis.length + 2 + port.length + 2 + 2, length := (ttl ++ (lldpEnc ts ++ rest)).length - 2 }
      { s with ttl := beNat ttl } = L at i1 i2 i3 ⊢
    obtain ⟨x, r⟩ := L
    dsimp only at i1 i2 i3
    subst i1
    rw [holdText_eq]
    cases hl2 : (lldpLines env s.peer.hostname.isSome ts).2 with
    | false =>
      have := i2 hl2
      subst this
      simp only [Pr.bind_mk_fail, List.append_assoc]
      exact ⟨trivial, Or.inr ⟨Or.inl trivial, trivial⟩⟩
    | true =>
      rcases i3 hl2 with ⟨trailer, e', j3⟩ | ⟨hcut, j3 | ⟨t, c', s', ht, j3⟩⟩
      · clear i2 i3
        subst j3 e'
        simp only [Pr.bind_mk_ok, List.append_assoc]
        rw [if_neg (by simp)]
        simp only [Pr.pure_eq, Pr.quiet_text, Pr.quiet_res, List.append_nil]
        refine ⟨trivial, Or.inl ⟨trivial, trailer, ttl, rfl, rfl, ?_⟩⟩
        simp only [List.length_cons] at hfl
        simp only [List.drop_succ_cons, List.drop_zero, Res.ok.injEq, Prod.mk.injEq, true_and]
        omega
      · subst j3
        simp only [Pr.bind_mk_fail, List.append_assoc]
        exact ⟨trivial, Or.inr ⟨Or.inr hcut, trivial⟩⟩
      · subst j3
        simp only [Pr.bind_mk_ok, List.append_assoc]
        rw [if_pos ht]
        simp only [Pr.quiet_text, Pr.quiet_res, List.append_nil]
        exact ⟨trivial, Or.inr ⟨Or.inr hcut, trivial⟩⟩

/-! ## CDP -/

theorem cdpAddrOneP_view {m : Bytes} {c : Cur} {v : Bytes} (h : View m c v) (env : PrintEnv) :
    cdpAddrOneP env m c =
      match addrEntry v with
      | none => quiet .fail
      | some (e, r) => prOf ⟨c.pos + (v.length - r.length), r.length⟩ (addrLine env e) := by
  have lb4 : ∀ x, lit "  IP" ++ ([] : Bytes) ++ lit " address: " ++ x ++ lit "\n" = labelled (lit "  IP address") x :=
    fun x => lab (by decide) x
  have lb6 : ∀ x, lit "  IP" ++ lit "v6" ++ lit " address: " ++ x ++ lit "\n" = labelled (lit "  IPv6 address") x :=
    fun x => lab (by decide) x
  unfold cdpAddrOneP
  rw [h.grab 1]
  match v, h with
  | [], h => simp [addrEntry]
  | [a], h =>
    have h1 := h.skip (n := 1) (by simp)
    rw [if_pos (by simp)]
    simp only [Pr.bind_eq, Pr.bind_quiet_ok]
    rw [h1.grab 1]
    simp [addrEntry]
  | pt :: pl :: r, h =>
    have h1 := h.skip (n := 1) (by simp)
    rw [if_pos (by simp)]
    simp only [Pr.bind_eq, Pr.bind_quiet_ok]
    rw [h1.grab 1, if_pos (by simp)]
    have h2 := h1.skip (n := 1) (by simp)
    simp only [List.drop_succ_cons, List.drop_zero] at h2
    simp only [Pr.bind_quiet_ok, List.take_succ_cons, List.take_zero, beNat_1, List.drop_succ_cons, List.drop_zero]
    have hl2 := h2.len
    simp only at hl2
    rw [hl2]
    by_cases hs : r.length < pl.toNat + 2
    · rw [if_pos hs]; simp [addrEntry, hs]
    rw [if_neg hs]
    have haf := cdpAf_view h2 pt.toNat pl.toNat (by omega)
    simp only at haf
    rw [haf]
    simp only [Pr.bind_quiet_ok]
    rw [hl2] at h2
    rw [h2.skip_eq pl.toNat, if_pos (by omega)]
    have h3 := h2.skip (n := pl.toNat) (by omega)
    simp only [Pr.bind_quiet_ok]
    rw [h3.grab 2, if_pos (by simp; omega)]
    have h4 := h3.skip (n := 2) (by simp; omega)
    simp only [Pr.bind_quiet_ok]
    simp only [List.drop_drop] at h4
    simp only [addrEntry]
    rw [if_neg hs]
    generalize hal : beNat ((r.drop pl.toNat).take 2) = al
    generalize hr3 : r.drop (pl.toNat + 2) = r3 at *
    have hr3l : r3.length + pl.toNat + 2 = r.length := by rw [← hr3]; simp; omega
    have hl4 := h4.len
    simp only at hl4
    rw [hl4] at h4 ⊢
    by_cases hal2 : r3.length < al
    · simp [hal2]
    simp only [hal2, if_false]
    have hsk := h4.skip_eq al
    rw [if_pos (by omega)] at hsk
    simp only at hsk
    have hta := fun af => h4.addrText env af al (by omega)
    simp only at hta
    rw [hta, hsk]
    have hlen : (r3.take al).length = al := by simp; omega
    simp only [addrLine, hlen]
    have epos : c.pos + 1 + 1 + pl.toNat + 2 + al = c.pos + ((pt :: pl :: r).length - (r3.drop al).length) := by
      simp; omega
    have elen : r3.length - al = (r3.drop al).length := by simp
    rw [epos, elen]
    by_cases c1 : pt.toNat = 1 ∧ r.take pl.toNat = [0xcc]
    · simp only [if_pos c1, PEER_ADDR_INET4, PEER_ADDR_INET6]
      by_cases c4 : al = 4
      · simp [c4, prOf, ← lb4]
      · simp [c4, prOf]
    · simp only [if_neg c1]
      by_cases c2 : pt.toNat = 2 ∧ r.take pl.toNat = [0xaa, 0xaa, 0x03, 0x00, 0x00, 0x00, 0x86, 0xdd]
      · simp only [if_pos c2, PEER_ADDR_INET6]
        by_cases c4 : al = 16
        · simp [c4, prOf, ← lb6]
        · simp [c4, prOf]
      · simp only [if_neg c2]
        simp [prOf]
        rfl

theorem cdpAddrLoopP_view (env : PrintEnv) (fuel count n : Nat) (m : Bytes) (c : Cur) (v : Bytes)
    (h : View m c v) (hf : v.length < fuel) (hn : n = addrLimit count) (hc : count < 4294967296) :
    cdpAddrLoopP env m fuel count c = prIf () (addrLines env n v) := by
  induction fuel generalizing count n c v with
  | zero => omega
  | succ fuel ih =>
    cases n with
    | zero => exact absurd hn (Nat.ne_of_lt (addrLimit_pos count))
    | succ k =>
    obtain ⟨hk, hkl, hks⟩ := addrLimit_step hc hn
    unfold cdpAddrLoopP
    rw [cdpAddrOneP_view h, hk]
    clear hn hk hc
    simp only [addrLines]
    cases he : addrEntry v with
    | none => rfl
    | some er =>
      obtain ⟨e, r⟩ := er
      have hr := addrEntry_length he
      have hv := addrEntry_view h he
      dsimp only
      cases hm : addrLine env e with
      | none => rfl
      | some x =>
        simp only [prOf, Pr.bind_eq, Pr.bind_mk_ok]
        by_cases hstop : r = []
        · rw [if_pos hstop, if_neg (by simp [hstop])]
          simp [prIf]
        · have hr0 : r.length ≠ 0 := fun h => hstop (List.length_eq_zero_iff.mp h)
          rw [if_neg hstop]
          by_cases hk0 : k = 0
          · subst hk0
            rw [if_neg (by simp)]
            simp [prIf, addrLines]
          · rw [if_pos ⟨hr0, Nat.pos_of_ne_zero hk0⟩, ih k k _ r hv (by omega) (hks hk0) hkl]
            rfl

theorem cdpTlvP_view {m : Bytes} {c : Cur} {v : Bytes} (h : View m c v) (env : PrintEnv) (t : Nat) :
    cdpTlvP env m t c = prIf () (cdpLine env (t, v)) := by
  have hlen := h.len
  unfold cdpTlvP
  by_cases h1 : t = 0x01 ∨ t = 0x14
  · rw [if_pos h1]
    unfold cdpSystemNameP
    rw [h.strCopy]
    simp only [Pr.bind_eq, Pr.bind_quiet_ok, tlvStrCopyVal_eq]
    rcases h1 with rfl | rfl
    · rw [if_pos rfl, lab (l := lit "Device ID") (by decide)]; rfl
    · rw [if_neg (by decide), lab (l := lit "System Name") (by decide)]; rfl
  rw [if_neg h1]
  by_cases h3 : t = 0x03
  · subst h3
    unfold cdpPortIdP
    rw [if_pos rfl, h.strCopy]
    simp only [Pr.bind_eq, Pr.bind_quiet_ok, tlvStrCopyVal_eq]
    rfl
  rw [if_neg h3]
  by_cases h4 : t = 0x04
  · subst h4
    simp only [cdpSystemCapP, cdpLine, if_true, hlen]
    by_cases hl : v.length = 4
    · rw [if_neg (by simpa using hl), if_pos hl, h.grab 4, if_pos (by omega), List.take_of_length_le (by omega)]
      simp only [Pr.bind_eq, Pr.bind_quiet_ok, cdpCapMap_eq, tlvStrCap_lt (cdpCaps_lt _)]
      rw [lab (l := lit "Capabilities") (by decide)]; rfl
    · rw [if_pos hl, if_neg hl]; rfl
  rw [if_neg h4]
  by_cases h2 : t = 0x02 ∨ t = 0x16
  · rw [if_pos h2]
    have e : cdpLine env (t, v) = addrsLine env (if t = 0x16 then lit "Management" else lit "Entry") v := by
      rcases h2 with rfl | rfl <;> rfl
    rw [e]
    unfold cdpAddrP addrsLine
    rw [h.grab 4]
    by_cases hl : v.length < 4
    · rw [if_neg (by omega), if_pos hl]; rfl
    · rw [if_pos (by omega), if_neg hl]
      simp only [Pr.bind_eq, Pr.bind_quiet_ok, Pr.bind_put]
      obtain ⟨x0, x1, x2, x3, r, rfl⟩ := exists_four (v := v) (by omega)
      have hb : beNat ([x0, x1, x2, x3]) < 4294967296 := by
        rw [beNat_4]
        have := x0.toNat_lt; have := x1.toNat_lt; have := x2.toNat_lt; have := x3.toNat_lt
        omega
      have h' := h.skip (n := 4) (by simp)
      rw [cdpAddrLoopP_view env (c.length + 1) (beNat (List.take 4 (x0 :: x1 :: x2 :: x3 :: r))) _ m _ _ h' (by simp [hlen]; omega) rfl hb]
      rfl
  rw [if_neg h2]
  by_cases h5 : t = 0x05 ∨ t = 0x06
  · rw [if_pos h5]
    unfold cdpDescrPrint
    rw [h.strCopy]
    simp only [Pr.bind_eq, Pr.bind_quiet_ok, tlvStrCopyVal_eq, descrLines_eq]
    rcases h5 with rfl | rfl <;> rfl
  rw [if_neg h5]
  by_cases h9 : t = 0x09
  · subst h9
    unfold cdpVtpPrint
    rw [if_pos rfl, h.strCopy]
    simp only [Pr.bind_eq, Pr.bind_quiet_ok, tlvStrCopyVal_eq]
    rfl
  rw [if_neg h9]
  by_cases ha : t = 0x0a
  · subst ha
    simp only [cdpVlanP, cdpLine, if_true, hlen]
    by_cases hl : v.length = 2
    · obtain ⟨a, b, rfl⟩ := exists_two' hl
      rw [if_neg (by simp), if_pos hl, h.grab 2, if_pos (by omega)]
      simp only [Pr.bind_eq, Pr.bind_quiet_ok, List.take_succ_cons, List.take_zero,
        decimal16_eq (beNat_lt_2 a b)]
      rw [lab (l := lit "Native VLAN") (by decide)]; rfl
    · rw [if_pos hl, if_neg hl]; rfl
  rw [if_neg ha]
  by_cases hb : t = 0x0b
  · subst hb
    simp only [cdpDuplexPrintP, cdpLine, if_true, hlen]
    match v, h with
    | [], h => rfl
    | [d], h =>
      rw [if_neg (by simp), h.grab 1, if_pos (by simp)]
      simp only [Pr.bind_eq, Pr.bind_quiet_ok, List.take_succ_cons, List.take_zero, beNat_1]
      have hd : d.toNat = 0 ↔ d = 0 := u8_eq_lit d 0 (by decide)
      by_cases d0 : d = 0
      · rw [if_neg (by simpa [hd] using d0), if_pos d0, lab (l := lit "Duplex") (by decide)]; rfl
      · rw [if_pos (by simpa [hd] using d0), if_neg d0, lab (l := lit "Duplex") (by decide)]; rfl
    | a :: b :: r, h => rw [if_pos (by simp)]; rfl
  rw [if_neg hb]
  have e : cdpLine env (t, v) = ([], true) := by
    unfold cdpLine
    dsimp only
    split <;> first | omega | rfl
  rw [e]; rfl

theorem cdpHeaderCheckP_view {m : Bytes} {c : Cur} {ver ttl x y : UInt8} {r : Bytes} (h : View m c (ver :: ttl :: x :: y :: r))
    (env : PrintEnv) (s : Msg) :
    cdpHeaderCheckP env m c s =
      if ver = 1 ∨ ver = 2 then
        ⟨labelled (lit "CDP Version") (decimal ver.toNat) ++ labelled (lit "Holdtime") (decimal (secondsLeft env ttl.toNat)),
          .ok { s with proto := (if ver = 1 then 5 else 1), ttl := ttl.toNat }⟩
      else quiet .fail := by
  have hlen := h.len
  unfold cdpHeaderCheckP
  simp only [List.length_cons] at hlen
  rw [if_neg (by omega), h.rd (n := 4) (by simp)]
  simp only [Pr.bind_eq, Pr.bind_quiet_ok, List.take_succ_cons, List.take_zero, List.drop_succ_cons,
    List.drop_zero, beNat_1, Pr.pure_eq, holdText_eq]
  have hvl := ver.toNat_lt
  rw [decimal16_eq (by omega)]
  have e1 : lit "CDP Version: " = lit "CDP Version" ++ [0x3a, 0x20] := by decide
  have e2 : lit "\nHoldtime: " = [0x0a] ++ (lit "Holdtime" ++ [0x3a, 0x20]) := by decide
  have e3 : lit "\n" = [0x0a] := by decide
  rw [e1, e2, e3]
  by_cases hv : ver = 1 ∨ ver = 2
  · rw [if_pos hv]
    rcases hv with rfl | rfl <;> simp [labelled]
  · rw [if_neg hv, if_pos]
    have n1 : ver.toNat ≠ 1 := fun h => hv (Or.inl ((u8_1 ver).mp h))
    have n2 : ver.toNat ≠ 2 := fun h => hv (Or.inr ((u8_2 ver).mp h))
    omega

theorem cdpLoopP_eq (env : PrintEnv) (fuel : Nat) (m : Bytes) (c : Cur) (ts : List Tlv) (rest : Bytes)
    (h : View m c (cdpEnc ts ++ rest)) (hf : (cdpEnc ts ++ rest).length < fuel) (hv : rest.length < 65532) (hw : CdpWf ts)
    (hr : rest = [] ∨ CdpCut rest) :
    (cdpLoopP env m fuel c).text = (cdpLines env ts).1 ∧
      (cdpLoopP env m fuel c).res =
        if (cdpLines env ts).2 ∧ rest = [] then .ok ⟨c.pos + (cdpEnc ts).length, 0⟩ else .fail := by
  induction ts generalizing fuel c with
  | nil =>
    cases fuel with
    | zero => omega
    | succ fuel =>
      have e : cdpEnc [] ++ rest = rest := rfl
      rw [e] at h hf
      have hlen := h.len
      unfold cdpLoopP
      rcases hr with rfl | hr
      · rw [if_pos (by simpa using hlen)]
        refine ⟨rfl, ?_⟩
        cases c
        simp_all [cdpLines, cdpEnc]
      · have hne : rest ≠ [] := by
          rintro rfl
          simp [CdpCut] at hr
        have hl0 : rest.length ≠ 0 := fun h => hne (List.length_eq_zero_iff.mp h)
        rw [if_neg (by omega), h.grabCdpTlv, if_neg (show ¬ ((cdpLines env []).2 = true ∧ rest = []) from fun h => hne h.2)]
        rcases hr with hr | hr
        · rw [if_neg (by omega)]; exact ⟨rfl, rfl⟩
        · rw [if_pos hr.1]
          simp only [Pr.bind_eq, Pr.bind_quiet_ok]
          rw [if_pos]
          · exact ⟨rfl, rfl⟩
          · have hb : beNat ((rest.drop 2).take 2) < 65536 := by
              obtain ⟨a, b, x, y, r, rfl⟩ := exists_four hr.1
              exact beNat_lt_2 x y
            unfold sub16
            omega
  | cons t ts ih =>
    cases fuel with
    | zero => omega
    | succ fuel =>
      obtain ⟨ty, tv⟩ := t
      have hwt := hw (ty, tv) (by simp)
      dsimp only at hwt
      unfold cdpLoopP
      have hlen := h.len
      have hl1 := cdpEnc1_length (ty, tv)
      rw [cdpEnc_cons, List.append_assoc] at h hlen hf
      generalize hR : cdpEnc ts ++ rest = R at *
      simp only [List.length_append, hl1] at hlen hf
      rw [if_neg (by omega), h.grabCdpTlv, if_pos (by simp [hl1]; omega)]
      have et : beNat ((cdpEnc1 (ty, tv) ++ R).take 2) = ty := by
        have : (cdpEnc1 (ty, tv) ++ R).take 2 = be16 ty := by simp [cdpEnc1, be16]
        rw [this, beNat_be16]; omega
      have el : sub16 (beNat (((cdpEnc1 (ty, tv) ++ R).drop 2).take 2)) 4 = tv.length := by
        have : ((cdpEnc1 (ty, tv) ++ R).drop 2).take 2 = be16 (tv.length + 4) := by
          simp [cdpEnc1, be16]
        rw [this, beNat_be16]; unfold sub16; omega
      rw [et, el]
      simp only [Pr.bind_eq, Pr.bind_quiet_ok]
      have h4 := h.skip (n := 4) (by simp [hl1]; omega)
      have ed : (cdpEnc1 (ty, tv) ++ R).drop 4 = tv ++ R := by simp [cdpEnc1, be16]
      rw [ed] at h4
      rw [if_neg (by omega)]
      have hval := h4.sub (n := tv.length) (by simp)
      simp only [List.take_left] at hval
      rw [cdpTlvP_view hval, h4.skip_eq, if_pos (by simp)]
      have hrest := h4.skip (n := tv.length) (by simp)
      simp only [List.drop_left] at hrest
      simp only [cdpLines]
      rcases Bool.eq_false_or_eq_true (cdpLine env (ty, tv)).2 with hc | hc
      case inr => simp [prIf, hc]
      case inl =>
        simp only [prIf, hc, if_true, Pr.bind_mk_ok, Pr.bind_quiet_ok]
        subst hR
        obtain ⟨i1, i2⟩ := ih fuel _ hrest (by omega) (fun t ht => hw t (by simp [ht]))
        rw [i1, i2]
        refine ⟨rfl, ?_⟩
        simp only [cdpEnc_cons, List.length_append, hl1]
        rw [show c.pos + (tv.length + 4 + (cdpEnc ts).length) = c.pos + 4 + tv.length + (cdpEnc ts).length by omega]

/-- Everything `cdp_decode` prints for a frame, and its outcome. -/
theorem cdpDecodeP_eq (env : PrintEnv) (f pad : Bytes) (ver ttl k0 k1 : UInt8) (ts : List Tlv) (rest : Bytes) (s : Msg) (h1 : 26 ≤ f.length)
    (h2 : f.length ≤ 1518) (hf : CdpFrame f ([ver, ttl, k0, k1] ++ (cdpEnc ts ++ rest))) (hw : CdpWf ts) (hr : rest = [] ∨ CdpCut rest) :
    (cdpDecodeP env (f ++ pad) f.length s).text = (cdpReport env ver ttl ts).1 ∧
    (cdpDecodeP env (f ++ pad) f.length s).res =
      if (cdpReport env ver ttl ts).2 ∧ rest = [] then .ok ({ s with proto := (if ver = 1 then 5 else 1), ttl := ttl.toNat }, f.length)
      else .fail := by
  unfold cdpDecodeP cdpCheck
  rcases llc_cases CDP_DST CDP_ORG CDP_PID [0x20, 0x00] f pad (by decide) rfl rfl (by decide) h1 h2 with
    ⟨ha, hn⟩ | ⟨pre, payload', e, hpre, hok, hview, hsub, hpl, huniq⟩
  · exact absurd ⟨_, hf⟩ hn
  have := huniq _ hf
  subst this
  rw [hok]
  simp only [Pr.bind_eq, Pr.bind_quiet_ok, hsub]
  simp only [List.cons_append, List.nil_append] at hview hpl e ⊢
  rw [cdpHeaderCheckP_view hview]
  unfold cdpReport
  by_cases hv : ver = 1 ∨ ver = 2
  · rw [if_pos hv, if_pos hv]
    simp only [Pr.bind_mk_ok]
    have h4 := hview.skip (n := 4) (by simp)
    simp only [List.drop_succ_cons, List.drop_zero] at h4
    simp only [List.length_cons] at hpl h4 ⊢
    obtain ⟨i1, i2⟩ := cdpLoopP_eq env ((cdpEnc ts ++ rest).length + 1 + 1 + 1 + 1 + 1) _ _ ts rest h4 (by omega)
      (by simp only [List.length_append] at hpl; omega) hw hr
    generalize hL : cdpLoopP env (f ++ pad) ((cdpEnc ts ++ rest).length + 1 + 1 + 1 + 1 + 1)
      { pos := pre.length + 4, length := (cdpEnc ts ++ rest).length + 1 + 1 + 1 + 1 - 4 } = L at i1 i2 ⊢
    obtain ⟨x, rr⟩ := L
    dsimp only at i1 i2
    subst i1
    by_cases hc : (cdpLines env ts).2 = true ∧ rest = []
    · rw [if_pos hc] at i2 ⊢
      subst i2
      simp only [Pr.bind_mk_ok, Pr.pure_eq, Pr.quiet_text, Pr.quiet_res, List.append_nil, true_and]
      have := congrArg List.length e
      simp only [List.length_append, List.length_cons, hc.2, List.length_nil] at this
      rw [Res.ok.injEq, Prod.mk.injEq]
      exact ⟨rfl, by omega⟩
    · rw [if_neg hc] at i2 ⊢
      subst i2
      simp
  · rw [if_neg hv, if_neg hv]
    simp

end Ladvd
