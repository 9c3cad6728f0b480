import Verif.Lemmas.CdpDecode
/-!
# The LLDP decoder against its specification
-/

namespace Ladvd

open Spec

theorem lldpCapMap_eq (lc : Nat) : lldpCapMap lc = lldpCaps lc := by
  unfold lldpCapMap lldpCaps
  split
  · rfl
  · cases lc.testBit 0 <;> cases lc.testBit 1 <;> cases lc.testBit 2 <;> cases lc.testBit 3 <;>
      cases lc.testBit 4 <;> cases lc.testBit 5 <;> cases lc.testBit 6 <;> rfl

theorem lldpCaps_lt (lc : Nat) : lldpCaps lc < 512 := by
  unfold lldpCaps
  repeat' split
  all_goals omega

theorem u8_eq_lit (a : UInt8) (n : Nat) (hn : n < 256) : a.toNat = n ↔ a = UInt8.ofNat n := by
  constructor
  · intro h; apply UInt8.toNat_inj.mp; rw [h, UInt8.toNat_ofNat']; omega
  · rintro rfl; rw [UInt8.toNat_ofNat']; omega

theorem lldpChassisId_view {m : Bytes} {c : Cur} {v : Bytes} (h : View m c v) (print : Bool) (s : Msg) :
    lldpChassisId m print c s = Res.ofOption (chassisMeaning print s v) := by
  have hlen := h.len
  unfold lldpChassisId
  match v, h, hlen with
  | [], h, hlen => rw [if_pos (by simp at hlen; omega)]; rfl
  | [a], h, hlen => rw [if_pos (by simp at hlen; omega)]; rfl
  | sub :: x :: r, h, hlen =>
    simp only [List.length_cons] at hlen
    simp only [chassisMeaning, List.length_cons]
    by_cases hl : r.length + 1 > 255
    · rw [if_pos (by omega), if_pos hl]; rfl
    · rw [if_neg (by omega), if_neg hl]
      cases print
      · rfl
      · simp only [Bool.not_true, Bool.false_eq_true, if_false]
        rw [h.grab 1, if_pos (by simp)]
        have h1 := h.skip (n := 1) (by simp)
        simp only [List.drop_succ_cons, List.drop_zero] at h1
        simp only [Res.bind_eq, Res.bind_ok, List.take_succ_cons, List.take_zero, beNat_1,
          u8_eq_lit _ _ (show 1 < 256 by omega), u8_eq_lit _ _ (show 2 < 256 by omega),
          u8_eq_lit _ _ (show 3 < 256 by omega), u8_eq_lit _ _ (show 4 < 256 by omega),
          u8_eq_lit _ _ (show 5 < 256 by omega), u8_eq_lit _ _ (show 6 < 256 by omega),
          u8_eq_lit _ _ (show 7 < 256 by omega)]
        by_cases c1 : sub ∈ [1, 2, 3, 6, 7]
        · have c1' : sub = 1 ∨ sub = 2 ∨ sub = 3 ∨ sub = 6 ∨ sub = 7 := by simpa using c1
          rw [if_pos c1]
          have := h1.strCopy
          simp only at this
          rw [this]
          rcases c1' with rfl | rfl | rfl | rfl | rfl <;> simp [tlvStrCopyVal_eq]
        · have c1' : ¬ (sub = 1 ∨ sub = 2 ∨ sub = 3 ∨ sub = 6 ∨ sub = 7) := by simpa using c1
          rw [if_neg c1, if_neg (by simpa using c1')]
          have hl1 := h1.len
          simp only at hl1
          have ha := fun af => h1.addr af (x :: r).length (by simp)
          simp only [hl1] at ha ⊢
          by_cases c4 : sub = 4
          · subst c4
            simp only [ha, PEER_ADDR_802]
            by_cases h6 : (x :: r).length = 6
            · have : r.length = 5 := by simpa using h6
              simp [showAddr, this]
              exact List.take_of_length_le (by omega)
            · have : r.length ≠ 5 := by simpa using h6
              simp [showAddr, this]
          · rw [if_neg (by simpa using c4), if_neg c4]
            by_cases c5 : sub = 5
            · subst c5
              rw [hl1] at h1
              rw [h1.grab 1]
              have h2 := h1.skip (n := 1) (by simp)
              simp only [List.drop_succ_cons, List.drop_zero] at h2
              have ha2 := fun af => h2.addr af r.length (by simp)
              have hl2 := h2.len
              simp only at ha2 hl2
              simp only [List.length_cons, List.headD_cons, List.tail_cons]
              by_cases hx : (x.toNat = 4 ∧ r.length = 4) ∨ (x.toNat = 5 ∧ r.length = 16) ∨
                (x.toNat = 6 ∧ r.length = 6)
              · simp [showAddr, ha2, beNat_1, hx]
              · simp [showAddr, ha2, beNat_1, hx]
            · rw [if_neg (by simpa using c5), if_neg c5]; rfl

theorem lldpPortId_view {m : Bytes} {c : Cur} {v : Bytes} (h : View m c v) (print : Bool) (s : Msg) :
    lldpPortId m print c s = Res.ofOption (portMeaning print s v) := by
  have hlen := h.len
  unfold lldpPortId
  match v, h, hlen with
  | [], h, hlen => rw [if_pos (by simp at hlen; omega)]; rfl
  | [a], h, hlen => rw [if_pos (by simp at hlen; omega)]; rfl
  | sub :: x :: r, h, hlen =>
    simp only [List.length_cons] at hlen
    simp only [portMeaning, List.length_cons]
    by_cases hl : r.length + 1 > 255
    · rw [if_pos (by omega), if_pos hl]; rfl
    · rw [if_neg (by omega), if_neg hl]
      rw [h.grab 1, if_pos (by simp)]
      have h1 := h.skip (n := 1) (by simp)
      simp only [List.drop_succ_cons, List.drop_zero] at h1
      simp only [Res.bind_eq, Res.bind_ok, List.take_succ_cons, List.take_zero, beNat_1,
        u8_eq_lit _ _ (show 1 < 256 by omega), u8_eq_lit _ _ (show 2 < 256 by omega),
        u8_eq_lit _ _ (show 3 < 256 by omega), u8_eq_lit _ _ (show 5 < 256 by omega),
        u8_eq_lit _ _ (show 6 < 256 by omega), u8_eq_lit _ _ (show 7 < 256 by omega)]
      by_cases c1 : sub ∈ [1, 2, 5, 6, 7]
      · have c1' : sub = 1 ∨ sub = 2 ∨ sub = 5 ∨ sub = 6 ∨ sub = 7 := by simpa using c1
        rw [if_pos c1]
        have := h1.strCopy
        simp only at this
        rw [this]
        rcases c1' with rfl | rfl | rfl | rfl | rfl <;> cases print <;>
          simp [tlvStrCopyVal_eq, showOr, peerStr_eq]
      · have c1' : ¬ (sub = 1 ∨ sub = 2 ∨ sub = 5 ∨ sub = 6 ∨ sub = 7) := by simpa using c1
        rw [if_neg c1, if_neg (by simpa using c1')]
        have hl1 := h1.len
        simp only at hl1
        have ha := fun af => h1.addr af (x :: r).length (by simp)
        simp only [hl1] at ha ⊢
        by_cases c3 : sub = 3
        · subst c3
          simp only [ha, PEER_ADDR_802]
          cases print
          · simp
          · by_cases h6 : (x :: r).length = 6
            · have : r.length = 5 := by simpa using h6
              simp [showAddr, this]
              exact List.take_of_length_le (by omega)
            · have : r.length ≠ 5 := by simpa using h6
              simp [showAddr, this]
        · rw [if_neg (by simpa using c3), if_neg c3]; rfl

theorem lldpMgmtAddr_view {m : Bytes} {c : Cur} {v : Bytes} (h : View m c v) (print : Bool) (s : Msg) :
    lldpMgmtAddr m print c s = Res.ofOption (mgmtMeaning print s v) := by
  unfold lldpMgmtAddr
  rw [h.grab 1]
  match v, h with
  | [], h => simp [mgmtMeaning]
  | [a], h =>
    have h1 := h.skip (n := 1) (by simp)
    rw [if_pos (by simp)]
    simp only [Res.bind_eq, Res.bind_ok]
    rw [h1.grab 1]
    simp [mgmtMeaning]
  | alen :: fam :: r, h =>
    have h1 := h.skip (n := 1) (by simp)
    rw [if_pos (by simp)]
    simp only [Res.bind_eq, Res.bind_ok]
    rw [h1.grab 1, if_pos (by simp)]
    have h2 := h1.skip (n := 1) (by simp)
    simp only [List.drop_succ_cons, List.drop_zero] at h2
    simp only [Res.bind_ok, List.take_succ_cons, List.take_zero, beNat_1, List.drop_succ_cons, List.drop_zero]
    have hl2 := h2.len
    simp only at hl2
    have e : (alen.toNat + 256 - 1) % 256 = (alen - 1).toNat := by
      have := alen.toNat_lt
      rw [UInt8.toNat_sub]
      have e1 : (1 : UInt8).toNat = 1 := rfl
      rw [e1]; congr 1; omega
    rw [hl2, e]
    simp only [mgmtMeaning]
    generalize (alen - 1).toNat = n
    simp only [u8_eq_lit _ _ (show 1 < 256 by omega), u8_eq_lit _ _ (show 2 < 256 by omega),
      u8_eq_lit _ _ (show 6 < 256 by omega)]
    have e1 : UInt8.ofNat 1 = 1 := rfl
    have e2 : UInt8.ofNat 2 = 2 := rfl
    have e6 : UInt8.ofNat 6 = 6 := rfl
    rw [e1, e2, e6]
    by_cases hfam : fam = 1 ∨ fam = 2 ∨ fam = 6
    · by_cases hn : r.length ≤ n
      · rw [if_pos hn]
        have hn' : ¬ n < r.length := by omega
        rcases hfam with rfl | rfl | rfl <;>
          simp [PEER_ADDR_INET4, PEER_ADDR_INET6, PEER_ADDR_802, hn']
      · have ha := fun af => h2.addr af n (by omega)
        simp only at ha
        have hn' : n < r.length := by omega
        rw [if_neg hn]
        simp only [hn', not_true, if_false, ha]
        rcases hfam with rfl | rfl | rfl
        · cases print <;> cases hi : s.peer.inet4 <;> by_cases h4 : n = 4 <;>
            simp [Peer.addr, Peer.setAddr, PEER_ADDR_INET4, hi, h4, showOr, peerStr_eq]
        · cases print <;> cases hi : s.peer.inet6 <;> by_cases h4 : n = 16 <;>
            simp [Peer.addr, Peer.setAddr, PEER_ADDR_INET4, PEER_ADDR_INET6, hi, h4, showOr, peerStr_eq]
        · cases print <;> cases hi : s.peer.mac <;> by_cases h4 : n = 6 <;>
            simp [Peer.addr, Peer.setAddr, PEER_ADDR_INET4, PEER_ADDR_INET6, PEER_ADDR_802, hi, h4, showOr,
              peerStr_eq]
    · rw [if_pos hfam]
      have : ¬ fam = 1 ∧ ¬ fam = 2 ∧ ¬ fam = 6 := by simpa [not_or] using hfam
      simp [this]

theorem lldpPrivate_view {m : Bytes} {c : Cur} {v : Bytes} (h : View m c v) (print : Bool) (s : Msg) :
    lldpPrivate m print c s = Res.ofOption (orgMeaning print s v) := by
  unfold lldpPrivate orgMeaning
  rw [h.grabBytes 3]
  by_cases h3 : v.length < 3
  · rw [if_neg (by omega), if_pos h3]; rfl
  rw [if_pos (by omega), if_neg h3]
  simp only [Res.bind_eq, Res.bind_ok]
  have h1 := h.skip (n := 3) (by omega)
  by_cases ho : v.take 3 = [0x00, 0x80, 0xc2]
  · rw [if_pos ho, if_neg (by simpa using ho)]
    generalize hr : v.drop 3 = r at h1
    unfold lldpPrivate8021
    rw [h1.grab 1]
    match r, h1 with
    | [], h1 => simp
    | sub :: r, h1 =>
      rw [if_pos (by simp)]
      have h2 := h1.skip (n := 1) (by simp)
      simp only [List.drop_succ_cons, List.drop_zero] at h2
      have hl2 := h2.len
      simp only at hl2
      simp only [Res.bind_eq, Res.bind_ok, List.take_succ_cons, List.take_zero, beNat_1,
        u8_eq_lit _ _ (show 1 < 256 by omega), hl2]
      by_cases hs : sub = 1
      · subst hs
        by_cases hl : r.length = 2
        · obtain ⟨a, b, rfl⟩ := exists_two' hl
          rw [hl2] at h2
          have hg := h2.grab 2
          simp only [List.length_cons, List.length_nil] at hg
          simp [hg, decimal16_eq (beNat_lt_2 a b), peerStr_eq]
          cases print <;> simp [showOr]
        · simp [hl]
      · rw [if_neg (by simpa using hs), if_pos hs]; rfl
  · rw [if_neg ho, if_pos ho]; rfl

theorem and_or_iff (avail act : Nat) : avail = act ||| avail ↔ act &&& avail = act := by
  constructor
  · intro h
    apply Nat.eq_of_testBit_eq
    intro i
    have := congrArg (fun x => x.testBit i) h
    simp only [Nat.testBit_or, Nat.testBit_and] at this ⊢
    revert this
    cases act.testBit i <;> cases avail.testBit i <;> decide
  · intro h
    apply Nat.eq_of_testBit_eq
    intro i
    have := congrArg (fun x => x.testBit i) h
    simp only [Nat.testBit_or, Nat.testBit_and] at this ⊢
    revert this
    cases act.testBit i <;> cases avail.testBit i <;> decide

theorem lldpSystemCap_view {m : Bytes} {c : Cur} {v : Bytes} (h : View m c v) (print : Bool) (s : Msg) :
    lldpSystemCap m print c s = Res.ofOption (lldpMeaning print s (7, v)) := by
  have hlen := h.len
  unfold lldpSystemCap lldpMeaning
  simp only [hlen]
  by_cases hl : v.length = 4
  · match v, h, hl with
    | [a, b, x, y], h, hl =>
      rw [if_neg (by simp), h.grab 2, if_pos (by simp)]
      have h2 := h.skip (n := 2) (by simp)
      simp only [Res.bind_eq, Res.bind_ok]
      rw [h2.grab 2, if_pos (by simp)]
      simp only [Res.bind_ok, List.take_succ_cons, List.take_zero, List.drop_succ_cons, List.drop_zero,
        lldpCapMap_eq, tlvStrCap_lt (lldpCaps_lt _)]
      generalize beNat [a, b] = avail
      generalize beNat [x, y] = act
      have hao := and_or_iff avail act
      by_cases hc : act &&& avail = act
      · have hc' := hao.mpr hc
        rw [if_neg (by simpa using hc')]
        by_cases h7 : avail.testBit 7 = true ∧ avail ≠ 128
        · rw [if_pos h7]; simp [hc, h7]
        · rw [if_neg h7]
          cases print <;> simp [hc, h7, peerStr_eq]
      · rw [if_pos (fun h => hc (hao.mp h))]
        simp [hc]
  · simp [hl]

theorem lldpTlv_view {m : Bytes} {c : Cur} {v : Bytes} (h : View m c v) (print : Bool) (t : Nat) (s : Msg)
    (ht : t ≠ 0) : lldpTlv m print t c s = Res.ofOption (lldpMeaning print s (t, v)) := by
  have hlen := h.len
  unfold lldpTlv
  by_cases h5 : t = 5
  · subst h5
    simp only [lldpMeaning, lldpSystemName, if_true, hlen]
    by_cases hl : v.length > 255
    · simp [hl]
    · cases hh : s.peer.hostname
      · have := h.strCopy
        rw [hlen] at this
        cases print <;> simp [hl, this, tlvStrCopyVal_eq, peerStr, hh]
      · simp [hl]
  rw [if_neg h5]
  by_cases h46 : t = 4 ∨ t = 6
  · rw [if_pos h46]
    unfold lldpDescr
    rw [h.strCopy]
    rcases h46 with rfl | rfl <;> cases print <;> simp [lldpMeaning, showOr, tlvStrCopyVal_eq, peerStr_eq]
  rw [if_neg h46]
  by_cases h7 : t = 7
  · subst h7; rw [if_pos rfl]; exact lldpSystemCap_view h print s
  rw [if_neg h7]
  have h4 : t ≠ 4 := fun h => h46 (Or.inl h)
  have h6 : t ≠ 6 := fun h => h46 (Or.inr h)
  simp only [lldpMeaning, if_neg ht, if_neg h5, if_neg h4, if_neg h6, if_neg h7]
  by_cases h8 : t = 8
  · rw [if_pos h8, if_pos h8]; exact lldpMgmtAddr_view h print s
  rw [if_neg h8, if_neg h8]
  by_cases h127 : t = 127
  · rw [if_pos h127, if_pos h127]; exact lldpPrivate_view h print s
  rw [if_neg h127, if_neg h127]
  by_cases hr : 8 < t ∧ t < 127
  · rw [if_pos hr, if_pos (by omega)]; rfl
  · rw [if_neg hr, if_neg (by omega)]; rfl

/-! ## Loop -/

theorem lldpEnc_cons (t : Tlv) (ts : List Tlv) : lldpEnc (t :: ts) = lldpEnc1 t ++ lldpEnc ts := rfl
theorem lldpEnc_append (a b : List Tlv) : lldpEnc (a ++ b) = lldpEnc a ++ lldpEnc b := by
  simp [lldpEnc]

theorem lldpEnc1_length (t : Tlv) : (lldpEnc1 t).length = t.2.length + 2 := by
  simp [lldpEnc1]; omega

/-- `GRAB_LLDP_TLV` when two more bytes are readable after the window. -/
theorem View.grabLldpTlv {m : Bytes} {c : Cur} {v : Bytes} (h : View m c v)
    (hpad : c.pos + v.length + 2 ≤ m.length) :
    grabLldpTlv m c = if 2 ≤ v.length then
      .ok (beNat (v.take 2) / 512, beNat (v.take 2) % 512, ⟨c.pos + 2, c.length - 2⟩) else .fail := by
  unfold Ladvd.grabLldpTlv
  by_cases h2 : 2 ≤ v.length
  · rw [if_pos h2, h.rd h2]
    simp [h.skip_eq, h2]
  · have hr : Ladvd.rd m c.pos 2 = .ok ((m.drop c.pos).take 2) := by
      unfold Ladvd.rd; rw [if_pos (by omega)]
    rw [if_neg h2, hr]
    simp [h.skip_eq, h2]

theorem lldp_hdr (a b : UInt8) (v : Bytes) (h : v.length = beNat [a, b] % 512) :
    lldpEnc1 (beNat [a, b] / 512, v) = a :: b :: v := by
  have : beNat [a, b] / 512 * 512 + v.length = beNat [a, b] := by rw [h]; omega
  simp only [lldpEnc1, this, be16_beNat]
  rfl

theorem lldpEnc1_hdr (t : Tlv) (r : Bytes) (h1 : t.1 < 128) (h2 : t.2.length < 512) :
    beNat ((lldpEnc1 t ++ r).take 2) / 512 = t.1 ∧ beNat ((lldpEnc1 t ++ r).take 2) % 512 = t.2.length := by
  have : (lldpEnc1 t ++ r).take 2 = be16 (t.1 * 512 + t.2.length) := by simp [lldpEnc1, be16]
  rw [this, beNat_be16]; omega

theorem lldpEnc1_drop (t : Tlv) (r : Bytes) : (lldpEnc1 t ++ r).drop 2 = t.2 ++ r := by
  simp [lldpEnc1, be16]

theorem lldpLoop_sound (print : Bool) (fuel : Nat) (m : Bytes) (c : Cur) (v : Bytes) (t0 : Nat) (s : Msg)
    (h : View m c v) (hf : v.length < fuel) (hpad : c.pos + v.length + 2 ≤ m.length) (ht0 : t0 ≠ 0) :
    lldpLoop m print fuel t0 c s = .fail ∨
    (∃ t c' s', t ≠ 0 ∧ lldpLoop m print fuel t0 c s = .ok (t, c', s')) ∨
    (∃ ts trailer s', v = lldpEnc (ts ++ [(0, [])]) ++ trailer ∧ LldpWf ts ∧
      ts.foldlM (lldpMeaning print) s = some s' ∧
      lldpLoop m print fuel t0 c s =
        .ok (0, ⟨c.pos + (lldpEnc (ts ++ [(0, [])])).length, trailer.length⟩, s')) := by
  induction fuel generalizing c v t0 s with
  | zero => omega
  | succ fuel ih =>
    unfold lldpLoop
    have hlen := h.len
    by_cases h0 : c.length = 0
    · right; left
      exact ⟨t0, c, s, ht0, by rw [if_pos h0]⟩
    · rw [if_neg h0, h.grabLldpTlv hpad]
      by_cases h2 : 2 ≤ v.length
      · rw [if_pos h2]
        obtain ⟨a, b, r, rfl⟩ := exists_two h2
        simp only [Res.bind_eq, Res.bind_ok, List.take_succ_cons, List.take_zero]
        have hr := h.skip h2
        simp only [List.drop_succ_cons, List.drop_zero] at hr
        have hrl := hr.len
        simp only at hrl
        rw [hrl] at hr ⊢
        have hlt := beNat_lt_2 a b
        simp only [List.length_cons] at hf hpad
        by_cases hs : r.length < beNat [a, b] % 512
        · rw [if_pos hs]; left; rfl
        rw [if_neg hs]
        by_cases ht : beNat [a, b] / 512 = 0
        · rw [if_pos ht]
          by_cases hL : beNat [a, b] % 512 = 0
          · right; right
            have hz : beNat [a, b] = 0 := by omega
            have hab : [a, b] = be16 0 := by rw [← hz, be16_beNat]
            simp only [be16, List.cons.injEq, and_true] at hab
            refine ⟨[], r, s, ?_, by simp [LldpWf], rfl, ?_⟩
            · rw [hab.1, hab.2]; rfl
            · rw [if_neg (by simpa using hL), ht]; rfl
          · rw [if_pos hL]; left; rfl
        · rw [if_neg ht]
          generalize hL : beNat [a, b] % 512 = L at *
          have hval := hr.sub (n := L) (by omega)
          simp only at hval
          rw [lldpTlv_view hval _ _ _ ht, hr.skip_eq L, if_pos (by omega)]
          have hrest := hr.skip (n := L) (by omega)
          simp only at hrest
          cases hm : lldpMeaning print s (beNat [a, b] / 512, r.take L) with
          | none => left; rfl
          | some s1 =>
            simp only [Res.ofOption_some, Res.bind_ok]
            rcases ih _ _ _ s1 hrest (by simp; omega) (by simp; omega) ht with
              hfail | ⟨t, c', s', hn, he⟩ | ⟨ts, trailer, s', e1, e2, e3, e4⟩
            · left; exact hfail
            · right; left; exact ⟨t, c', s', hn, he⟩
            · right; right
              refine ⟨(beNat [a, b] / 512, r.take L) :: ts, trailer, s', ?_, ?_, ?_, ?_⟩
              · rw [List.cons_append, lldpEnc_cons, List.append_assoc, ← e1,
                  lldp_hdr a b _ (by simp; omega)]
                simp
              · intro t ht
                rcases List.mem_cons.mp ht with rfl | ht
                · refine ⟨by simp only; omega, ?_⟩
                  simp; omega
                · exact e2 t ht
              · simp [hm, e3]
              · rw [e4]
                simp only [List.cons_append, lldpEnc_cons, List.length_append, lldpEnc1_length,
                  List.length_take, Res.ok.injEq, Prod.mk.injEq, Cur.mk.injEq, and_true, true_and]
                omega
      · rw [if_neg h2]; left; rfl

theorem lldpLoop_complete (print : Bool) (fuel : Nat) (m : Bytes) (c : Cur) (ts : List Tlv) (trailer : Bytes)
    (t0 : Nat) (s s' : Msg)
    (h : View m c (lldpEnc (ts ++ [(0, [])]) ++ trailer))
    (hf : (lldpEnc (ts ++ [(0, [])]) ++ trailer).length < fuel) (hw : LldpWf ts)
    (hm : ts.foldlM (lldpMeaning print) s = some s') 
    (hpad : c.pos + (lldpEnc (ts ++ [(0, [])]) ++ trailer).length + 2 ≤ m.length) :
    lldpLoop m print fuel t0 c s =
      .ok (0, ⟨c.pos + (lldpEnc (ts ++ [(0, [])])).length, trailer.length⟩, s') := by
  induction ts generalizing fuel c t0 s with
  | nil =>
    cases fuel with
    | zero => omega
    | succ fuel =>
      unfold lldpLoop
      have hlen := h.len
      have hv : lldpEnc ([] ++ [(0, [])]) ++ trailer = 0 :: 0 :: trailer := rfl
      rw [hv] at h hlen hpad
      simp only [List.length_cons] at hlen
      rw [if_neg (by omega), h.grabLldpTlv hpad, if_pos (by simp)]
      have hz : beNat [(0 : UInt8), 0] = 0 := rfl
      simp only [Res.bind_eq, Res.bind_ok, List.take_succ_cons, List.take_zero, hz]
      simp at hm
      subst hm
      simp [lldpEnc, lldpEnc1, hlen]
  | cons t ts ih =>
    cases fuel with
    | zero => omega
    | succ fuel =>
      have hwt := hw t (by simp)
      unfold lldpLoop
      have hlen := h.len
      have hl1 := lldpEnc1_length t
      simp only [List.foldlM_cons] at hm
      have ht : t.1 ≠ 0 := by
        intro h0
        have : lldpMeaning print s t = none := by unfold lldpMeaning; simp [h0]
        simp [this] at hm
      rw [List.cons_append, lldpEnc_cons, List.append_assoc] at h hlen hf hpad
      rw [List.length_append] at hlen hf
      rw [if_neg (by omega), h.grabLldpTlv hpad, if_pos (by simp; omega)]
      obtain ⟨et, el⟩ := lldpEnc1_hdr t (lldpEnc (ts ++ [(0, [])]) ++ trailer) hwt.1 hwt.2
      rw [et, el]
      simp only [Res.bind_eq, Res.bind_ok]
      have h2 := h.skip (n := 2) (by simp; omega)
      rw [lldpEnc1_drop] at h2
      rw [if_neg (by omega), if_neg ht]
      have hval := h2.sub (n := t.2.length) (by simp)
      rw [List.take_left] at hval
      rw [lldpTlv_view hval _ _ _ ht, h2.skip_eq, if_pos (by simp)]
      have hrest := h2.skip (n := t.2.length) (by simp)
      rw [List.drop_left] at hrest
      cases hc : lldpMeaning print s t with
      | none => simp [hc] at hm
      | some s1 =>
        simp only [hc] at hm
        simp only [Res.ofOption_some, Res.bind_ok]
        rw [ih fuel _ t.1 s1 hrest (by omega) (fun t ht => hw t (by simp [ht])) hm
          (by rw [List.length_append] at hpad; simp only; omega)]
        simp only [List.cons_append, lldpEnc_cons, List.length_append, hl1, Res.ok.injEq, Prod.mk.injEq,
          Cur.mk.injEq, and_true, true_and]
        omega

end Ladvd
