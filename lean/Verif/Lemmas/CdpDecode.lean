import Verif.Lemmas.View
import Verif.Lemmas.Vis
import Verif.Spec.Wire
/-!
# The CDP decoder against its specification
-/

namespace Ladvd

open Spec

/-- Error exit for `none`. -/
def Res.ofOption {α : Type} : Option α → Res α
  | some a => .ok a
  | none => .fail

@[simp] theorem Res.ofOption_some {α : Type} (a : α) : Res.ofOption (some a) = .ok a := rfl
@[simp] theorem Res.ofOption_none {α : Type} : Res.ofOption (none : Option α) = .fail := rfl

theorem peerStr_eq (x : Option Bytes) (y : Bytes) : peerStr x y = first x y := by
  cases x <;> rfl

theorem tlvStrCap_lt {n : Nat} (h : n < 512) : tlvStrCap n = capLetters n := by
  have : ∀ k : Fin 512, tlvStrCap k = capLetters k := by decide +kernel
  exact this ⟨n, h⟩

theorem cdpCapMap_eq (cc : Nat) : cdpCapMap cc = cdpCaps cc := by
  unfold cdpCapMap cdpCaps
  cases cc.testBit 0 <;> cases cc.testBit 1 <;> cases cc.testBit 2 <;> cases cc.testBit 3 <;>
    cases cc.testBit 4 <;> cases cc.testBit 6 <;> cases cc.testBit 7 <;> rfl

theorem cdpCaps_lt (cc : Nat) : cdpCaps cc < 512 := by
  unfold cdpCaps
  repeat' split
  all_goals omega

theorem decimal16_eq {n : Nat} (h : n < 65536) : decimal16 n = decimal n := by
  unfold decimal16 decimal
  by_cases h1 : n < 10
  · have e : n / 10 = 0 := by omega
    simp [decimalAux, h1, e]
  by_cases h2 : n < 100
  · have e : n / 10 / 10 = 0 := by omega
    have e1 : n / 10 ≠ 0 := by omega
    simp [decimalAux, h1, h2, e, e1]
  by_cases h3 : n < 1000
  · have e : n / 10 / 10 / 10 = 0 := by omega
    have e1 : n / 10 ≠ 0 := by omega
    have e2 : n / 10 / 10 ≠ 0 := by omega
    simp only [decimalAux, h1, h2, h3, e, e1, e2, if_true, if_false]
    simp [Nat.div_div_eq_div_mul]
  by_cases h4 : n < 10000
  · have e : n / 10 / 10 / 10 / 10 = 0 := by omega
    have e1 : n / 10 ≠ 0 := by omega
    have e2 : n / 10 / 10 ≠ 0 := by omega
    have e3 : n / 10 / 10 / 10 ≠ 0 := by omega
    simp only [decimalAux, h1, h2, h3, h4, e, e1, e2, e3, if_true, if_false]
    simp [Nat.div_div_eq_div_mul]
  · have e : n / 10 / 10 / 10 / 10 / 10 = 0 := by omega
    have e1 : n / 10 ≠ 0 := by omega
    have e2 : n / 10 / 10 ≠ 0 := by omega
    have e3 : n / 10 / 10 / 10 ≠ 0 := by omega
    have e4 : n / 10 / 10 / 10 / 10 ≠ 0 := by omega
    simp only [decimalAux, h1, h2, h3, h4, e, e1, e2, e3, e4, if_true, if_false]
    simp [Nat.div_div_eq_div_mul]

theorem exists_one {v : Bytes} (h : v.length = 1) : ∃ a, v = [a] := by
  match v, h with
  | [a], _ => exact ⟨a, rfl⟩

theorem exists_two' {v : Bytes} (h : v.length = 2) : ∃ a b, v = [a, b] := by
  match v, h with
  | [a, b], _ => exact ⟨a, b, rfl⟩

/-! ## Address lists -/

theorem addrEntry_length {v : Bytes} {e : AddrEntry} {r : Bytes} (h : addrEntry v = some (e, r)) :
    r.length + 4 ≤ v.length := by
  unfold addrEntry at h
  split at h
  · split at h
    · simp at h
    · dsimp only at h
      split at h
      · simp at h
      · simp only [Option.some.injEq, Prod.mk.injEq] at h
        obtain ⟨_, rfl⟩ := h
        simp; omega
  · simp at h

theorem cdpAf_view {m : Bytes} {c : Cur} {v : Bytes} (h : View m c v) (pt pl : Nat) (hpl : pl ≤ v.length) :
    cdpAf m c.pos pt pl = .ok
      (if pt = 1 ∧ v.take pl = [0xcc] then PEER_ADDR_INET4
       else if pt = 2 ∧ v.take pl = [0xaa, 0xaa, 0x03, 0x00, 0x00, 0x00, 0x86, 0xdd] then PEER_ADDR_INET6
       else 0) := by
  unfold cdpAf
  by_cases h1 : pt = 1 ∧ pl = 1
  · rw [if_pos h1, h.rd hpl]
    obtain ⟨rfl, rfl⟩ := h1
    simp only [Res.bind_eq, Res.bind_ok, Res.pure_eq, Res.ok.injEq, PROTO_IPV4]
    by_cases hb : v.take 1 = [0xcc] <;> simp [hb]
  · rw [if_neg h1]
    have hl : (v.take pl).length = pl := by simp; omega
    have e1 : ¬ (pt = 1 ∧ v.take pl = [0xcc]) := by
      rintro ⟨ha, hb⟩
      apply h1; refine ⟨ha, ?_⟩
      rw [← hl, hb]; rfl
    rw [if_neg e1]
    by_cases h2 : pt = 2 ∧ pl = 8
    · rw [if_pos h2, h.rd hpl]
      by_cases hb : v.take pl = [0xaa, 0xaa, 0x03, 0x00, 0x00, 0x00, 0x86, 0xdd] <;>
        simp [PROTO_IPV6, h2.1, hb]
    · rw [if_neg h2]
      have e2 : ¬ (pt = 2 ∧ v.take pl = [0xaa, 0xaa, 0x03, 0x00, 0x00, 0x00, 0x86, 0xdd]) := by
        rintro ⟨ha, hb⟩
        apply h2; refine ⟨ha, ?_⟩
        rw [← hl, hb]; rfl
      rw [if_neg e2]

theorem View.addr {m : Bytes} {c : Cur} {v : Bytes} (h : View m c v) (af al : Nat) (hal : al ≤ v.length) :
    tlvStrAddr af m c.pos al =
      if (af = 4 ∧ al = 4) ∨ (af = 5 ∧ al = 16) ∨ (af = 6 ∧ al = 6) then .ok (v.take al) else .fail := by
  unfold tlvStrAddr PEER_ADDR_INET4 PEER_ADDR_INET6 PEER_ADDR_802
  by_cases h4 : af = 4
  · subst h4
    by_cases ha : al = 4
    · subst ha; simp [h.rd hal]
    · simp [ha]
  by_cases h5 : af = 5
  · subst h5
    by_cases ha : al = 16
    · subst ha; simp [h.rd hal]
    · simp [ha]
  by_cases h6 : af = 6
  · subst h6
    by_cases ha : al = 6
    · subst ha; simp [h.rd hal]
    · simp [ha]
  simp [h4, h5, h6]

theorem cdpAddrOne_view {m : Bytes} {c : Cur} {v : Bytes} (h : View m c v) (print : Bool) (s : Msg) :
    cdpAddrOne m print c s =
      match addrEntry v with
      | none => .fail
      | some (e, r) =>
        match addrMeaning print s e with
        | none => .fail
        | some s' => .ok (⟨c.pos + (v.length - r.length), r.length⟩, s') := by
  unfold cdpAddrOne
  rw [h.grab 1]
  match v, h with
  | [], h => simp [addrEntry]
  | [a], h =>
    have h1 := h.skip (n := 1) (by simp)
    rw [if_pos (by simp)]
    simp only [Res.bind_eq, Res.bind_ok]
    rw [h1.grab 1]
    simp [addrEntry]
  | pt :: pl :: r, h =>
    have h1 := h.skip (n := 1) (by simp)
    rw [if_pos (by simp)]
    simp only [Res.bind_eq, Res.bind_ok]
    rw [h1.grab 1, if_pos (by simp)]
    have h2 := h1.skip (n := 1) (by simp)
    simp only [List.drop_succ_cons, List.drop_zero] at h2
    simp only [Res.bind_ok, List.take_succ_cons, List.take_zero, beNat_1, List.drop_succ_cons, List.drop_zero]
    have hl2 := h2.len
    simp only at hl2
    rw [hl2]
    by_cases hs : r.length < pl.toNat + 2
    · rw [if_pos hs]; simp [addrEntry, hs]
    rw [if_neg hs]
    have haf := cdpAf_view h2 pt.toNat pl.toNat (by omega)
    simp only at haf
    rw [haf]
    simp only [Res.bind_ok]
    rw [hl2] at h2
    rw [h2.skip_eq pl.toNat, if_pos (by omega)]
    have h3 := h2.skip (n := pl.toNat) (by omega)
    simp only [Res.bind_ok]
    rw [h3.grab 2, if_pos (by simp; omega)]
    have h4 := h3.skip (n := 2) (by simp; omega)
    simp only [Res.bind_ok]
    simp only [List.drop_drop] at h4
    simp only [addrEntry]
    rw [if_neg hs]
    generalize hal : beNat ((r.drop pl.toNat).take 2) = al
    generalize hr3 : r.drop (pl.toNat + 2) = r3 at *
    have hr3l : r3.length + pl.toNat + 2 = r.length := by rw [← hr3]; simp; omega
    have hl4 := h4.len
    simp only at hl4
    rw [hl4] at h4 ⊢
    by_cases hal2 : r3.length < al
    · simp [hal2]
    simp only [hal2, if_false]
    have hsk := h4.skip_eq al
    rw [if_pos (by omega)] at hsk
    simp only at hsk
    have hta := fun af => h4.addr af al (by omega)
    simp only at hta
    rw [hta, hsk]
    have hlen : (r3.take al).length = al := by simp; omega
    simp only [addrMeaning, hlen]
    have epos : c.pos + 1 + 1 + pl.toNat + 2 + al = c.pos + ((pt :: pl :: r).length - (r3.drop al).length) := by
      simp; omega
    have elen : r3.length - al = (r3.drop al).length := by simp
    rw [epos, elen]
    by_cases c1 : pt.toNat = 1 ∧ r.take pl.toNat = [0xcc]
    · simp only [if_pos c1, PEER_ADDR_INET4]
      by_cases c4 : al = 4
      · cases print <;> simp [c4, showOr, Peer.setAddr, PEER_ADDR_INET4, peerStr_eq]
      · simp [c4]
    · simp only [if_neg c1]
      by_cases c2 : pt.toNat = 2 ∧ r.take pl.toNat = [0xaa, 0xaa, 0x03, 0x00, 0x00, 0x00, 0x86, 0xdd]
      · simp only [if_pos c2, PEER_ADDR_INET6]
        by_cases c4 : al = 16
        · cases print <;>
            simp [c4, showOr, Peer.setAddr, PEER_ADDR_INET4, PEER_ADDR_INET6, peerStr_eq]
        · simp [c4]
      · simp only [if_neg c2]
        simp

theorem addrEntry_view {m : Bytes} {c : Cur} {v : Bytes} (h : View m c v) {e : AddrEntry} {r : Bytes}
    (he : addrEntry v = some (e, r)) : View m ⟨c.pos + (v.length - r.length), r.length⟩ r := by
  have hl := addrEntry_length he
  have hd : r = v.drop (v.length - r.length) := by
    unfold addrEntry at he
    split at he
    · rename_i pt pl x
      split at he
      · simp at he
      · dsimp only at he
        split at he
        · simp at he
        · simp only [Option.some.injEq, Prod.mk.injEq] at he
          obtain ⟨_, rfl⟩ := he
          rename_i hx1 hx2 _
          rw [List.length_drop] at hx2
          rw [List.drop_drop]
          simp only [List.length_drop, List.length_cons]
          rw [show x.length + 1 + 1 - (x.length - (pl.toNat + 2 + beNat ((x.drop pl.toNat).take 2))) =
            (pl.toNat + 2 + beNat ((x.drop pl.toNat).take 2)) + 2 by omega]
          rfl
    · simp at he
  have := h.skip (n := v.length - r.length) (by omega)
  rw [h.len, show v.length - (v.length - r.length) = r.length by omega, ← hd] at this
  exact this

theorem addrLimit_step {count k : Nat} (hc : count < 4294967296) (h : k + 1 = addrLimit count) :
    (count + 4294967296 - 1) % 4294967296 = k ∧ k < 4294967296 ∧ (k ≠ 0 → k = addrLimit k) := by
  unfold addrLimit at *
  refine ⟨?_, ?_, ?_⟩
  · split at h <;> omega
  · split at h <;> omega
  · intro h0; rw [if_neg h0]

theorem addrLimit_pos (count : Nat) : 0 < addrLimit count := by
  unfold addrLimit; split <;> omega

theorem cdpAddrLoop_view (print : Bool) (fuel count n : Nat) (m : Bytes) (c : Cur) (v : Bytes) (s : Msg)
    (h : View m c v) (hf : v.length < fuel) (hn : n = addrLimit count) (hc : count < 4294967296) :
    cdpAddrLoop m print fuel count c s =
      Res.ofOption ((addrEntries n v).bind (fun es => es.foldlM (addrMeaning print) s)) := by
  induction fuel generalizing count n c v s with
  | zero => omega
  | succ fuel ih =>
    cases n with
    | zero => exact absurd hn (Nat.ne_of_lt (addrLimit_pos count))
    | succ k =>
    obtain ⟨hk, hkl, hks⟩ := addrLimit_step hc hn
    unfold cdpAddrLoop
    rw [cdpAddrOne_view h, hk]
    clear hn hk hc
    simp only [addrEntries]
    cases he : addrEntry v with
    | none => simp
    | some er =>
      obtain ⟨e, r⟩ := er
      simp only [Option.bind_eq_bind, Option.bind_some]
      have hr := addrEntry_length he
      have hv := addrEntry_view h he
      cases hm : addrMeaning print s e with
      | none =>
        simp only [Res.bind_eq, Res.bind_fail]
        split
        · simp [hm]
        · cases addrEntries k r <;> simp [hm]
      | some s' =>
        simp only [Res.bind_eq, Res.bind_ok]
        by_cases hstop : r = [] ∨ k = 0
        · rw [if_pos hstop, if_neg]
          · simp [hm]
          · rcases hstop with rfl | rfl
            · simp
            · simp
        · rw [if_neg hstop, if_pos]
          · rw [ih k k _ r s' hv (by omega) (hks (fun h => hstop (Or.inr h))) hkl]
            cases addrEntries k r <;> simp [hm]
          · refine ⟨?_, Nat.pos_of_ne_zero (fun h => hstop (Or.inr h))⟩
            intro h0
            apply hstop; left
            exact List.length_eq_zero_iff.mp h0

/-! ## Single TLVs -/

theorem cdpTlv_view {m : Bytes} {c : Cur} {v : Bytes} (h : View m c v) (print : Bool) (t : Nat) (s : Msg) :
    cdpTlv m print t c s = Res.ofOption (cdpMeaning print s (t, v)) := by
  have hlen := h.len
  unfold cdpTlv
  by_cases h1 : t = 0x01 ∨ t = 0x14
  · rw [if_pos h1]
    have e : cdpMeaning print s (t, v) =
      some (showOr print (shown v) (fun p => { p with hostname := first p.hostname (shown v) }) s) := by
      rcases h1 with rfl | rfl <;> rfl
    rw [e]
    simp only [cdpSystemName, h.strCopy, tlvStrCopyVal_eq]
    cases print <;> simp [showOr, peerStr_eq]
  rw [if_neg h1]
  by_cases h3 : t = 0x03
  · subst h3
    simp only [cdpPortId, h.strCopy, tlvStrCopyVal_eq, cdpMeaning, if_true]
    cases print <;> simp [showOr, peerStr_eq]
  rw [if_neg h3]
  by_cases h4 : t = 0x04
  · subst h4
    simp only [cdpSystemCap, cdpMeaning, if_true, hlen]
    by_cases hl : v.length = 4
    · rw [if_neg (by simpa using hl), if_pos hl, h.grab 4, if_pos (by omega), List.take_of_length_le (by omega)]
      simp only [Res.bind_eq, Res.bind_ok, cdpCapMap_eq, tlvStrCap_lt (cdpCaps_lt _)]
      cases print <;> simp [showOr, peerStr_eq]
    · rw [if_pos hl, if_neg hl]; rfl
  rw [if_neg h4]
  by_cases h2 : t = 0x02 ∨ t = 0x16
  · rw [if_pos h2]
    have e : cdpMeaning print s (t, v) =
      (if v.length < 4 then none
       else (addrEntries (addrLimit (beNat (v.take 4))) (v.drop 4)).bind
         (fun es => es.foldlM (addrMeaning print) s)) := by
      rcases h2 with rfl | rfl <;> rfl
    rw [e]
    unfold cdpAddr
    rw [h.grab 4]
    by_cases hl : v.length < 4
    · rw [if_neg (by omega), if_pos hl]; rfl
    · rw [if_pos (by omega), if_neg hl]
      simp only [Res.bind_eq, Res.bind_ok]
      obtain ⟨x0, x1, x2, x3, r, rfl⟩ := exists_four (v := v) (by omega)
      have hb : beNat ([x0, x1, x2, x3]) < 4294967296 := by
        rw [beNat_4]
        have := x0.toNat_lt; have := x1.toNat_lt; have := x2.toNat_lt; have := x3.toNat_lt
        omega
      have h' := h.skip (n := 4) (by simp)
      exact cdpAddrLoop_view print _ _ _ m _ _ s h' (by simp [hlen]; omega) rfl hb
  rw [if_neg h2]
  by_cases h5 : t = 0x05 ∨ t = 0x06
  · rw [if_pos h5]
    have e : cdpMeaning print s (t, v) =
      some (if print then { s with out := s.out ++ [shown v] } else s) := by
      rcases h5 with rfl | rfl <;> rfl
    rw [e]
    cases print <;> simp [cdpTextPrint, h.strCopy, tlvStrCopyVal_eq]
  rw [if_neg h5]
  by_cases h9 : t = 0x09
  · subst h9
    cases print <;> simp [cdpMeaning, cdpTextPrint, h.strCopy, tlvStrCopyVal_eq]
  rw [if_neg h9]
  by_cases ha : t = 0x0a
  · subst ha
    simp only [cdpVlan, cdpMeaning, if_true, hlen]
    by_cases hl : v.length = 2
    · obtain ⟨a, b, rfl⟩ := exists_two' hl
      rw [if_neg (by simp), if_pos hl, h.grab 2, if_pos (by omega)]
      simp only [Res.bind_eq, Res.bind_ok, List.take_succ_cons, List.take_zero,
        decimal16_eq (beNat_lt_2 a b)]
      cases print <;> simp [showOr, peerStr_eq]
    · rw [if_pos hl, if_neg hl]; rfl
  rw [if_neg ha]
  by_cases hb : t = 0x0b
  · subst hb
    simp only [cdpDuplexPrint, cdpMeaning, if_true, hlen]
    cases print
    · simp
    · by_cases hl : v.length = 1
      · simp [hl, h.grab 1]
      · simp [hl]
  rw [if_neg hb]
  have e : cdpMeaning print s (t, v) = some s := by
    unfold cdpMeaning
    dsimp only
    split <;> first | omega | rfl
  rw [e]; rfl

/-! ## The TLV loop -/

theorem cdpEnc_cons (t : Tlv) (ts : List Tlv) : cdpEnc (t :: ts) = cdpEnc1 t ++ cdpEnc ts := rfl

theorem cdpEnc1_length (t : Tlv) : (cdpEnc1 t).length = t.2.length + 4 := by
  simp [cdpEnc1]; omega

theorem View.grabCdpTlv {m : Bytes} {c : Cur} {v : Bytes} (h : View m c v) :
    grabCdpTlv m c = if 4 ≤ v.length then
      .ok (beNat (v.take 2), sub16 (beNat ((v.drop 2).take 2)) 4, ⟨c.pos + 4, c.length - 4⟩) else .fail := by
  unfold Ladvd.grabCdpTlv
  rw [h.grab 2]
  by_cases h2 : 2 ≤ v.length
  · rw [if_pos h2]
    have h' := h.skip h2
    simp only [Res.bind_eq, Res.bind_ok]
    rw [h'.grab 2]
    by_cases h4 : 4 ≤ v.length
    · rw [if_pos (by simp; omega), if_pos h4]
      simp; omega
    · rw [if_neg (by simp; omega), if_neg h4]; rfl
  · rw [if_neg h2, if_neg (by omega)]; rfl

theorem cdpLoop_sound (print : Bool) (fuel : Nat) (m : Bytes) (c : Cur) (v : Bytes) (s : Msg)
    (h : View m c v) (hf : v.length < fuel) (hv : v.length < 65532) :
    cdpLoop m print fuel c s = .fail ∨
      ∃ ts s', v = cdpEnc ts ∧ CdpWf ts ∧ ts.foldlM (cdpMeaning print) s = some s' ∧
        cdpLoop m print fuel c s = .ok (⟨c.pos + v.length, 0⟩, s') := by
  induction fuel generalizing c v s with
  | zero => omega
  | succ fuel ih =>
    unfold cdpLoop
    have hlen := h.len
    by_cases h0 : c.length = 0
    · right
      have : v = [] := List.length_eq_zero_iff.mp (by omega)
      subst this
      refine ⟨[], s, rfl, by simp [CdpWf], rfl, ?_⟩
      rw [if_pos h0]
      cases c; simp_all
    · rw [if_neg h0, h.grabCdpTlv]
      by_cases h4 : 4 ≤ v.length
      · rw [if_pos h4]
        simp only [Res.bind_eq, Res.bind_ok]
        obtain ⟨a, b, x, y, r, rfl⟩ := exists_four h4
        simp only [List.take_succ_cons, List.take_zero, List.drop_succ_cons, List.drop_zero]
        have hlt := beNat_lt_2 x y
        have hr := h.skip h4
        simp only [List.drop_succ_cons, List.drop_zero] at hr
        have hrl := hr.len
        simp only at hrl
        rw [hrl] at hr ⊢
        simp only [List.length_cons] at hv hf
        by_cases hs : r.length < sub16 (beNat [x, y]) 4
        · rw [if_pos hs]; left; rfl
        · rw [if_neg hs]
          have h4' : 4 ≤ beNat [x, y] := by
            unfold sub16 at hs; omega
          have hsub : sub16 (beNat [x, y]) 4 = beNat [x, y] - 4 := by unfold sub16; omega
          rw [hsub] at hs ⊢
          generalize hL : beNat [x, y] - 4 = L at *
          have hval := hr.sub (n := L) (by omega)
          simp only at hval
          rw [cdpTlv_view hval, hr.skip_eq L, if_pos (by omega)]
          have hrest := hr.skip (n := L) (by omega)
          simp only at hrest
          cases hm : cdpMeaning print s (beNat [a, b], r.take L) with
          | none => left; rfl
          | some s1 =>
            simp only [Res.ofOption_some, Res.bind_ok]
            rcases ih _ _ s1 hrest (by simp; omega) (by simp; omega) with hfail | ⟨ts, s', e1, e2, e3, e4⟩
            · left; exact hfail
            · right
              refine ⟨(beNat [a, b], r.take L) :: ts, s', ?_, ?_, ?_, ?_⟩
              · rw [cdpEnc_cons, ← e1]
                have hl : (r.take L).length + 4 = beNat [x, y] := by simp; omega
                simp only [cdpEnc1, hl, be16_beNat]
                simp
              · intro t ht
                rcases List.mem_cons.mp ht with rfl | ht
                · refine ⟨beNat_lt_2 a b, ?_⟩
                  simp; omega
                · exact e2 t ht
              · simp [hm, e3]
              · rw [e4]
                simp; omega
      · rw [if_neg h4]; left; rfl

theorem cdpLoop_complete (print : Bool) (fuel : Nat) (m : Bytes) (c : Cur) (ts : List Tlv) (s s' : Msg)
    (h : View m c (cdpEnc ts)) (hf : (cdpEnc ts).length < fuel) (hw : CdpWf ts)
    (hm : ts.foldlM (cdpMeaning print) s = some s') :
    cdpLoop m print fuel c s = .ok (⟨c.pos + (cdpEnc ts).length, 0⟩, s') := by
  induction ts generalizing fuel c s with
  | nil =>
    cases fuel with
    | zero => simp at hf
    | succ fuel =>
      unfold cdpLoop
      have := h.len
      simp [cdpEnc] at this
      rw [if_pos this]
      simp at hm
      subst hm
      cases c; simp_all [cdpEnc]
  | cons t ts ih =>
    cases fuel with
    | zero => simp at hf
    | succ fuel =>
      obtain ⟨ty, tv⟩ := t
      have hwt := hw (ty, tv) (by simp)
      dsimp only at hwt
      unfold cdpLoop
      have hlen := h.len
      have hl1 := cdpEnc1_length (ty, tv)
      rw [cdpEnc_cons] at h hlen hf ⊢
      simp only [List.length_append, hl1] at hlen hf
      rw [if_neg (by omega), h.grabCdpTlv, if_pos (by simp [hl1]; omega)]
      have et : beNat ((cdpEnc1 (ty, tv) ++ cdpEnc ts).take 2) = ty := by
        have : (cdpEnc1 (ty, tv) ++ cdpEnc ts).take 2 = be16 ty := by simp [cdpEnc1, be16]
        rw [this, beNat_be16]; omega
      have el : sub16 (beNat (((cdpEnc1 (ty, tv) ++ cdpEnc ts).drop 2).take 2)) 4 = tv.length := by
        have : ((cdpEnc1 (ty, tv) ++ cdpEnc ts).drop 2).take 2 = be16 (tv.length + 4) := by
          simp [cdpEnc1, be16]
        rw [this, beNat_be16]; unfold sub16; omega
      rw [et, el]
      simp only [Res.bind_eq, Res.bind_ok]
      have h4 := h.skip (n := 4) (by simp [hl1]; omega)
      have ed : (cdpEnc1 (ty, tv) ++ cdpEnc ts).drop 4 = tv ++ cdpEnc ts := by simp [cdpEnc1, be16]
      rw [ed] at h4
      rw [if_neg (by omega)]
      have hval := h4.sub (n := tv.length) (by simp)
      simp only [List.take_left] at hval
      rw [cdpTlv_view hval, h4.skip_eq, if_pos (by simp)]
      have hrest := h4.skip (n := tv.length) (by simp)
      simp only [List.drop_left] at hrest
      simp only [List.foldlM_cons] at hm
      cases hc : cdpMeaning print s (ty, tv) with
      | none => simp [hc] at hm
      | some s1 =>
        simp only [hc] at hm
        simp only [Res.ofOption_some, Res.bind_ok]
        rw [ih fuel _ s1 hrest (by omega) (fun t ht => hw t (by simp [ht])) hm]
        simp [hl1]; omega

end Ladvd
