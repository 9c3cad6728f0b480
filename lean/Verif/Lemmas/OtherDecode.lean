import Verif.Lemmas.CdpDecode
/-!
# The EDP and FDP TLV loops against their specification
-/

namespace Ladvd

open Spec

/-! ## EDP -/

theorem edpEnc_cons (t : UInt8 × Tlv) (ts : List (UInt8 × Tlv)) :
    edpEnc (t :: ts) = edpEnc1 t.1 t.2 ++ edpEnc ts := rfl

theorem edpEnc1_length (mk : UInt8) (t : Tlv) : (edpEnc1 mk t).length = t.2.length + 4 := by
  simp [edpEnc1]; omega

theorem View.grabEdpTlv {m : Bytes} {c : Cur} {v : Bytes} (h : View m c v) :
    grabEdpTlv m c = if 4 ≤ v.length then
      .ok (beNat ((v.drop 1).take 1), sub16 (beNat ((v.drop 2).take 2)) 4, ⟨c.pos + 4, c.length - 4⟩)
      else .fail := by
  unfold Ladvd.grabEdpTlv
  rw [h.skip_eq 1]
  by_cases h1 : 1 ≤ v.length
  · rw [if_pos h1]
    have h' := h.skip h1
    simp only [Res.bind_eq, Res.bind_ok]
    rw [h'.grab 1]
    by_cases h2 : 2 ≤ v.length
    · rw [if_pos (by simp; omega)]
      have h'' := h'.skip (n := 1) (by simp; omega)
      simp only [Res.bind_ok]
      rw [h''.grab 2]
      by_cases h4 : 4 ≤ v.length
      · rw [if_pos (by simp; omega), if_pos h4]
        simp; omega
      · rw [if_neg (by simp; omega), if_neg h4]; rfl
    · rw [if_neg (by simp; omega), if_neg (by omega)]; rfl
  · rw [if_neg h1, if_neg (by omega)]; rfl

/-- One iteration: the two branches of the `switch` do the same up to the meaning of the TLV. -/
theorem edp_step (m : Bytes) (fuel t l : Nat) (c : Cur) (v : Bytes) (mk : UInt8) (s : Msg) (h : View m c v) :
    (if t = 1 then
      if c.length ≥ l then do
        let h ← tlvValueStr m c.pos l s.peer.hostname
        let c ← skip l c
        edpLoop m fuel c { s with peer := { s.peer with hostname := h } }
      else .fail
    else do
      let c ← skip l c
      edpLoop m fuel c s) =
    if l ≤ v.length then
      edpLoop m fuel ⟨c.pos + l, c.length - l⟩ (edpMeaning s (mk, (t, v.take l)))
    else .fail := by
  have hlen := h.len
  by_cases hl : l ≤ v.length
  · rw [if_pos hl]
    have hval := h.sub hl
    have hs : skip l c = .ok ⟨c.pos + l, c.length - l⟩ := by rw [h.skip_eq, if_pos hl]
    by_cases ht : t = 1
    · subst ht
      have := hval.valueStr s.peer.hostname
      simp only at this
      rw [if_pos rfl, if_pos (by omega), this]
      simp only [Res.bind_eq, Res.bind_ok, hs, tlvValueStrVal_eq, peerStr_eq, edpMeaning]
    · rw [if_neg ht, hs]
      have : edpMeaning s (mk, (t, v.take l)) = s := by
        simp only [edpMeaning]
      simp [this]
  · rw [if_neg hl]
    have hs : skip l c = .fail := by rw [h.skip_eq, if_neg hl]
    by_cases ht : t = 1
    · rw [if_pos ht, if_neg (by omega)]
    · rw [if_neg ht, hs]; rfl

theorem edpLoop_sound (fuel : Nat) (m : Bytes) (c : Cur) (v : Bytes) (s : Msg)
    (h : View m c v) (hf : v.length < fuel) (hv : v.length < 65532) :
    edpLoop m fuel c s = .fail ∨
      ∃ ts, v = edpEnc ts ∧ EdpWf ts ∧
        edpLoop m fuel c s = .ok (⟨c.pos + v.length, 0⟩, ts.foldl edpMeaning s) := by
  induction fuel generalizing c v s with
  | zero => omega
  | succ fuel ih =>
    unfold edpLoop
    have hlen := h.len
    by_cases h0 : c.length = 0
    · right
      have : v = [] := List.length_eq_zero_iff.mp (by omega)
      subst this
      refine ⟨[], rfl, by simp [EdpWf], ?_⟩
      rw [if_pos h0]
      cases c; simp_all
    · rw [if_neg h0, h.grabEdpTlv]
      by_cases h4 : 4 ≤ v.length
      · rw [if_pos h4]
        obtain ⟨a, b, x, y, r, rfl⟩ := exists_four h4
        simp only [Res.bind_eq, Res.bind_ok, List.take_succ_cons, List.take_zero, List.drop_succ_cons,
          List.drop_zero]
        have hlt := beNat_lt_2 x y
        have hr := h.skip h4
        simp only [List.drop_succ_cons, List.drop_zero] at hr
        have step := edp_step m fuel (beNat [b]) (sub16 (beNat [x, y]) 4) _ r a s hr
        simp only [Res.bind_eq] at step
        rw [step]
        simp only [List.length_cons] at hv hf
        by_cases hs : sub16 (beNat [x, y]) 4 ≤ r.length
        · rw [if_pos hs]
          have h4' : 4 ≤ beNat [x, y] := by unfold sub16 at hs; omega
          have hsub : sub16 (beNat [x, y]) 4 = beNat [x, y] - 4 := by unfold sub16; omega
          rw [hsub] at hs ⊢
          generalize hL : beNat [x, y] - 4 = L at *
          have hrest := hr.skip hs
          rcases ih _ _ (edpMeaning s (a, (beNat [b], r.take L))) hrest (by simp; omega) (by simp; omega) with
            hfail | ⟨ts, e1, e2, e3⟩
          · left; exact hfail
          · right
            refine ⟨(a, (beNat [b], r.take L)) :: ts, ?_, ?_, ?_⟩
            · rw [edpEnc_cons, ← e1]
              have hl : (r.take L).length + 4 = beNat [x, y] := by simp; omega
              simp only [edpEnc1, hl, be16_beNat, beNat_1]
              simp
            · intro t ht
              rcases List.mem_cons.mp ht with rfl | ht
              · refine ⟨by rw [beNat_1]; exact b.toNat_lt, ?_⟩
                simp; omega
              · exact e2 t ht
            · simp only at e3
              rw [e3]
              simp; omega
        · rw [if_neg hs]; left; rfl
      · rw [if_neg h4]; left; rfl

theorem edpLoop_complete (fuel : Nat) (m : Bytes) (c : Cur) (ts : List (UInt8 × Tlv)) (s : Msg)
    (h : View m c (edpEnc ts)) (hf : (edpEnc ts).length < fuel) (hw : EdpWf ts) :
    edpLoop m fuel c s = .ok (⟨c.pos + (edpEnc ts).length, 0⟩, ts.foldl edpMeaning s) := by
  induction ts generalizing fuel c s with
  | nil =>
    cases fuel with
    | zero => simp at hf
    | succ fuel =>
      unfold edpLoop
      have := h.len
      simp [edpEnc] at this
      rw [if_pos this]
      cases c; simp_all [edpEnc]
  | cons t ts ih =>
    cases fuel with
    | zero => simp at hf
    | succ fuel =>
      obtain ⟨mk, ty, tv⟩ := t
      have hwt := hw (mk, ty, tv) (by simp)
      dsimp only at hwt
      unfold edpLoop
      have hlen := h.len
      have hl1 := edpEnc1_length mk (ty, tv)
      rw [edpEnc_cons] at h hlen hf ⊢
      simp only [List.length_append, hl1] at hlen hf
      rw [if_neg (by omega), h.grabEdpTlv, if_pos (by simp [hl1]; omega)]
      have et : beNat (((edpEnc1 mk (ty, tv) ++ edpEnc ts).drop 1).take 1) = ty := by
        have : ((edpEnc1 mk (ty, tv) ++ edpEnc ts).drop 1).take 1 = [UInt8.ofNat ty] := by simp [edpEnc1]
        rw [this, beNat_1, UInt8.toNat_ofNat']; omega
      have el : sub16 (beNat (((edpEnc1 mk (ty, tv) ++ edpEnc ts).drop 2).take 2)) 4 = tv.length := by
        have : ((edpEnc1 mk (ty, tv) ++ edpEnc ts).drop 2).take 2 = be16 (tv.length + 4) := by
          simp [edpEnc1, be16]
        rw [this, beNat_be16]; unfold sub16; omega
      rw [et, el]
      simp only [Res.bind_eq, Res.bind_ok]
      have h4 := h.skip (n := 4) (by simp [hl1]; omega)
      have ed : (edpEnc1 mk (ty, tv) ++ edpEnc ts).drop 4 = tv ++ edpEnc ts := by simp [edpEnc1, be16]
      rw [ed] at h4
      have step := edp_step m fuel ty tv.length _ _ mk s h4
      simp only [Res.bind_eq] at step
      rw [step, if_pos (by simp)]
      have hrest := h4.skip (n := tv.length) (by simp)
      simp only [List.drop_left] at hrest
      rw [ih fuel _ _ hrest (by omega) (fun t ht => hw t (by simp [ht]))]
      simp [hl1]; omega

/-! ## FDP -/

theorem fdpCapBits_eq (v : Bytes) : fdpCapBits v = fdpCapBit v := by
  have e1 : lit "Router" = [0x52, 0x6f, 0x75, 0x74, 0x65, 0x72] := by decide +kernel
  have e2 : lit "Switch" = [0x53, 0x77, 0x69, 0x74, 0x63, 0x68] := by decide +kernel
  have e3 : lit "Bridge" = [0x42, 0x72, 0x69, 0x64, 0x67, 0x65] := by decide +kernel
  have e4 : lit "Host" = [0x48, 0x6f, 0x73, 0x74] := by decide +kernel
  unfold fdpCapBits fdpCapBit
  simp only [e1, e2, e3, e4, cstr]

theorem fdpCapBit_lt (v : Bytes) : fdpCapBit v < 512 := by
  unfold fdpCapBit
  dsimp only
  repeat' split
  all_goals omega

/-- One iteration of the FDP loop. -/
theorem fdp_step (m : Bytes) (fuel t l cap : Nat) (c : Cur) (v : Bytes) (s : Msg) (h : View m c v)
    (hcap : s.peer.cap = none → cap = 0) :
    ∃ cap', ((fdpMeaning s (t, v.take l)).peer.cap = none → cap' = 0) ∧
    (if t = 1 then
      if c.length ≥ l then do
        let h ← tlvValueStr m c.pos l s.peer.hostname
        let c ← skip l c
        fdpLoop m fuel c cap { s with peer := { s.peer with hostname := h } }
      else .fail
    else if t = 3 then
      if c.length ≥ l then do
        let h ← tlvValueStr m c.pos l s.peer.portname
        let c ← skip l c
        fdpLoop m fuel c cap { s with peer := { s.peer with portname := h } }
      else .fail
    else if t = 4 then do
      let (v, c) ← grabBytes m l c
      let cap := cap ||| fdpCapBits v
      fdpLoop m fuel c cap { s with peer := { s.peer with cap := peerStr s.peer.cap (tlvStrCap cap) } }
    else do
      let c ← skip l c
      fdpLoop m fuel c cap s) =
    if l ≤ v.length then
      fdpLoop m fuel ⟨c.pos + l, c.length - l⟩ cap' (fdpMeaning s (t, v.take l))
    else .fail := by
  have hlen := h.len
  refine ⟨if t = 4 then cap ||| fdpCapBits (v.take l) else cap, ?_, ?_⟩
  · intro hn
    by_cases h4 : t = 4
    · subst h4
      simp only [fdpMeaning, first] at hn
      cases hx : s.peer.cap <;> simp [hx] at hn
    · rw [if_neg h4]
      apply hcap
      simp only [fdpMeaning] at hn
      split at hn
      · exact hn
      · exact hn
      · contradiction
      · exact hn
  by_cases hl : l ≤ v.length
  · rw [if_pos hl]
    have hval := h.sub hl
    have hs : skip l c = .ok ⟨c.pos + l, c.length - l⟩ := by rw [h.skip_eq, if_pos hl]
    by_cases h1 : t = 1
    · subst h1
      have := hval.valueStr s.peer.hostname
      simp only at this
      rw [if_pos rfl, if_pos (by omega), this]
      simp [hs, tlvValueStrVal_eq, peerStr_eq, fdpMeaning]
    rw [if_neg h1]
    by_cases h3 : t = 3
    · subst h3
      have := hval.valueStr s.peer.portname
      simp only at this
      rw [if_pos rfl, if_pos (by omega), this]
      simp [hs, tlvValueStrVal_eq, peerStr_eq, fdpMeaning]
    rw [if_neg h3]
    by_cases h4 : t = 4
    · subst h4
      rw [if_pos rfl, if_pos rfl, h.grabBytes, if_pos hl]
      simp only [Res.bind_eq, Res.bind_ok]
      congr 1
      simp only [fdpMeaning, peerStr_eq]
      cases hx : s.peer.cap with
      | some x => simp [first]
      | none =>
        simp only [hcap hx, Nat.zero_or, fdpCapBits_eq, tlvStrCap_lt (fdpCapBit_lt _)]
    · rw [if_neg h4, if_neg h4, hs]
      have : fdpMeaning s (t, v.take l) = s := by
        simp only [fdpMeaning]
      simp [this]
  · rw [if_neg hl]
    have hs : skip l c = .fail := by rw [h.skip_eq, if_neg hl]
    by_cases h1 : t = 1
    · rw [if_pos h1, if_neg (by omega)]
    rw [if_neg h1]
    by_cases h3 : t = 3
    · rw [if_pos h3, if_neg (by omega)]
    rw [if_neg h3]
    by_cases h4 : t = 4
    · rw [if_pos h4, h.grabBytes, if_neg hl]; rfl
    · rw [if_neg h4, hs]; rfl

theorem fdpLoop_sound (fuel : Nat) (m : Bytes) (c : Cur) (v : Bytes) (cap : Nat) (s : Msg)
    (hcap : s.peer.cap = none → cap = 0)
    (h : View m c v) (hf : v.length < fuel) (hv : v.length < 65532) :
    fdpLoop m fuel c cap s = .fail ∨
      ∃ ts, v = cdpEnc ts ∧ CdpWf ts ∧
        fdpLoop m fuel c cap s = .ok (⟨c.pos + v.length, 0⟩, ts.foldl fdpMeaning s) := by
  induction fuel generalizing c v cap s with
  | zero => omega
  | succ fuel ih =>
    unfold fdpLoop
    have hlen := h.len
    by_cases h0 : c.length = 0
    · right
      have : v = [] := List.length_eq_zero_iff.mp (by omega)
      subst this
      refine ⟨[], rfl, by simp [CdpWf], ?_⟩
      rw [if_pos h0]
      cases c; simp_all
    · rw [if_neg h0, h.grabCdpTlv]
      by_cases h4 : 4 ≤ v.length
      · rw [if_pos h4]
        obtain ⟨a, b, x, y, r, rfl⟩ := exists_four h4
        simp only [Res.bind_eq, Res.bind_ok, List.take_succ_cons, List.take_zero, List.drop_succ_cons,
          List.drop_zero]
        have hlt := beNat_lt_2 x y
        have hr := h.skip h4
        simp only [List.drop_succ_cons, List.drop_zero] at hr
        obtain ⟨cap', hc', step⟩ := fdp_step m fuel (beNat [a, b]) (sub16 (beNat [x, y]) 4) cap _ r s hr hcap
        simp only [Res.bind_eq] at step
        rw [step]
        simp only [List.length_cons] at hv hf
        by_cases hs : sub16 (beNat [x, y]) 4 ≤ r.length
        · rw [if_pos hs]
          have h4' : 4 ≤ beNat [x, y] := by unfold sub16 at hs; omega
          have hsub : sub16 (beNat [x, y]) 4 = beNat [x, y] - 4 := by unfold sub16; omega
          rw [hsub] at hs hc' ⊢
          generalize hL : beNat [x, y] - 4 = L at *
          have hrest := hr.skip hs
          rcases ih _ _ cap' (fdpMeaning s (beNat [a, b], r.take L)) hc' hrest (by simp; omega)
              (by simp; omega) with hfail | ⟨ts, e1, e2, e3⟩
          · left; exact hfail
          · right
            refine ⟨(beNat [a, b], r.take L) :: ts, ?_, ?_, ?_⟩
            · rw [cdpEnc_cons, ← e1]
              have hl : (r.take L).length + 4 = beNat [x, y] := by simp; omega
              simp only [cdpEnc1, hl, be16_beNat]
              simp
            · intro t ht
              rcases List.mem_cons.mp ht with rfl | ht
              · refine ⟨beNat_lt_2 a b, ?_⟩
                simp; omega
              · exact e2 t ht
            · simp only at e3
              rw [e3]
              simp; omega
        · rw [if_neg hs]; left; rfl
      · rw [if_neg h4]; left; rfl

theorem fdpLoop_complete (fuel : Nat) (m : Bytes) (c : Cur) (ts : List Tlv) (cap : Nat) (s : Msg)
    (hcap : s.peer.cap = none → cap = 0)
    (h : View m c (cdpEnc ts)) (hf : (cdpEnc ts).length < fuel) (hw : CdpWf ts) :
    fdpLoop m fuel c cap s = .ok (⟨c.pos + (cdpEnc ts).length, 0⟩, ts.foldl fdpMeaning s) := by
  induction ts generalizing fuel c cap s with
  | nil =>
    cases fuel with
    | zero => simp at hf
    | succ fuel =>
      unfold fdpLoop
      have := h.len
      simp [cdpEnc] at this
      rw [if_pos this]
      cases c; simp_all [cdpEnc]
  | cons t ts ih =>
    cases fuel with
    | zero => simp at hf
    | succ fuel =>
      obtain ⟨ty, tv⟩ := t
      have hwt := hw (ty, tv) (by simp)
      dsimp only at hwt
      unfold fdpLoop
      have hlen := h.len
      have hl1 := cdpEnc1_length (ty, tv)
      rw [cdpEnc_cons] at h hlen hf ⊢
      simp only [List.length_append, hl1] at hlen hf
      rw [if_neg (by omega), h.grabCdpTlv, if_pos (by simp [hl1]; omega)]
      have et : beNat ((cdpEnc1 (ty, tv) ++ cdpEnc ts).take 2) = ty := by
        have : (cdpEnc1 (ty, tv) ++ cdpEnc ts).take 2 = be16 ty := by simp [cdpEnc1, be16]
        rw [this, beNat_be16]; omega
      have el : sub16 (beNat (((cdpEnc1 (ty, tv) ++ cdpEnc ts).drop 2).take 2)) 4 = tv.length := by
        have : ((cdpEnc1 (ty, tv) ++ cdpEnc ts).drop 2).take 2 = be16 (tv.length + 4) := by
          simp [cdpEnc1, be16]
        rw [this, beNat_be16]; unfold sub16; omega
      rw [et, el]
      simp only [Res.bind_eq, Res.bind_ok]
      have h4 := h.skip (n := 4) (by simp [hl1]; omega)
      have ed : (cdpEnc1 (ty, tv) ++ cdpEnc ts).drop 4 = tv ++ cdpEnc ts := by simp [cdpEnc1, be16]
      rw [ed] at h4
      obtain ⟨cap', hc', step⟩ := fdp_step m fuel ty tv.length cap _ _ s h4 hcap
      simp only [Res.bind_eq] at step
      rw [step, if_pos (by simp)]
      have hrest := h4.skip (n := tv.length) (by simp)
      simp only [List.drop_left] at hrest
      simp only [List.take_left] at hc' ⊢
      rw [ih fuel _ cap' _ hc' hrest (by omega) (fun t ht => hw t (by simp [ht]))]
      simp [hl1]; omega

end Ladvd
