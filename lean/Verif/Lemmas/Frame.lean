import Verif.Lemmas.View
import Verif.Lemmas.Strl
import Verif.Spec.Wire
/-!
# The frame checks against the frame grammar
-/

namespace Ladvd

open Spec

/-- The bytes at offset `p`. -/
def at_ (f : Bytes) (p n : Nat) : Bytes := (f.drop p).take n

theorem rd_append {f pad : Bytes} {p n : Nat} (h : p + n ≤ f.length) :
    rd (f ++ pad) p n = .ok (at_ f p n) := by
  unfold at_
  rw [rd_ok (by simp; omega)]
  rw [List.drop_append_of_le_length (by omega), List.take_append_of_le_length (by simp; omega)]

theorem beNat_inj2 {a b : Bytes} (ha : a.length = 2) (hb : b.length = 2) : beNat a = beNat b ↔ a = b := by
  constructor
  · intro h
    match a, ha, b, hb with
    | [a0, a1], _, [b0, b1], _ =>
      have := congrArg be16 h
      rwa [be16_beNat, be16_beNat] at this
  · rintro rfl; rfl

theorem beNat_eq_iff {a : Bytes} (ha : a.length = 2) {n : Nat} (hn : n < 65536) :
    beNat a = n ↔ a = be16 n := by
  rw [← beNat_inj2 ha (be16_length n), beNat_be16, Nat.mod_eq_of_lt hn]

theorem at_length {f : Bytes} {p n : Nat} (h : p + n ≤ f.length) : (at_ f p n).length = n := by
  simp [at_]; omega

theorem split_at (f : Bytes) (p n : Nat) : f.drop p = at_ f p n ++ f.drop (p + n) := by
  unfold at_; rw [← List.drop_drop, List.take_append_drop]

/-- The offset added by a VLAN tag. -/
def tagOff (f : Bytes) : Nat := if at_ f 12 2 = [0x81, 0x00] then 4 else 0

theorem llc_split (llc org : Bytes) (pid : Nat) (hl : llc.length = 8) (ho : org.length = 3)
    (hp : pid < 65536) : llc = [0xaa, 0xaa, 0x03] ++ org ++ be16 pid ↔
      llc.take 3 = [0xaa, 0xaa, 0x03] ∧ (llc.drop 3).take 3 = org ∧ beNat (llc.drop 6) = pid := by
  have hsplit : llc = llc.take 3 ++ (llc.drop 3).take 3 ++ llc.drop 6 := by
    conv => lhs; rw [← List.take_append_drop 3 llc]
    rw [List.append_assoc]; congr 1
    conv => lhs; rw [← List.take_append_drop 3 (llc.drop 3)]
    rw [List.drop_drop]
  have hl6 : (llc.drop 6).length = 2 := by simp [hl]
  rw [beNat_eq_iff hl6 hp]
  constructor
  · intro h
    subst h
    match org, ho with
    | [a, b, c], _ => simp
  · rintro ⟨ha, hb, hc⟩
    rw [hsplit, ha, hb, hc]

theorem llcCheck_eq (dst org : Bytes) (pid : Nat) (f pad : Bytes) (ho : org.length = 3)
    (hp : pid < 65536) (h1 : 26 ≤ f.length) (h2 : f.length ≤ 1518) :
    llcCheck dst org pid (f ++ pad) f.length =
      if at_ f 0 6 = dst ∧ at_ f (14 + tagOff f) 8 = [0xaa, 0xaa, 0x03] ++ org ++ be16 pid then
        .ok (22 + tagOff f) else .fail := by
  unfold llcCheck
  rw [if_neg (by unfold ETHER_MAX_LEN; omega), rd_append (by omega)]
  simp only [Res.bind_eq, Res.bind_ok]
  have e1 : (at_ f 0 14).take 6 = at_ f 0 6 := by simp [at_, List.take_take]
  rw [e1]
  by_cases hdst : at_ f 0 6 = dst
  · rw [if_neg (by simpa using hdst)]
    have e2 : (at_ f 0 14).drop 12 = at_ f 12 2 := by simp [at_, List.drop_take]
    have e3 : (if beNat ((at_ f 0 14).drop 12) = ETHERTYPE_VLAN then 4 else 0) = tagOff f := by
      unfold tagOff ETHERTYPE_VLAN
      rw [e2]
      have := beNat_eq_iff (a := at_ f 12 2) (at_length (by omega)) (n := 0x8100) (by omega)
      have e : be16 0x8100 = [0x81, 0x00] := rfl
      rw [e] at this
      by_cases hc : at_ f 12 2 = [0x81, 0x00]
      · rw [if_pos hc, if_pos (this.mpr hc)]
      · rw [if_neg hc, if_neg (fun h => hc (this.mp h))]
    rw [e3]
    have ht : tagOff f ≤ 4 := by unfold tagOff; split <;> omega
    rw [rd_append (by omega)]
    simp only [Res.bind_ok]
    have hl := at_length (f := f) (p := 14 + tagOff f) (n := 8) (by omega)
    have key := llc_split (at_ f (14 + tagOff f) 8) org pid hl ho hp
    by_cases ha : (at_ f (14 + tagOff f) 8).take 3 = [0xaa, 0xaa, 0x03]
    · rw [if_neg (by simpa using ha)]
      by_cases hb : ((at_ f (14 + tagOff f) 8).drop 3).take 3 = org ∧ beNat ((at_ f (14 + tagOff f) 8).drop 6) = pid
      · rw [if_pos hb, if_pos ⟨hdst, key.mpr ⟨ha, hb⟩⟩]
        congr 1; omega
      · rw [if_neg hb, if_neg]
        rintro ⟨_, h⟩
        exact hb (key.mp h).2
    · rw [if_pos ha, if_neg]
      rintro ⟨_, h⟩
      exact ha (key.mp h).1
  · rw [if_pos hdst, if_neg]
    rintro ⟨h, _⟩; exact hdst h

/-- Frame grammar in terms of offsets. -/
theorem llcPrefix_iff' (dst org : Bytes) (pid : Nat) (f : Bytes) (hd : dst.length = 6) (ho : org.length = 3)
    (n : Nat) :
    (∃ pre payload, f = pre ++ payload ∧ LlcPrefix dst org (be16 pid) pre ∧ n = pre.length) ↔
      (at_ f 0 6 = dst ∧ at_ f (14 + tagOff f) 8 = [0xaa, 0xaa, 0x03] ++ org ++ be16 pid ∧
        n = 22 + tagOff f) := by
  constructor
  · rintro ⟨pre, payload, rfl, ⟨src, len, hs, hl, hpre⟩, rfl⟩
    match dst, hd, src, hs, len, hl, org, ho with
    | [d0, d1, d2, d3, d4, d5], _, [s0, s1, s2, s3, s4, s5], _, [l0, l1], _, [o0, o1, o2], _ =>
      rcases hpre with ⟨rfl, hne⟩ | ⟨tag, ht, rfl⟩
      · have htag : ∀ x, tagOff ([d0, d1, d2, d3, d4, d5] ++ [s0, s1, s2, s3, s4, s5] ++ [l0, l1] ++
            [0xaa, 0xaa, 0x03] ++ [o0, o1, o2] ++ be16 pid ++ x) = 0 := by
          intro x; unfold tagOff; rw [if_neg]; simpa [at_] using hne
        rw [htag]
        simp [at_, be16]
      · match tag, ht with
        | [t0, t1], _ =>
          have htag : ∀ x, tagOff ([d0, d1, d2, d3, d4, d5] ++ [s0, s1, s2, s3, s4, s5] ++ [0x81, 0x00] ++
              [t0, t1] ++ [l0, l1] ++ [0xaa, 0xaa, 0x03] ++ [o0, o1, o2] ++ be16 pid ++ x) = 4 := by
            intro x; unfold tagOff; rw [if_pos]; simp [at_]
          rw [htag]
          simp [at_, be16]
  · rintro ⟨ha, hb, rfl⟩
    have h1 : 22 + tagOff f ≤ f.length := by
      have := congrArg List.length hb
      simp [at_, ho, be16] at this; omega
    refine ⟨f.take (22 + tagOff f), f.drop (22 + tagOff f), (List.take_append_drop _ _).symm, ?_, ?_⟩
    · by_cases ht : at_ f 12 2 = [0x81, 0x00]
      · have htag : tagOff f = 4 := by unfold tagOff; rw [if_pos ht]
        rw [htag] at hb ⊢
        refine ⟨at_ f 6 6, at_ f 16 2, at_length (by omega), at_length (by omega), Or.inr
          ⟨at_ f 14 2, at_length (by omega), ?_⟩⟩
        have e : f.take 26 = at_ f 0 6 ++ at_ f 6 6 ++ at_ f 12 2 ++ at_ f 14 2 ++ at_ f 16 2 ++ at_ f 18 8 := by
          have := List.take_append_drop 26 f
          apply List.append_cancel_right (bs := f.drop 26)
          rw [this]
          conv => lhs; rw [← List.drop_zero (l := f), split_at f 0 6, split_at f (0 + 6) 6, split_at f (0 + 6 + 6) 2,
            split_at f (0 + 6 + 6 + 2) 2, split_at f (0 + 6 + 6 + 2 + 2) 2, split_at f (0 + 6 + 6 + 2 + 2 + 2) 8]
          simp
        rw [show 22 + 4 = 26 from rfl, e, ha, ht, show 18 = 14 + 4 from rfl, hb]
        simp
      · have htag : tagOff f = 0 := by unfold tagOff; rw [if_neg ht]
        rw [htag] at hb ⊢
        refine ⟨at_ f 6 6, at_ f 12 2, at_length (by omega), at_length (by omega), Or.inl ⟨?_, ht⟩⟩
        have e : f.take 22 = at_ f 0 6 ++ at_ f 6 6 ++ at_ f 12 2 ++ at_ f 14 8 := by
          have := List.take_append_drop 22 f
          apply List.append_cancel_right (bs := f.drop 22)
          rw [this]
          conv => lhs; rw [← List.drop_zero (l := f), split_at f 0 6, split_at f (0 + 6) 6, split_at f (0 + 6 + 6) 2,
            split_at f (0 + 6 + 6 + 2) 8]
          simp
        rw [show 22 + 0 = 22 from rfl, e, ha, hb]
        simp
    · have : tagOff f ≤ 4 := by unfold tagOff; split <;> omega
      simp; omega

theorem llcPrefix_iff (dst org : Bytes) (pid : Nat) (f : Bytes) (hd : dst.length = 6) (ho : org.length = 3)
    (_h1 : 26 ≤ f.length) (n : Nat) :
    (∃ pre payload, f = pre ++ payload ∧ LlcPrefix dst org (be16 pid) pre ∧ n = pre.length) ↔
      (at_ f 0 6 = dst ∧ at_ f (14 + tagOff f) 8 = [0xaa, 0xaa, 0x03] ++ org ++ be16 pid ∧
        n = 22 + tagOff f) := llcPrefix_iff' dst org pid f hd ho n

/-- The LLC checks accept exactly the frames of the grammar and return the payload offset. -/
theorem llcCheck_spec (dst org : Bytes) (pid : Nat) (f pad : Bytes) (hd : dst.length = 6) (ho : org.length = 3)
    (hp : pid < 65536) (h1 : 26 ≤ f.length) (h2 : f.length ≤ 1518) :
    (∃ pre payload, f = pre ++ payload ∧ LlcPrefix dst org (be16 pid) pre ∧
      llcCheck dst org pid (f ++ pad) f.length = .ok pre.length) ∨
    (llcCheck dst org pid (f ++ pad) f.length = .fail ∧
      ¬ ∃ pre payload, f = pre ++ payload ∧ LlcPrefix dst org (be16 pid) pre) := by
  rw [llcCheck_eq dst org pid f pad ho hp h1 h2]
  by_cases hc : at_ f 0 6 = dst ∧ at_ f (14 + tagOff f) 8 = [0xaa, 0xaa, 0x03] ++ org ++ be16 pid
  · left
    obtain ⟨pre, payload, e1, e2, e3⟩ := (llcPrefix_iff dst org pid f hd ho h1 (22 + tagOff f)).mpr
      ⟨hc.1, hc.2, rfl⟩
    exact ⟨pre, payload, e1, e2, by rw [if_pos hc, e3]⟩
  · right
    refine ⟨by rw [if_neg hc], ?_⟩
    rintro ⟨pre, payload, e1, e2⟩
    have := (llcPrefix_iff dst org pid f hd ho h1 pre.length).mp ⟨pre, payload, e1, e2, rfl⟩
    exact hc ⟨this.1, this.2.1⟩

theorem llcPrefix_unique {dst org : Bytes} {pid : Nat} {f pre payload pre' payload' : Bytes}
    (hd : dst.length = 6) (ho : org.length = 3) (h1 : 26 ≤ f.length)
    (e : f = pre ++ payload) (h : LlcPrefix dst org (be16 pid) pre)
    (e' : f = pre' ++ payload') (h' : LlcPrefix dst org (be16 pid) pre') : pre = pre' ∧ payload = payload' := by
  have a := (llcPrefix_iff dst org pid f hd ho h1 pre.length).mp ⟨pre, payload, e, h, rfl⟩
  have b := (llcPrefix_iff dst org pid f hd ho h1 pre'.length).mp ⟨pre', payload', e', h', rfl⟩
  have hl : pre.length = pre'.length := by rw [a.2.2, b.2.2]
  rw [e] at e'
  exact List.append_inj e' hl

theorem llcPrefix_length {dst org pid pre : Bytes} (hd : dst.length = 6) (ho : org.length = 3)
    (hp : pid.length = 2) (h : LlcPrefix dst org pid pre) : 22 ≤ pre.length ∧ pre.length ≤ 26 := by
  obtain ⟨src, len, hs, hl, hpre⟩ := h
  rcases hpre with ⟨rfl, _⟩ | ⟨tag, ht, rfl⟩ <;> simp <;> omega

/-! ## LLDP -/

theorem lldpCheck_eq (f pad : Bytes) (h1 : 18 ≤ f.length) (h2 : f.length ≤ 1518) :
    lldpCheck (f ++ pad) f.length =
      if at_ f 0 6 = LLDP_DST ∧ at_ f (12 + tagOff f) 2 = [0x88, 0xcc] then
        .ok (14 + tagOff f) else .fail := by
  unfold lldpCheck
  rw [if_neg (by unfold ETHER_MAX_LEN; omega), rd_append (by omega)]
  simp only [Res.bind_eq, Res.bind_ok]
  have e1 : (at_ f 0 14).take 6 = at_ f 0 6 := by simp [at_, List.take_take]
  have e2 : (at_ f 0 14).drop 12 = at_ f 12 2 := by simp [at_, List.drop_take]
  have hx : be16 ETHERTYPE_LLDP = [0x88, 0xcc] := rfl
  have hx' : be16 ETHERTYPE_VLAN = [0x81, 0x00] := rfl
  simp only [e1, e2, beNat_eq_iff (at_length (f := f) (p := 12) (n := 2) (by omega))
      (show ETHERTYPE_VLAN < 65536 by decide),
    beNat_eq_iff (at_length (f := f) (p := 12) (n := 2) (by omega))
      (show ETHERTYPE_LLDP < 65536 by decide), hx, hx']
  by_cases hdst : at_ f 0 6 = LLDP_DST
  · rw [if_neg (by simpa using hdst)]
    by_cases ht : at_ f 12 2 = [0x81, 0x00]
    · have htag : tagOff f = 4 := by unfold tagOff; rw [if_pos ht]
      rw [if_pos ht, rd_append (by omega), htag]
      simp only [Res.bind_ok]
      simp only [beNat_eq_iff (at_length (f := f) (p := 12 + 4) (n := 2) (by omega))
        (show ETHERTYPE_LLDP < 65536 by decide), hx]
      by_cases hc : at_ f (12 + 4) 2 = [0x88, 0xcc]
      · rw [if_pos hc, if_pos ⟨hdst, hc⟩]
      · rw [if_neg hc, if_neg]; rintro ⟨_, h⟩; exact hc h
    · have htag : tagOff f = 0 := by unfold tagOff; rw [if_neg ht]
      rw [if_neg ht, htag]
      by_cases hc : at_ f 12 2 = [0x88, 0xcc]
      · rw [if_pos hc, if_pos ⟨hdst, hc⟩]
      · rw [if_neg hc, if_neg]; rintro ⟨_, h⟩; exact hc h
  · rw [if_pos hdst, if_neg]; rintro ⟨h, _⟩; exact hdst h

theorem lldpPrefix_iff' (f : Bytes) (n : Nat) :
    (∃ pre payload, f = pre ++ payload ∧ LldpPrefix pre ∧ n = pre.length) ↔
      (at_ f 0 6 = LLDP_DST ∧ at_ f (12 + tagOff f) 2 = [0x88, 0xcc] ∧ n = 14 + tagOff f) := by
  constructor
  · rintro ⟨pre, payload, rfl, ⟨src, hs, hpre⟩, rfl⟩
    match src, hs with
    | [s0, s1, s2, s3, s4, s5], _ =>
      rcases hpre with rfl | ⟨tag, ht, rfl⟩
      · have htag : ∀ x, tagOff ([0x01, 0x80, 0xc2, 0x00, 0x00, 0x0e] ++ [s0, s1, s2, s3, s4, s5] ++
            [0x88, 0xcc] ++ x) = 0 := by
          intro x; unfold tagOff; rw [if_neg]; simp [at_]
        rw [htag]
        simp [at_, LLDP_DST]
      · match tag, ht with
        | [t0, t1], _ =>
          have htag : ∀ x, tagOff ([0x01, 0x80, 0xc2, 0x00, 0x00, 0x0e] ++ [s0, s1, s2, s3, s4, s5] ++
              [0x81, 0x00] ++ [t0, t1] ++ [0x88, 0xcc] ++ x) = 4 := by
            intro x; unfold tagOff; rw [if_pos]; simp [at_]
          rw [htag]
          simp [at_, LLDP_DST]
  · rintro ⟨ha, hb, rfl⟩
    have h1 : 14 + tagOff f ≤ f.length := by
      have := congrArg List.length hb
      simp [at_] at this; omega
    refine ⟨f.take (14 + tagOff f), f.drop (14 + tagOff f), (List.take_append_drop _ _).symm, ?_, ?_⟩
    · by_cases ht : at_ f 12 2 = [0x81, 0x00]
      · have htag : tagOff f = 4 := by unfold tagOff; rw [if_pos ht]
        rw [htag] at hb ⊢
        refine ⟨at_ f 6 6, at_length (by omega), Or.inr ⟨at_ f 14 2, at_length (by omega), ?_⟩⟩
        have e : f.take 18 = at_ f 0 6 ++ at_ f 6 6 ++ at_ f 12 2 ++ at_ f 14 2 ++ at_ f 16 2 := by
          have := List.take_append_drop 18 f
          apply List.append_cancel_right (bs := f.drop 18)
          rw [this]
          conv => lhs; rw [← List.drop_zero (l := f), split_at f 0 6, split_at f (0 + 6) 6, split_at f (0 + 6 + 6) 2,
            split_at f (0 + 6 + 6 + 2) 2, split_at f (0 + 6 + 6 + 2 + 2) 2]
          simp
        rw [show 14 + 4 = 18 from rfl, e, ha, ht, show 16 = 12 + 4 from rfl, hb]
        rfl
      · have htag : tagOff f = 0 := by unfold tagOff; rw [if_neg ht]
        rw [htag] at hb ⊢
        refine ⟨at_ f 6 6, at_length (by omega), Or.inl ?_⟩
        have e : f.take 14 = at_ f 0 6 ++ at_ f 6 6 ++ at_ f 12 2 := by
          have := List.take_append_drop 14 f
          apply List.append_cancel_right (bs := f.drop 14)
          rw [this]
          conv => lhs; rw [← List.drop_zero (l := f), split_at f 0 6, split_at f (0 + 6) 6, split_at f (0 + 6 + 6) 2]
          simp
        rw [show 14 + 0 = 14 from rfl, e, ha, hb]
        rfl
    · have : tagOff f ≤ 4 := by unfold tagOff; split <;> omega
      simp; omega

theorem lldpPrefix_iff (f : Bytes) (_h1 : 18 ≤ f.length) (n : Nat) :
    (∃ pre payload, f = pre ++ payload ∧ LldpPrefix pre ∧ n = pre.length) ↔
      (at_ f 0 6 = LLDP_DST ∧ at_ f (12 + tagOff f) 2 = [0x88, 0xcc] ∧ n = 14 + tagOff f) :=
  lldpPrefix_iff' f n

theorem lldpCheck_spec (f pad : Bytes) (h1 : 18 ≤ f.length) (h2 : f.length ≤ 1518) :
    (∃ pre payload, f = pre ++ payload ∧ LldpPrefix pre ∧ lldpCheck (f ++ pad) f.length = .ok pre.length) ∨
    (lldpCheck (f ++ pad) f.length = .fail ∧ ¬ ∃ pre payload, f = pre ++ payload ∧ LldpPrefix pre) := by
  rw [lldpCheck_eq f pad h1 h2]
  by_cases hc : at_ f 0 6 = LLDP_DST ∧ at_ f (12 + tagOff f) 2 = [0x88, 0xcc]
  · left
    obtain ⟨pre, payload, e1, e2, e3⟩ := (lldpPrefix_iff f h1 (14 + tagOff f)).mpr ⟨hc.1, hc.2, rfl⟩
    exact ⟨pre, payload, e1, e2, by rw [if_pos hc, e3]⟩
  · right
    refine ⟨by rw [if_neg hc], ?_⟩
    rintro ⟨pre, payload, e1, e2⟩
    have := (lldpPrefix_iff f h1 pre.length).mp ⟨pre, payload, e1, e2, rfl⟩
    exact hc ⟨this.1, this.2.1⟩

theorem lldpPrefix_unique {f pre payload pre' payload' : Bytes} (h1 : 18 ≤ f.length)
    (e : f = pre ++ payload) (h : LldpPrefix pre) (e' : f = pre' ++ payload') (h' : LldpPrefix pre') :
    pre = pre' ∧ payload = payload' := by
  have a := (lldpPrefix_iff f h1 pre.length).mp ⟨pre, payload, e, h, rfl⟩
  have b := (lldpPrefix_iff f h1 pre'.length).mp ⟨pre', payload', e', h', rfl⟩
  have hl : pre.length = pre'.length := by rw [a.2.2, b.2.2]
  rw [e] at e'
  exact List.append_inj e' hl

theorem lldpPrefix_length {pre : Bytes} (h : LldpPrefix pre) : 14 ≤ pre.length ∧ pre.length ≤ 18 := by
  obtain ⟨src, hs, hpre⟩ := h
  rcases hpre with rfl | ⟨tag, ht, rfl⟩ <;> simp <;> omega

end Ladvd
