import Verif.Model.Decode
/-!
# Reading through a window of the frame

`View m c v`: the cursor `c` into object `m` covers exactly the bytes `v`.
-/

namespace Ladvd

/-- The cursor `c` covers exactly the bytes `v` of the object `m`. -/
def View (m : Bytes) (c : Cur) (v : Bytes) : Prop :=
  c.length = v.length ∧ c.pos + v.length ≤ m.length ∧ (m.drop c.pos).take v.length = v

theorem View.len {m : Bytes} {c : Cur} {v : Bytes} (h : View m c v) : c.length = v.length := h.1

theorem View.rd {m : Bytes} {c : Cur} {v : Bytes} (h : View m c v) {n : Nat} (hn : n ≤ v.length) :
    rd m c.pos n = .ok (v.take n) := by
  obtain ⟨_, h2, h3⟩ := h
  unfold Ladvd.rd
  rw [if_pos (by omega)]
  congr 1
  conv => rhs; rw [← h3]
  rw [List.take_take, Nat.min_eq_left hn]

theorem View.skip {m : Bytes} {c : Cur} {v : Bytes} (h : View m c v) {n : Nat} (hn : n ≤ v.length) :
    View m ⟨c.pos + n, c.length - n⟩ (v.drop n) := by
  obtain ⟨h1, h2, h3⟩ := h
  refine ⟨by simp [h1], by simp; omega, ?_⟩
  conv => rhs; rw [← h3]
  simp only [List.length_drop, List.drop_take, List.drop_drop]

theorem View.sub {m : Bytes} {c : Cur} {v : Bytes} (h : View m c v) {n : Nat} (hn : n ≤ v.length) :
    View m ⟨c.pos, n⟩ (v.take n) := by
  obtain ⟨h1, h2, h3⟩ := h
  refine ⟨by simp; omega, by simp; omega, ?_⟩
  conv => rhs; rw [← h3]
  simp [List.take_take]

theorem View.full (m : Bytes) : View m ⟨0, m.length⟩ m := by
  refine ⟨rfl, by simp, by simp⟩

theorem View.grab {m : Bytes} {c : Cur} {v : Bytes} (h : View m c v) (n : Nat) :
    grab m n c = if n ≤ v.length then .ok (beNat (v.take n), ⟨c.pos + n, c.length - n⟩) else .fail := by
  unfold Ladvd.grab
  have h1 := h.len
  by_cases hn : n ≤ v.length
  · rw [if_pos (by omega), if_pos hn, h.rd hn]; rfl
  · rw [if_neg (by omega), if_neg hn]

theorem View.grabBytes {m : Bytes} {c : Cur} {v : Bytes} (h : View m c v) (n : Nat) :
    grabBytes m n c = if n ≤ v.length then .ok (v.take n, ⟨c.pos + n, c.length - n⟩) else .fail := by
  unfold Ladvd.grabBytes
  have h1 := h.len
  by_cases hn : n ≤ v.length
  · rw [if_pos (by omega), if_pos hn, h.rd hn]; rfl
  · rw [if_neg (by omega), if_neg hn]

theorem View.skip_eq {m : Bytes} {c : Cur} {v : Bytes} (h : View m c v) (n : Nat) :
    Ladvd.skip n c = if n ≤ v.length then .ok ⟨c.pos + n, c.length - n⟩ else .fail := by
  unfold Ladvd.skip
  have h1 := h.len
  by_cases hn : n ≤ v.length
  · rw [if_pos (by omega), if_pos hn]
  · rw [if_neg (by omega), if_neg hn]

theorem View.strCopy {m : Bytes} {c : Cur} {v : Bytes} (h : View m c v) :
    tlvStrCopy m c.pos c.length = .ok (tlvStrCopyVal v) := by
  unfold tlvStrCopy
  have h1 := h.len
  rw [h.rd (by omega : min c.length TLV_STR_MAX ≤ v.length)]
  simp only [Res.bind_eq, Res.bind_ok, Res.pure_eq, Res.ok.injEq]
  unfold tlvStrCopyVal
  have : (v.take (min c.length TLV_STR_MAX)).take TLV_STR_MAX = v.take TLV_STR_MAX := by
    rw [List.take_take, h1, List.take_eq_take_iff]; omega
  simp only [this]

theorem View.valueStr {m : Bytes} {c : Cur} {v : Bytes} (h : View m c v) (cur : Option Bytes) :
    tlvValueStr m c.pos c.length cur = .ok (peerStr cur (tlvValueStrVal v)) := by
  unfold tlvValueStr
  cases cur with
  | some x => rfl
  | none =>
    have h1 := h.len
    simp only
    rw [h.rd (by omega : min c.length TLV_STR_MAX ≤ v.length)]
    simp only [Res.bind_eq, Res.bind_ok, Res.pure_eq, Res.ok.injEq, peerStr, Option.some.injEq]
    unfold tlvValueStrVal
    have : (v.take (min c.length TLV_STR_MAX)).take TLV_STR_MAX = v.take TLV_STR_MAX := by
      rw [List.take_take, h1, List.take_eq_take_iff]; omega
    simp only [this]

/-! ## Big-endian numbers -/

theorem beNat_nil : beNat [] = 0 := rfl
theorem beNat_1 (a : UInt8) : beNat [a] = a.toNat := by simp [beNat]
theorem beNat_2 (a b : UInt8) : beNat [a, b] = a.toNat * 256 + b.toNat := by simp [beNat]
theorem beNat_4 (a b c d : UInt8) :
    beNat [a, b, c, d] = ((a.toNat * 256 + b.toNat) * 256 + c.toNat) * 256 + d.toNat := by simp [beNat]

theorem beNat_be16 (n : Nat) : beNat (be16 n) = n % 65536 := by
  unfold be16; rw [beNat_2]
  simp only [UInt8.toNat_ofNat']
  omega

theorem beNat_be32 (n : Nat) : beNat (be32 n) = n % 4294967296 := by
  unfold be32; rw [beNat_4]
  simp only [UInt8.toNat_ofNat']
  omega

@[simp] theorem be16_length (n : Nat) : (be16 n).length = 2 := rfl
@[simp] theorem be32_length (n : Nat) : (be32 n).length = 4 := rfl

theorem be16_beNat (a b : UInt8) : be16 (beNat [a, b]) = [a, b] := by
  rw [beNat_2]; unfold be16
  have ha := a.toNat_lt; have hb := b.toNat_lt
  congr 1
  · apply UInt8.toNat_inj.mp; simp only [UInt8.toNat_ofNat']; omega
  · congr 1; apply UInt8.toNat_inj.mp; simp only [UInt8.toNat_ofNat']; omega

theorem beNat_lt_2 (a b : UInt8) : beNat [a, b] < 65536 := by
  rw [beNat_2]; have ha := a.toNat_lt; have hb := b.toNat_lt; omega

theorem exists_two {v : Bytes} (h : 2 ≤ v.length) : ∃ a b r, v = a :: b :: r := by
  match v, h with
  | a :: b :: r, _ => exact ⟨a, b, r, rfl⟩

theorem exists_four {v : Bytes} (h : 4 ≤ v.length) : ∃ a b c d r, v = a :: b :: c :: d :: r := by
  match v, h with
  | a :: b :: c :: d :: r, _ => exact ⟨a, b, c, d, r, rfl⟩

end Ladvd
