import Verif.Model.Packet
import Verif.Spec.Advert
import Verif.Lemmas.View
/-!
# The checksum
-/

namespace Ladvd

open Spec

/-- Sum of the little-endian words without wrap-around. -/
def leSum (cisco : Bool) : Bytes → Nat
  | a :: b :: r => a.toNat + 256 * b.toNat + leSum cisco r
  | [a] => if cisco then 256 * a.toNat else a.toNat
  | [] => 0

theorem leSum_le (cisco : Bool) : ∀ d : Bytes, leSum cisco d ≤ 65535 * d.length
  | a :: b :: r => by
    have := leSum_le cisco r
    have := a.toNat_lt; have := b.toNat_lt
    simp only [leSum, List.length_cons]; omega
  | [a] => by
    have := a.toNat_lt
    simp only [leSum, List.length_cons, List.length_nil]; split <;> omega
  | [] => by simp [leSum]

theorem chksumLoop_eq (cisco : Bool) : ∀ (d : Bytes) (s : Nat), s + 65535 * d.length < 4294967296 →
    chksumLoop cisco d s = s + leSum cisco d
  | a :: b :: r, s, h => by
    have := a.toNat_lt; have := b.toNat_lt
    simp only [List.length_cons] at h
    simp only [chksumLoop, leSum]
    rw [Nat.mod_eq_of_lt (by omega), chksumLoop_eq cisco r _ (by omega)]; omega
  | [a], s, h => by
    have := a.toNat_lt
    simp only [List.length_cons, List.length_nil] at h
    simp only [chksumLoop, leSum]
    rw [Nat.mod_eq_of_lt (by split <;> omega)]
  | [], s, h => by simp [chksumLoop, leSum]

theorem myChksum_spec (cisco : Bool) (d : Bytes) (h : d.length ≤ 65536) :
    myChksum d cisco ≤ 65535 ∧ (myChksum d cisco + leSum cisco d) % 65535 = 0 := by
  have hl := leSum_le cisco d
  have e := chksumLoop_eq cisco d 0 (by omega)
  unfold myChksum
  simp only [e, Nat.zero_add]
  generalize leSum cisco d = S at *
  have hS : S < 4294967296 := by omega
  clear e hl
  constructor
  · omega
  · have h1 : S = 65536 * (S / 65536) + S % 65536 := by omega
    have h2 : S % 65536 < 65536 := by omega
    have h3 : S / 65536 < 65536 := by omega
    generalize S / 65536 = q at *
    generalize S % 65536 = m at *
    subst h1
    by_cases h4 : q + m < 65536
    · have : (q + m) / 65536 = 0 := by omega
      rw [this, Nat.add_zero, Nat.mod_eq_of_lt h4]; omega
    · have : (q + m) / 65536 = 1 := by omega
      have h5 : (q + m + 1) % 65536 = q + m + 1 - 65536 := by omega
      rw [this, h5]
      have h6 : 65535 - (q + m + 1 - 65536) + (65536 * q + m) = 65535 * (q + 2) := by omega
      rw [h6, Nat.mul_mod_right]

theorem leSum_append (cisco : Bool) : ∀ (a b : Bytes), a.length % 2 = 0 →
    leSum cisco (a ++ b) = leSum cisco a + leSum cisco b
  | x :: y :: r, b, h => by
    simp only [List.cons_append, leSum]
    rw [leSum_append cisco r b (by simp only [List.length_cons] at h; omega)]; omega
  | [x], b, h => by simp at h
  | [], b, h => by simp [leSum]

theorem le16_sum (n : Nat) (h : n ≤ 65535) (cisco : Bool) (r : Bytes) :
    leSum cisco (le16 n ++ r) = n + leSum cisco r := by
  simp only [le16, List.cons_append, List.nil_append, leSum, UInt8.toNat_ofNat']
  omega

/-- Little- and big-endian sums differ by the factor 256 modulo 65535. -/
theorem onesSum_spec (cisco : Bool) : ∀ d : Bytes,
    onesSum cisco d ≤ 65535 ∧ (256 * onesSum cisco d) % 65535 = leSum cisco d % 65535
  | a :: b :: r => by
    have ⟨h1, h2⟩ := onesSum_spec cisco r
    have := a.toNat_lt; have := b.toNat_lt
    simp only [onesSum, leSum, onesAdd]
    generalize onesSum cisco r = s at *
    generalize leSum cisco r = S at *
    split <;> constructor <;> omega
  | [a] => by
    have := a.toNat_lt
    simp only [onesSum, leSum]
    split <;> constructor <;> omega
  | [] => by simp [onesSum, leSum]

theorem onesSum_pos (cisco : Bool) (a : UInt8) (r : Bytes) (ha : a ≠ 0) : 0 < onesSum cisco (a :: r) := by
  have h0 : 0 < a.toNat := by
    rcases Nat.eq_zero_or_pos a.toNat with h | h
    · exact absurd (UInt8.toNat_inj.mp (by simpa using h)) ha
    · exact h
  have := a.toNat_lt
  match r with
  | [] => simp only [onesSum]; split <;> omega
  | b :: r =>
    have := b.toNat_lt
    have := (onesSum_spec cisco r).1
    simp only [onesSum, onesAdd]; split <;> omega

/-- Storing the checksum of data with a zero checksum field makes the data verify. -/
theorem checksum_verifies (cisco : Bool) (v : UInt8) (a b : Bytes) (hv : v ≠ 0) (ha : (v :: a).length % 2 = 0)
    (hl : (v :: a).length + 2 + b.length ≤ 65536) :
    Verifies cisco (v :: a ++ le16 (myChksum (v :: a ++ [0, 0] ++ b) cisco) ++ b) := by
  have hd : (v :: a ++ [0, 0] ++ b).length ≤ 65536 := by
    simp only [List.length_append, List.length_cons, List.length_nil] at hl ⊢; omega
  obtain ⟨h1, h2⟩ := myChksum_spec cisco _ hd
  generalize myChksum (v :: a ++ [0, 0] ++ b) cisco = ck at *
  unfold Verifies
  obtain ⟨h3, h4⟩ := onesSum_spec cisco (v :: a ++ le16 ck ++ b)
  have hp : 0 < onesSum cisco (v :: a ++ le16 ck ++ b) := by
    rw [List.append_assoc, List.cons_append]; exact onesSum_pos cisco v _ hv
  rw [List.append_assoc, leSum_append _ _ _ ha, le16_sum _ h1] at h4
  rw [List.append_assoc, leSum_append _ _ _ ha] at h2
  simp only [List.cons_append, List.nil_append, leSum, UInt8.toNat_zero] at h2
  simp only [List.cons_append] at h4
  simp only [List.append_assoc, List.cons_append] at h3 hp ⊢
  generalize onesSum cisco _ = s at *
  omega

end Ladvd
