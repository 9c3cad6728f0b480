import Verif.Spec.Output
import Verif.Lemmas.Print
/-!
# Notation of numbers and protocols
-/

namespace Ladvd

open Spec

theorem digitChar_code (k : Nat) (h : k < 10) : UInt8.ofNat (Nat.digitChar k).toNat = UInt8.ofNat (48 + k) := by
  have : ∀ k : Fin 10, UInt8.ofNat (Nat.digitChar k.val).toNat = UInt8.ofNat (48 + k.val) := by decide
  exact this ⟨k, h⟩

theorem decimalAux_toDigits : ∀ (f g n : Nat) (acc : List Char), n < 10 ^ (f + 1) → n < g →
    decimalAux (f + 1) n (acc.map (fun c => UInt8.ofNat c.toNat)) = (Nat.toDigitsCore 10 g n acc).map (fun c => UInt8.ofNat c.toNat) := by
  intro f
  induction f with
  | zero =>
    intro g n acc h hg
    cases g with
    | zero => omega
    | succ g =>
      have h0 : n / 10 = 0 := by omega
      rw [decimalAux, Nat.toDigitsCore]
      rw [if_pos h0, if_pos h0, List.map_cons, digitChar_code _ (by omega)]
  | succ f ih =>
    intro g n acc h hg
    cases g with
    | zero => omega
    | succ g =>
      rw [decimalAux, Nat.toDigitsCore]
      by_cases h0 : n / 10 = 0
      · rw [if_pos h0, if_pos h0, List.map_cons, digitChar_code _ (by omega)]
      · rw [if_neg h0, if_neg h0, ← ih g (n / 10) _ (by rw [Nat.pow_succ] at h; omega) (by omega), List.map_cons, digitChar_code _ (by omega)]

theorem numeral_eq {f n : Nat} (h : n < 10 ^ (f + 1)) : decimalAux (f + 1) n [] = numeral n := by
  have := decimalAux_toDigits f (n + 1) n [] h (by omega)
  rw [List.map_nil] at this
  rw [this]
  unfold numeral lit
  have e : (toString n).toList = Nat.toDigits 10 n := by
    show (String.ofList (Nat.toDigits 10 n)).toList = _
    exact String.toList_ofList
  rw [e]
  rfl

theorem numeral16 {n : Nat} (h : n < 65536) : decimal16 n = numeral n := numeral_eq (by omega)
theorem numeral32 {n : Nat} (h : n < 2 ^ 32) : decimal32 n = numeral n := numeral_eq (by omega)

theorem protoName_eq (n : Nat) : protoName n = protocolName n := by
  unfold protoName protocolName
  match n with
  | 0 => rfl
  | 1 => rfl
  | 2 => rfl
  | 3 => rfl
  | 4 => rfl
  | 5 => rfl
  | n + 6 =>
    have : Proto.ofNum (n + 6) = none := rfl
    rw [this]
    rfl

end Ladvd
