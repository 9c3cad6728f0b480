import Verif.Lemmas.Vis
/-!
# The displayed text: alphabet and inverse
-/

namespace Ladvd

open Spec

theorem showByte_safe (c : UInt8) : ∀ d ∈ showByte c,
    (0x20 ≤ d ∧ d ≤ 0x7e) ∨ d = 7 ∨ d = 8 ∨ d = 9 ∨ d = 10 ∨ d = 13 := by
  apply forall_uint8 (P := fun c => ∀ d ∈ showByte c,
    (0x20 ≤ d ∧ d ≤ 0x7e) ∨ d = 7 ∨ d = 8 ∨ d = 9 ∨ d = 10 ∨ d = 13)
  decide +kernel

theorem showByteGlob_safe (c : UInt8) : ∀ d ∈ showByteGlob c,
    (0x20 ≤ d ∧ d ≤ 0x7e) ∧ d ≠ 0x2a ∧ d ≠ 0x3f ∧ d ≠ 0x5b ∧ d ≠ 0x23 := by
  apply forall_uint8 (P := fun c => ∀ d ∈ showByteGlob c,
    (0x20 ≤ d ∧ d ≤ 0x7e) ∧ d ≠ 0x2a ∧ d ≠ 0x3f ∧ d ≠ 0x5b ∧ d ≠ 0x23)
  decide +kernel

theorem unshow_plain (c : UInt8) (r : Bytes) (h : c ≠ 0x5c) : unshow (c :: r) = (unshow r).map (c :: ·) := by
  rw [unshow.eq_4]
  · rw [if_neg h]
  · intro r' h1 h2; exact h h1
  · intro a b c' r' h1 h2; exact h h1

theorem unshow_octal (c : UInt8) (r : Bytes) : unshow (octal c ++ r) = (unshow r).map (c :: ·) := by
  have h : (0x30 + c / 64 ≠ 0x5c) ∧ (0x30 ≤ 0x30 + c / 64 ∧ 0x30 + c / 64 ≤ 0x33 ∧
      0x30 ≤ 0x30 + c / 8 % 8 ∧ 0x30 + c / 8 % 8 ≤ 0x37 ∧ 0x30 ≤ 0x30 + c % 8 ∧ 0x30 + c % 8 ≤ 0x37) ∧
      ((0x30 + c / 64 - 0x30) * 64 + (0x30 + c / 8 % 8 - 0x30) * 8 + (0x30 + c % 8 - 0x30)) = c := by
    apply forall_uint8 (P := fun c => (0x30 + c / 64 ≠ 0x5c) ∧ (0x30 ≤ 0x30 + c / 64 ∧ 0x30 + c / 64 ≤ 0x33 ∧
      0x30 ≤ 0x30 + c / 8 % 8 ∧ 0x30 + c / 8 % 8 ≤ 0x37 ∧ 0x30 ≤ 0x30 + c % 8 ∧ 0x30 + c % 8 ≤ 0x37) ∧
      ((0x30 + c / 64 - 0x30) * 64 + (0x30 + c / 8 % 8 - 0x30) * 8 + (0x30 + c % 8 - 0x30)) = c)
    decide +kernel
  obtain ⟨h1, h2, h3⟩ := h
  simp only [octal, List.cons_append, List.nil_append]
  generalize ha : 0x30 + c / 64 = a at *
  generalize hb : 0x30 + c / 8 % 8 = b at *
  generalize hd : 0x30 + c % 8 = d at *
  rw [unshow]
  · rw [if_pos h2, h3]
  · exact h1

theorem unshow_showByte (c : UInt8) (r : Bytes) : unshow (showByte c ++ r) = (unshow r).map (c :: ·) := by
  unfold showByte
  split
  · rename_i h; subst h; simp [unshow]
  · rename_i h
    split
    · exact unshow_plain c r h
    · exact unshow_octal c r

theorem unshow_showByteGlob (c : UInt8) (r : Bytes) : unshow (showByteGlob c ++ r) = (unshow r).map (c :: ·) := by
  unfold showByteGlob
  split
  · rename_i h; subst h; simp [unshow]
  · rename_i h
    split
    · exact unshow_plain c r h
    · exact unshow_octal c r

theorem unshow_flatMap (f : UInt8 → Bytes) (hf : ∀ c r, unshow (f c ++ r) = (unshow r).map (c :: ·))
    (s : Bytes) : unshow (s.flatMap f) = some s := by
  induction s with
  | nil => rfl
  | cons c s ih => simp only [List.flatMap_cons]; rw [hf, ih]; rfl

end Ladvd
