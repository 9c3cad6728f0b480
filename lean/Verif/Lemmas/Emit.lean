import Verif.Model.Packet
import Verif.Spec.Wire
import Verif.Lemmas.View
/-!
# What the PUSH macros emit

`Emits f bs`: the pushes `f` store exactly the bytes `bs` at the write position when they fit, and fail
otherwise.
-/

namespace Ladvd

open Spec

/-- Memory `m` with `v` stored at `p`. -/
def put (m : Bytes) (p : Nat) (v : Bytes) : Bytes := m.take p ++ v ++ m.drop (p + v.length)

theorem put_length {m : Bytes} {p : Nat} {v : Bytes} (h : p + v.length ≤ m.length) :
    (put m p v).length = m.length := by
  unfold put; simp; omega

theorem wr_put {m : Bytes} {p : Nat} {v : Bytes} (h : p + v.length ≤ m.length) : wr m p v = .ok (put m p v) := by
  unfold wr put; rw [if_pos h]

theorem put_take {m : Bytes} {p : Nat} {v : Bytes} (h : p + v.length ≤ m.length) :
    (put m p v).take (p + v.length) = m.take p ++ v := by
  unfold put
  rw [List.take_append_of_le_length (by simp; omega)]
  rw [List.take_of_length_le (by simp; omega)]

theorem put_drop {m : Bytes} {p : Nat} {v : Bytes} (h : p + v.length ≤ m.length) {q : Nat} (hq : p + v.length ≤ q) :
    (put m p v).drop q = m.drop q := by
  unfold put
  have hl : (m.take p ++ v).length = p + v.length := by simp; omega
  rw [List.drop_append, hl, List.drop_of_length_le (by omega), List.drop_drop, List.nil_append]
  congr 1; omega

theorem put_put {m : Bytes} {p : Nat} {a b : Bytes} (h : p + a.length + b.length ≤ m.length) :
    put (put m p a) (p + a.length) b = put m p (a ++ b) := by
  conv => lhs; rw [put]
  rw [put_take (by omega), put_drop (by omega) (by omega)]
  simp [put, Nat.add_assoc]

theorem put_nil (m : Bytes) (p : Nat) : put m p [] = m := by simp [put]

/-- Overwriting a part of what was just stored. -/
theorem put_inside {m : Bytes} {p : Nat} {a b b' c : Bytes} (hb : b'.length = b.length)
    (h : p + a.length + b.length + c.length ≤ m.length) :
    put (put m p (a ++ b ++ c)) (p + a.length) b' = put m p (a ++ b' ++ c) := by
  have e : put m p (a ++ b ++ c) = m.take p ++ a ++ (b ++ (c ++ m.drop (p + (a.length + b.length + c.length)))) := by
    simp [put, List.append_assoc, Nat.add_assoc]
  have hl : (m.take p ++ a).length = p + a.length := by simp; omega
  rw [e]
  conv => lhs; rw [put]
  have ht : ∀ r : Bytes, (m.take p ++ a ++ r).take (p + a.length) = m.take p ++ a := by
    intro r; rw [List.take_append_of_le_length (by omega), List.take_of_length_le (by omega)]
  have hd : ∀ r : Bytes, (m.take p ++ a ++ (b ++ r)).drop (p + a.length + b'.length) = r := by
    intro r
    rw [← List.drop_drop, ← hl, List.drop_left, hb, List.drop_left]
  rw [ht, hd]
  simp [put, List.append_assoc, hb, Nat.add_assoc]

theorem rd_put {m : Bytes} {p : Nat} {a b c : Bytes}
    (h : p + a.length + b.length + c.length ≤ m.length) :
    rd (put m p (a ++ b ++ c)) (p + a.length) b.length = .ok b := by
  unfold rd
  rw [put_length (by simp; omega), if_pos (by omega)]
  congr 1
  have e : put m p (a ++ b ++ c) = m.take p ++ a ++ (b ++ (c ++ m.drop (p + (a.length + b.length + c.length)))) := by
    simp [put, List.append_assoc, Nat.add_assoc]
  have hl : (m.take p ++ a).length = p + a.length := by simp; omega
  rw [e, ← hl, List.drop_left, List.take_left]

/-- The pushes `f` store exactly `bs` at the write position, or fail when `bs` does not fit. -/
def Emits (f : W → Res W) (bs : Bytes) : Prop :=
  ∀ w : W, w.pos + w.length ≤ w.mem.length →
    f w = if bs.length ≤ w.length then .ok ⟨put w.mem w.pos bs, w.pos + bs.length, w.length - bs.length⟩ else .fail

theorem emits_push (v : Bytes) : Emits (push v) v := by
  intro w hw
  unfold push
  by_cases h : v.length ≤ w.length
  · rw [if_pos h, if_pos h, wr_put (by omega)]; rfl
  · rw [if_neg h, if_neg h]

theorem emits_push8 (n : Nat) : Emits (push8 n) [UInt8.ofNat n] := emits_push _
theorem emits_push16 (n : Nat) : Emits (push16 n) (be16 n) := emits_push _
theorem emits_push32 (n : Nat) : Emits (push32 n) (be32 n) := emits_push _

theorem emits_nop : Emits nopW [] := by
  intro w _
  simp [nopW, put_nil]

theorem emits_seq {f g : W → Res W} {a b : Bytes} (hf : Emits f a) (hg : Emits g b) : Emits (f ⋙ g) (a ++ b) := by
  intro w hw
  unfold seqW
  rw [hf w hw]
  by_cases h1 : a.length ≤ w.length
  · rw [if_pos h1]
    have hpl := put_length (m := w.mem) (p := w.pos) (v := a) (by omega)
    simp only [Res.bind_eq, Res.bind_ok]
    rw [hg _ (by simp only [hpl]; omega)]
    by_cases h2 : b.length ≤ w.length - a.length
    · rw [if_pos h2, if_pos (by simp; omega)]
      simp only [Res.ok.injEq, W.mk.injEq, List.length_append]
      refine ⟨put_put (by omega), by omega, by omega⟩
    · rw [if_neg h2, if_neg (by simp; omega)]
  · rw [if_neg h1, if_neg (by simp; omega)]; rfl

theorem emits_when {b : Bool} {f : W → Res W} {a : Bytes} (hf : Emits f a) :
    Emits (whenW b f) (if b then a else []) := by
  unfold whenW
  cases b
  · simpa using emits_nop
  · simpa using hf

theorem emits_cdpTlv {t : Nat} {f : W → Res W} {v : Bytes} (hf : Emits f v) :
    Emits (cdpTlvW t f) (cdpEnc1 (t, v)) := by
  intro w hw
  unfold cdpTlvW cdpEnc1
  rw [emits_seq (emits_push16 t) (emits_seq (emits_push16 0) hf) w hw]
  by_cases h : v.length + 4 ≤ w.length
  · rw [if_pos (by simp; omega), if_pos (by simp; omega)]
    simp only [Res.bind_eq, Res.bind_ok]
    have hp := put_inside (m := w.mem) (p := w.pos) (a := be16 t) (b := be16 0) (b' := be16 (v.length + 4)) (c := v)
      rfl (by simp; omega)
    rw [wr_put (by rw [put_length (by simp; omega)]; simp; omega)]
    simp only [Res.bind_ok, Res.pure_eq, Res.ok.injEq, W.mk.injEq]
    simp only [List.length_append, be16_length, ← List.append_assoc] at hp ⊢
    refine ⟨?_, trivial, trivial⟩
    rw [← hp]
    congr 2; omega
  · rw [if_neg (by simp; omega), if_neg (by simp; omega)]; rfl

theorem emits_edpTlv {t : Nat} {f : W → Res W} {v : Bytes} (hf : Emits f v) :
    Emits (edpTlvW t f) (edpEnc1 0x99 (t, v)) := by
  intro w hw
  unfold edpTlvW edpEnc1
  rw [emits_seq (emits_push8 0x99) (emits_seq (emits_push8 t) (emits_seq (emits_push16 0) hf)) w hw]
  by_cases h : v.length + 4 ≤ w.length
  · rw [if_pos (by simp; omega), if_pos (by simp; omega)]
    simp only [Res.bind_eq, Res.bind_ok]
    have hp := put_inside (m := w.mem) (p := w.pos) (a := [0x99, UInt8.ofNat t]) (b := be16 0)
      (b' := be16 (v.length + 4)) (c := v) (by simp) (by simp; omega)
    rw [wr_put (by rw [put_length (by simp; omega)]; simp; omega)]
    simp only [Res.bind_ok, Res.pure_eq, Res.ok.injEq, W.mk.injEq]
    simp only [List.length_append, List.length_cons, List.length_nil, be16_length, List.cons_append,
      List.nil_append] at hp ⊢
    refine ⟨?_, trivial, trivial⟩
    rw [← hp]
    congr 2; omega
  · rw [if_neg (by simp; omega), if_neg (by simp; omega)]; rfl

theorem or_low (t n : Nat) (hn : n < 512) : t * 512 ||| n = t * 512 + n := by
  have := Nat.shiftLeft_add_eq_or_of_lt (i := 9) (b := n) (by omega) t
  rw [Nat.shiftLeft_eq] at this
  simpa using this.symm

theorem emits_lldpTlv {t : Nat} {f : W → Res W} {v : Bytes} (hf : Emits f v) (ht : t < 128)
    (hv : v.length < 512) : Emits (lldpTlvW t f) (lldpEnc1 (t, v)) := by
  intro w hw
  unfold lldpTlvW lldpEnc1
  rw [emits_seq (emits_push16 (t * 512)) hf w hw]
  by_cases h : v.length + 2 ≤ w.length
  · rw [if_pos (by simp; omega), if_pos (by simp; omega)]
    simp only [Res.bind_eq, Res.bind_ok]
    have hr := rd_put (m := w.mem) (p := w.pos) (a := []) (b := be16 (t * 512)) (c := v) (by simp; omega)
    simp only [List.nil_append, List.length_nil, Nat.add_zero, be16_length] at hr
    rw [hr]
    have hp := put_inside (m := w.mem) (p := w.pos) (a := []) (b := be16 (t * 512))
      (b' := be16 (t * 512 + v.length)) (c := v) (by simp) (by simp; omega)
    simp only [List.nil_append, List.length_nil, Nat.add_zero] at hp
    simp only [Res.bind_ok, beNat_be16]
    have hpos : (w.pos + (be16 (t * 512) ++ v).length - (w.pos + 2)) % 512 = v.length := by simp; omega
    rw [hpos, Nat.mod_eq_of_lt (by omega), or_low t _ hv]
    rw [wr_put (by rw [put_length (by simp; omega)]; simp; omega), hp]
    simp
  · rw [if_neg (by simp; omega), if_neg (by simp; omega)]; rfl

theorem emits_foldr {α : Type} (l : List α) {f : α → W → Res W} {g : α → Bytes} (h : ∀ a ∈ l, Emits (f a) (g a)) :
    Emits (l.foldr (fun a k => f a ⋙ k) nopW) (l.flatMap g) := by
  induction l with
  | nil => exact emits_nop
  | cons a l ih =>
    simp only [List.foldr_cons, List.flatMap_cons]
    exact emits_seq (h a (by simp)) (ih (fun b hb => h b (by simp [hb])))

theorem Emits.ok {f : W → Res W} {bs : Bytes} (h : Emits f bs) {m : Bytes} {p l : Nat} (h1 : p + l ≤ m.length)
    (h2 : bs.length ≤ l) : f ⟨m, p, l⟩ = .ok ⟨put m p bs, p + bs.length, l - bs.length⟩ := by
  rw [h _ h1, if_pos h2]

theorem Emits.fail {f : W → Res W} {bs : Bytes} (h : Emits f bs) {m : Bytes} {p l : Nat} (h1 : p + l ≤ m.length)
    (h2 : l < bs.length) : f ⟨m, p, l⟩ = .fail := by
  rw [h _ h1, if_neg (Nat.not_le.mpr h2)]

/-- Pushing some bytes and pushing equal bytes is the same. -/
theorem Emits.cast {f : W → Res W} {a b : Bytes} (h : Emits f a) (e : a = b) : Emits f b := e ▸ h

end Ladvd
