import Verif.Model.Tlv
import Verif.Spec.Text
/-!
# `strnvis` against the text specification
-/

namespace Ladvd

open Spec

theorem forall_uint8 {P : UInt8 → Prop} (h : ∀ n : Fin 256, P (UInt8.ofNat n)) (c : UInt8) : P c := by
  have := h ⟨c.toNat, c.toNat_lt⟩
  simpa using this

/-- Every item `vis` produces has at most four characters, whatever the flags. -/
theorem vis_length_le (f : VisFlags) (c n : UInt8) : (vis f c n).length ≤ 4 := by
  unfold vis
  split
  · split <;> simp
  · split
    · rename_i e he
      split at he
      · unfold cstyleEsc at he
        repeat' split at he
        all_goals first | (cases he; simp) | simp at he
      · simp at he
    · split
      · simp [octalEsc]
      · dsimp only
        repeat' split
        all_goals simp only [List.length_append, List.length_cons, List.length_nil]
        all_goals omega

theorem vis_copy (c n : UInt8) (hc : c ≠ 0) : vis COPY_FLAGS c n = showByte c := by
  revert hc
  apply forall_uint8 (P := fun c => c ≠ 0 → vis COPY_FLAGS c n = showByte c)
  have h : ∀ k : Fin 256, vis COPY_FLAGS (UInt8.ofNat k) 0 = showByte (UInt8.ofNat k) := by decide +kernel
  intro k _
  rw [← h k]
  simp [vis, COPY_FLAGS]

theorem vis_value (c n : UInt8) (hc : c ≠ 0) : vis VALUE_FLAGS c n = showByteGlob c := by
  revert hc
  apply forall_uint8 (P := fun c => c ≠ 0 → vis VALUE_FLAGS c n = showByteGlob c)
  have h : ∀ k : Fin 256, vis VALUE_FLAGS (UInt8.ofNat k) 0 = showByteGlob (UInt8.ofNat k) := by
    decide +kernel
  intro k _
  rw [← h k]
  simp [vis, VALUE_FLAGS]

/-- The complete encoding of a string, item by item. -/
def visAll (f : VisFlags) : Bytes → Bytes
  | [] => []
  | c :: src => vis f c (nextc src) ++ visAll f src

theorem visAll_length (f : VisFlags) (src : Bytes) : (visAll f src).length = visLen f src := by
  induction src with
  | nil => rfl
  | cons c src ih => simp [visAll, visLen, ih]

theorem vis_length_pos (f : VisFlags) (c n : UInt8) : 1 ≤ (vis f c n).length := by
  unfold vis
  split
  · simp
  · split
    · rename_i e he
      split at he
      · unfold cstyleEsc at he
        repeat' split at he
        all_goals first | (cases he; simp) | simp at he
      · simp at he
    · split
      · simp [octalEsc]
      · dsimp only
        repeat' split
        all_goals simp only [List.length_append, List.length_cons, List.length_nil]
        all_goals omega

theorem vis_visible (f : VisFlags) (c n : UInt8) (h : isvisible f c = true) :
    vis f c n = c :: (if c == 0x5c && !f.noslash then [0x5c] else []) := by
  unfold vis; rw [if_pos h]

/-- The loop stores whole items: what has been stored plus what has not been read is the complete
encoding, and it never stores past `siz - 1`. -/
theorem strnvisLoop_spec (f : VisFlags) (siz : Nat) (src : Bytes) : ∀ (out : Bytes) (i : Nat),
    out.length + 1 ≤ siz → (out.length + 1 < siz ∨ 1 ≤ i) →
    ∃ out' rest j, strnvisLoop f siz src out i = (out', rest, j) ∧
      out' ++ visAll f rest = out ++ visAll f src ∧ out'.length + 1 ≤ siz ∧
      (rest ≠ [] → siz < out'.length + j + 1) ∧
      (out.length + 4 * src.length + 1 ≤ siz → rest = []) := by
  induction src with
  | nil => intro out i h _; exact ⟨out, [], i, rfl, rfl, h, by simp, by simp⟩
  | cons c src ih =>
    intro out i h hi
    unfold strnvisLoop
    have hle := vis_length_le f c (nextc src)
    have hpos := vis_length_pos f c (nextc src)
    split
    · rename_i hlt
      split
      · rename_i hv
        have hvis := vis_visible f c (nextc src) hv
        split
        · rename_i hb
          rw [if_pos hb] at hvis
          split
          · obtain ⟨o, r, j, e1, e2, e3, e4, e5⟩ := ih (out ++ [c, 0x5c]) 1 (by simp; omega) (by omega)
            refine ⟨o, r, j, e1, ?_, e3, e4, ?_⟩
            · rw [e2]; simp [visAll, hvis]
            · intro hroom; apply e5; simp at hroom ⊢; omega
          · refine ⟨out, c :: src, 2, rfl, rfl, h, ?_, ?_⟩
            · intro _; omega
            · intro hroom; simp at hroom; omega
        · rename_i hb
          rw [if_neg hb] at hvis
          obtain ⟨o, r, j, e1, e2, e3, e4, e5⟩ := ih (out ++ [c]) 1 (by simp; omega) (by omega)
          refine ⟨o, r, j, e1, ?_, e3, e4, ?_⟩
          · rw [e2]; simp [visAll, hvis]
          · intro hroom; apply e5; simp at hroom ⊢; omega
      · dsimp only
        split
        · obtain ⟨o, r, j, e1, e2, e3, e4, e5⟩ :=
            ih (out ++ vis f c (nextc src)) (vis f c (nextc src)).length (by simp; omega) (by omega)
          refine ⟨o, r, j, e1, ?_, e3, e4, ?_⟩
          · rw [e2]; simp [visAll]
          · intro hroom; apply e5; simp at hroom ⊢; omega
        · refine ⟨out, c :: src, _, rfl, rfl, h, ?_, ?_⟩
          · intro _; omega
          · intro hroom; simp at hroom; omega
    · refine ⟨out, c :: src, i, rfl, rfl, h, ?_, ?_⟩
      · intro _; omega
      · intro hroom; simp at hroom; omega

/-- With room for four characters per byte `strnvis` stores the complete encoding. -/
theorem strnvis_room (f : VisFlags) (src : Bytes) (siz : Nat) (h : 4 * src.length + 1 ≤ siz) :
    strnvis f src siz = (visAll f src, visLen f src) := by
  by_cases h0 : src = []
  · subst h0
    have : strnvisLoop f siz [] [] 0 = ([], [], 0) := rfl
    simp [strnvis, this, visAll, visLen]
  · have hl : 1 ≤ src.length := by
      cases src with
      | nil => exact absurd rfl h0
      | cons _ _ => simp
    obtain ⟨o, r, j, e1, e2, e3, e4, e5⟩ := strnvisLoop_spec f siz src [] 0 (by simp; omega)
      (by simp; omega)
    have hr := e5 (by simp; omega)
    subst hr
    have ho : o = visAll f src := by simpa [visAll] using e2
    subst ho
    simp [strnvis, e1, visLen, visAll_length]

theorem visAll_copy (src : Bytes) (h : ∀ c ∈ src, c ≠ 0) : visAll COPY_FLAGS src = src.flatMap showByte := by
  induction src with
  | nil => rfl
  | cons c src ih =>
    simp only [visAll, List.flatMap_cons]
    rw [vis_copy _ _ (h c (by simp)), ih (fun d hd => h d (by simp [hd]))]

theorem visAll_value (src : Bytes) (h : ∀ c ∈ src, c ≠ 0) :
    visAll VALUE_FLAGS src = src.flatMap showByteGlob := by
  induction src with
  | nil => rfl
  | cons c src ih =>
    simp only [visAll, List.flatMap_cons]
    rw [vis_value _ _ (h c (by simp)), ih (fun d hd => h d (by simp [hd]))]

theorem cstr_ne_zero (v : Bytes) : ∀ c ∈ cstr v, c ≠ 0 := by
  unfold cstr
  induction v with
  | nil => simp
  | cons a v ih =>
    intro c hc
    rw [List.takeWhile_cons] at hc
    split at hc
    · rename_i ha
      rcases List.mem_cons.mp hc with rfl | h
      · simpa using ha
      · exact ih c h
    · simp at hc

theorem cstr_length_le (v : Bytes) : (cstr v).length ≤ v.length :=
  (List.takeWhile_prefix _).length_le

/-- `tlv_str_copy` shows exactly the specified text: its buffer is large enough. -/
theorem tlvStrCopyVal_eq (v : Bytes) : tlvStrCopyVal v = shown v := by
  unfold tlvStrCopyVal
  have hl := cstr_length_le (v.take TLV_STR_MAX)
  dsimp only
  rw [strnvis_room _ _ _ (by omega)]
  exact visAll_copy _ (cstr_ne_zero _)

/-- `tlv_value_str` shows exactly the specified text: its buffer is large enough. -/
theorem tlvValueStrVal_eq (v : Bytes) : tlvValueStrVal v = shownGlob v := by
  unfold tlvValueStrVal
  have hl := cstr_length_le (v.take TLV_STR_MAX)
  dsimp only
  rw [strnvis_room _ _ _ (by omega)]
  exact visAll_value _ (cstr_ne_zero _)

end Ladvd
