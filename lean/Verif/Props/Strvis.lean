import Verif.Lemmas.Unvis
/-!
# C76: the visual encoding, for every choice of its flags
-/

namespace Ladvd.Props

open Spec

/-- A block of arbitrary bytes, NULs included, reads back from its encoding, whatever the flags as long as backslashes are
written. -/
theorem C76_block (f : VisFlags) (hf : f.noslash = false) (src : Bytes) :
    unvis (strvisx f src).1 = some src ∧ (strvisx f src).2 = (strvisx f src).1.length := by
  rw [strvisx_eq]
  exact ⟨unvis_visAll f hf src, (visAll_length f src).symm⟩

/-- In C style a NUL in front of a digit takes three digits, a NUL in front of anything else takes one. -/
example : (strvisx { cstyle := true } [0x61, 0, 0x37, 0, 0x38, 0xff, 1, 0x20]).1 =
    "a\\0007\\08\\M^?\\^A ".toUTF8.toList := by decide +kernel

example : unvis "a\\0007\\08\\M^?\\^A ".toUTF8.toList = some [0x61, 0, 0x37, 0, 0x38, 0xff, 1, 0x20] := by decide +kernel

/-- The same for strings, in a buffer without limit. -/
theorem C76_string (f : VisFlags) (hf : f.noslash = false) (src : Bytes) :
    unvis (strvis f src).1 = some src ∧ (strvis f src).2 = (strvis f src).1.length := by
  rw [strvis_eq]
  exact ⟨unvis_visAll f hf src, (visAll_length f src).symm⟩

/-- In a limited buffer the encoding of as many leading bytes is stored as fits with the NUL: never a part of an escape, and
never fewer bytes than possible. -/
theorem C76_truncated (f : VisFlags) (src : Bytes) (hn : ∀ c ∈ src, c ≠ 0) (siz : Nat) (hs : 1 ≤ siz) :
    ∃ k, k ≤ src.length ∧ (strnvis f src siz).1 = (strvis f (src.take k)).1 ∧ (strnvis f src siz).1.length < siz ∧
      (k < src.length → siz ≤ (strvis f (src.take (k + 1))).1.length) := by
  obtain ⟨fst, rest, e1, e2, e3, e4, e5⟩ := strnvisLoop_prefix f siz src [] 0 hs
  have hfst : ∀ c ∈ fst, c ≠ 0 := fun c hc => hn c (by rw [e1]; simp [hc])
  have hout : (strnvisLoop f siz src [] 0).1 = visAll f fst := by
    rw [List.nil_append] at e3
    have h : visAll f src = visAll f fst ++ visAll f rest := by rw [e1]; exact visAll_append f fst rest hfst
    rw [h] at e3
    exact List.append_cancel_right e3
  have htake : src.take fst.length = fst := by rw [e1]; simp
  have hst : (strnvis f src siz).1 = visAll f fst := hout
  refine ⟨fst.length, by rw [e1]; simp, ?_, ?_, ?_⟩
  · rw [strvis_eq, htake, hst]
  · rw [hst, ← hout]; omega
  · intro hlt
    rw [strvis_eq]
    cases hr : rest with
    | nil => rw [e1, hr] at hlt; simp at hlt
    | cons c r =>
      have h5 := e5 c r hr
      rw [hout] at h5
      have : src.take (fst.length + 1) = fst ++ [c] := by rw [e1, hr, List.take_append]; simp [List.take_of_length_le]
      rw [this]
      show siz ≤ (visAll f (fst ++ [c])).length
      rw [visAll_append f fst [c] hfst]
      have hc : c ≠ 0 := hn c (by rw [e1, hr]; simp)
      simp only [visAll, List.length_append, List.append_nil]
      rw [vis_next f c (nextc []) (nextc r) hc]
      omega

/-- A tab needs four characters here, so only the `a` fits into five bytes. -/
example : strnvis { tab := true, octal := true } [0x61, 9, 0x62] 5 = ("a".toUTF8.toList, 6) := by decide +kernel

example : strnvis { tab := true, octal := true } [0x61, 9, 0x62] 6 = ("a\\011".toUTF8.toList, 6) := by decide +kernel

/-- The limited encoder reports the length of the whole encoding, and a caller can tell from the result whether its buffer was
large enough.  Missing: a buffer of exactly one byte, see `C76_one`. -/
theorem C76_length_partial (f : VisFlags) (src : Bytes) (siz : Nat) (h1 : siz ≠ 1) :
    (strnvis f src siz).2 = (strvis f src).2 ∧
    (1 ≤ siz → (∀ c ∈ src, c ≠ 0) → ((strnvis f src siz).2 < siz ↔ (strnvis f src siz).1 = (strvis f src).1)) := by
  have hret := strnvis_ret f src siz h1
  refine ⟨by rw [hret, strvis_eq], ?_⟩
  intro hs hn
  obtain ⟨k, hk, ht, h2, h3⟩ := C76_truncated f src hn siz hs
  rw [hret, strvis_eq]
  constructor
  · intro hlt
    rw [ht]
    by_cases hkl : k < src.length
    · have := h3 hkl
      exfalso
      have hsplit : visAll f src = visAll f (src.take (k + 1)) ++ visAll f (src.drop (k + 1)) := by
        rw [← visAll_append f _ _ (fun c hc => hn c (List.mem_of_mem_take hc)), List.take_append_drop]
      have hl := visAll_length f src
      rw [hsplit, List.length_append] at hl
      rw [strvis_eq] at this
      dsimp only at this
      omega
    · rw [List.take_of_length_le (by omega), strvis_eq]
  · intro he
    rw [he] at h2
    rw [← visAll_length]
    exact h2

/-- For a buffer of one byte every string is reported to take no room at all, although nothing of it is stored. -/
theorem C76_one (f : VisFlags) (src : Bytes) : strnvis f src 1 = ([], 0) ∧
    (src ≠ [] → (strnvis f src 1).2 < (strvis f src).2) := by
  have h : strnvis f src 1 = ([], 0) := by cases src <;> simp [strnvis, strnvisLoop]
  refine ⟨h, ?_⟩
  intro hne
  rw [h, strvis_eq]
  cases src with
  | nil => exact absurd rfl hne
  | cons c src =>
    have := vis_length_pos f c (nextc src)
    simp only [visLen]
    omega

/-- Without backslashes different texts look the same. -/
theorem C76_noslash : (strvis { noslash := true } [1]).1 = (strvis { noslash := true } [0x5e, 0x41]).1 := by
  decide +kernel

end Ladvd.Props
