import Verif.Lemmas.Unshow
import Verif.Lemmas.Strl
/-!
# C12, C13, C14: text from peers, bounded string copies
-/

namespace Ladvd.Props

open Spec

/-! ## C12 Untrusted strings are sanitised -/

/-- Bytes that may occur in text shown for CDP/LLDP peers: printable ASCII and BEL, BS, TAB, LF, CR. -/
def SafeText (t : Bytes) : Prop := ∀ c ∈ t, (0x20 ≤ c ∧ c ≤ 0x7e) ∨ c = 7 ∨ c = 8 ∨ c = 9 ∨ c = 10 ∨ c = 13

/-- Bytes that may occur in text shown for EDP/FDP peers: printable ASCII without shell glob characters. -/
def SafeGlobText (t : Bytes) : Prop :=
  ∀ c ∈ t, (0x20 ≤ c ∧ c ≤ 0x7e) ∧ c ≠ 0x2a ∧ c ≠ 0x3f ∧ c ≠ 0x5b ∧ c ≠ 0x23

theorem C12_copy_safe (v : Bytes) : SafeText (tlvStrCopyVal v) := by
  rw [tlvStrCopyVal_eq]
  intro c hc
  obtain ⟨b, _, hb⟩ := List.mem_flatMap.mp hc
  exact showByte_safe b c hb

theorem C12_value_safe (v : Bytes) : SafeGlobText (tlvValueStrVal v) := by
  rw [tlvValueStrVal_eq]
  intro c hc
  obtain ⟨b, _, hb⟩ := List.mem_flatMap.mp hc
  exact showByteGlob_safe b c hb

/-- A value with an escape sequence, a NUL and a byte above 127. -/
example : tlvStrCopyVal [0x1b, 0x41, 0x5c, 0xff, 0x00, 0x42] =
    lit "\\033A\\\\\\377" := by decide +kernel
example : tlvValueStrVal [0x2a, 0x0a, 0x41] = lit "\\052\\012A" := by decide +kernel

/-! ## C13 Sanitisation is lossless and fits its buffer -/

/-- The peer's text can be recovered from what is shown. -/
theorem C13_copy_lossless (v : Bytes) : unshow (tlvStrCopyVal v) = some (peerText v) := by
  rw [tlvStrCopyVal_eq]; exact unshow_flatMap _ unshow_showByte _

@[inherit_doc C13_copy_lossless]
theorem C13_value_lossless (v : Bytes) : unshow (tlvValueStrVal v) = some (peerText v) := by
  rw [tlvValueStrVal_eq]; exact unshow_flatMap _ unshow_showByteGlob _

/-- Different NUL-free texts of at most 511 bytes are never shown identically, by either function. -/
theorem C13_injective (v w : Bytes) (hv : ∀ c ∈ v, c ≠ 0) (hw : ∀ c ∈ w, c ≠ 0)
    (lv : v.length ≤ 511) (lw : w.length ≤ 511)
    (h : tlvStrCopyVal v = tlvStrCopyVal w ∨ tlvValueStrVal v = tlvValueStrVal w) : v = w := by
  have key : ∀ x : Bytes, (∀ c ∈ x, c ≠ 0) → x.length ≤ 511 → peerText x = x := by
    intro x hx lx
    unfold peerText
    rw [List.take_of_length_le lx]
    clear lx
    induction x with
    | nil => rfl
    | cons a x ih =>
      rw [List.takeWhile_cons, if_pos (by simpa using hx a (by simp)),
        ih (fun c hc => hx c (by simp [hc]))]
  have hp : peerText v = peerText w := by
    rcases h with h | h
    · have h1 := C13_copy_lossless v; rw [h, C13_copy_lossless w] at h1; exact (Option.some.inj h1).symm
    · have h1 := C13_value_lossless v; rw [h, C13_value_lossless w] at h1; exact (Option.some.inj h1).symm
  rw [key v hv lv, key w hw lw] at hp
  exact hp

/-- The encoding (and its NUL) fits the `4 * n + 1` byte buffer and is not truncated: `strnvis` reports the
length it stored.  Holds for every flag set. -/
theorem C13_fits (f : VisFlags) (src : Bytes) :
    (strnvis f src (src.length * 4 + 1)).1.length = (strnvis f src (src.length * 4 + 1)).2 ∧
    (strnvis f src (src.length * 4 + 1)).1.length + 1 ≤ src.length * 4 + 1 := by
  rw [strnvis_room _ _ _ (by omega)]
  refine ⟨visAll_length f src, ?_⟩
  dsimp only
  have : (visAll f src).length ≤ src.length * 4 := by
    induction src with
    | nil => simp [visAll]
    | cons c src ih =>
      have := vis_length_le f c (nextc src)
      simp only [visAll, List.length_append, List.length_cons]; omega
  omega

/-- Two texts that a naive renderer would confuse. -/
example : tlvStrCopyVal (lit "a\\033") ≠ tlvStrCopyVal [0x61, 0x1b] ∧
    unshow (tlvStrCopyVal [0x61, 0x1b]) = some [0x61, 0x1b] := by decide +kernel

/-! ## C14 Bounded string copies -/

/-- `strlcpy` into an object of at least `siz` bytes: stays inside, stores the longest prefix that fits
followed by NUL, leaves everything behind it alone and returns the source length. -/
theorem C14_strlcpy (dst src : Bytes) (siz : Nat) (h : siz ≤ dst.length) :
    strlcpy dst src siz = .ok
      (if siz = 0 then dst
       else src.take (siz - 1) ++ [0] ++ dst.drop (min src.length (siz - 1) + 1), src.length) := by
  unfold strlcpy
  have h1 := strlcpyLoop_spec (siz - 1) [] src dst (by omega)
  simp only [List.nil_append, List.length_nil, Nat.zero_add] at h1
  rw [h1]
  by_cases h0 : siz = 0
  · subst h0; simp
  by_cases hs : src.length < siz - 1
  · rw [if_pos hs]
    simp [h0, Nat.min_eq_left (Nat.le_of_lt hs), List.take_of_length_le (Nat.le_of_lt hs)]
  · rw [if_neg hs]
    have hl : (src.take (siz - 1)).length = siz - 1 := by simp; omega
    obtain ⟨r, rest, hr⟩ : ∃ r rest, dst.drop (siz - 1) = r :: rest := by
      cases hd : dst.drop (siz - 1) with
      | nil => have := congrArg List.length hd; simp at this; omega
      | cons r rest => exact ⟨r, rest, rfl⟩
    have hw := wr_prefix (src.take (siz - 1)) [0] [r] rest rfl
    have hd : dst.drop (min src.length (siz - 1) + 1) = rest := by
      rw [Nat.min_eq_right (by omega), ← List.drop_drop, hr]; rfl
    rw [hl] at hw
    simp only [List.append_assoc, List.singleton_append] at hw
    simp only [Res.bind_eq, Res.bind_ok, hr, hd, List.append_assoc, List.singleton_append, hw,
      Bool.false_eq_true, if_false, Res.pure_eq]
    rw [if_pos h0, if_neg h0]

/-- `strlcat` into an object of at least `siz` bytes: appends at the first NUL among the first `siz` bytes the
longest prefix that fits, followed by NUL; without such a NUL nothing changes.  Everything else is left
alone; the return value is the length it tried to create. -/
theorem C14_strlcat (dst src : Bytes) (siz : Nat) (h : siz ≤ dst.length) :
    strlcat dst src siz =
      let dlen := ((dst.take siz).takeWhile (· ≠ 0)).length
      .ok (if dlen = siz then dst
           else dst.take dlen ++ src.take (siz - dlen - 1) ++ [0] ++
             dst.drop (dlen + min src.length (siz - dlen - 1) + 1), dlen + src.length) := by
  unfold strlcat
  rw [strlcatScan_spec siz dst 0 h]
  have hle : ((dst.take siz).takeWhile (· ≠ 0)).length ≤ siz :=
    Nat.le_trans (List.takeWhile_prefix _).length_le (by simp; omega)
  simp only [Res.bind_eq, Res.bind_ok, Nat.zero_add]
  generalize ((dst.take siz).takeWhile (· ≠ 0)).length = dlen at hle
  by_cases hd : dlen = siz
  · subst hd; simp
  · rw [if_neg (by omega), if_neg hd]
    have h2 := strlcatLoop_spec (siz - dlen) (dst.take dlen) src (dst.drop dlen) (by omega)
      (by simp; omega)
    rw [List.take_append_drop, List.length_take_of_le (by omega)] at h2
    rw [h2]
    simp [List.drop_drop, Nat.add_assoc]

/-- After `strlcpy` with a nonzero size the destination holds a terminated string: the longest prefix of a
NUL-free source that fits; a return value of at least `siz` says exactly that something was cut off. -/
theorem C14_strlcpy_string (dst src : Bytes) (siz : Nat) (h : siz ≤ dst.length) (h0 : siz ≠ 0)
    (hs : ∀ c ∈ src, c ≠ 0) :
    ∃ dst' r, strlcpy dst src siz = .ok (dst', r) ∧ dst'.length = dst.length ∧
      (dst'.take siz).takeWhile (· ≠ 0) = src.take (siz - 1) ∧ (0 : UInt8) ∈ dst'.take siz ∧
      dst'.drop siz = dst.drop siz ∧
      (r ≥ siz ↔ (dst'.take siz).takeWhile (· ≠ 0) ≠ src) := by
  refine ⟨_, _, C14_strlcpy dst src siz h, ?_⟩
  rw [if_neg h0]
  have hm : min src.length (siz - 1) + 1 ≤ siz := by omega
  have hlen : (src.take (siz - 1)).length = min src.length (siz - 1) := by
    rw [List.length_take, Nat.min_comm]
  have hcat : (src.take (siz - 1) ++ [0] : Bytes).length = min src.length (siz - 1) + 1 := by
    simp [hlen]
  have htk : (src.take (siz - 1) ++ [0] ++ dst.drop (min src.length (siz - 1) + 1)).take siz =
      src.take (siz - 1) ++ [0] ++ (dst.drop (min src.length (siz - 1) + 1)).take
        (siz - (min src.length (siz - 1) + 1)) := by
    rw [List.take_append, List.take_of_length_le (by omega), hcat]
  have htw : ∀ (a b : Bytes), (∀ c ∈ a, c ≠ 0) → (a ++ [0] ++ b).takeWhile (· ≠ 0) = a := by
    intro a b ha
    induction a with
    | nil => simp
    | cons x a ih =>
      simp only [List.cons_append, List.takeWhile_cons]
      rw [if_pos (by simpa using ha x (by simp)), ih (fun c hc => ha c (by simp [hc]))]
  have hne : ∀ c ∈ src.take (siz - 1), c ≠ 0 := fun c hc => hs c (List.mem_of_mem_take hc)
  refine ⟨?_, ?_, ?_, ?_, ?_⟩
  · rw [List.length_append, hcat, List.length_drop]; omega
  · rw [htk, htw _ _ hne]
  · rw [htk]; simp
  · rw [List.drop_append, List.drop_of_length_le (by omega), hcat, List.drop_drop, List.nil_append]
    congr 1; omega
  · rw [htk, htw _ _ hne]
    constructor
    · intro hr he
      have := congrArg List.length he
      rw [hlen] at this; omega
    · intro hne
      by_cases hl : src.length ≤ siz - 1
      · exact absurd (List.take_of_length_le hl) hne
      · omega

/-- Truncation, exact fit, append and append without a terminated destination. -/
example : strlcpy [1, 2, 3, 4, 5] [0x61, 0x62, 0x63, 0x64] 4 = .ok ([0x61, 0x62, 0x63, 0, 5], 4) := by
  decide +kernel
example : strlcpy [1, 2, 3, 4, 5] [0x61, 0x62, 0x63] 4 = .ok ([0x61, 0x62, 0x63, 0, 5], 3) := by
  decide +kernel
example : strlcat [0x61, 0, 3, 4, 5] [0x62, 0x63, 0x64] 4 = .ok ([0x61, 0x62, 0x63, 0, 5], 4) := by
  decide +kernel
example : strlcat [0x61, 2, 3, 4, 5] [0x62] 3 = .ok ([0x61, 2, 3, 4, 5], 4) := by decide +kernel
/-- The size argument is what keeps the copy inside: an object smaller than `siz` is overrun. -/
example : strlcpy [1, 2] [0x61, 0x62, 0x63] 4 = .oob := by decide +kernel

end Ladvd.Props
