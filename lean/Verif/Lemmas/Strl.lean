import Verif.Model.Strl
/-!
# Lemmas about `strlcpy` and `strlcat`
-/

namespace Ladvd

theorem wr_ok {m v : Bytes} {p : Nat} (h : p + v.length ≤ m.length) :
    wr m p v = .ok (m.take p ++ v ++ m.drop (p + v.length)) := by
  unfold wr; rw [if_pos h]

theorem rd_ok {m : Bytes} {p n : Nat} (h : p + n ≤ m.length) : rd m p n = .ok ((m.drop p).take n) := by
  unfold rd; rw [if_pos h]

/-- Writing the byte after an already written prefix. -/
theorem wr_prefix (a v : Bytes) (b c : Bytes) (h : b.length = v.length) :
    wr (a ++ b ++ c) a.length v = .ok (a ++ v ++ c) := by
  rw [wr_ok (by simp; omega)]
  congr 1
  rw [show a.length + v.length = (a ++ b).length by simp [h], List.drop_left,
    List.append_assoc a b c, List.take_left]

theorem strlcpyLoop_spec (n : Nat) (a src rest : Bytes) (h : n ≤ rest.length) :
    strlcpyLoop n a.length src (a ++ rest) =
      if src.length < n then
        .ok (a ++ src ++ [0] ++ rest.drop (src.length + 1), a.length + src.length + 1, true)
      else .ok (a ++ src.take n ++ rest.drop n, a.length + n, false) := by
  induction n generalizing a src rest with
  | zero => simp [strlcpyLoop]
  | succ n ih =>
    match rest, h with
    | r :: rest, h =>
      have h' : n ≤ rest.length := by simpa using h
      cases src with
      | nil =>
        have := wr_prefix a [0] [r] rest rfl
        simp only [List.append_assoc, List.singleton_append] at this
        simp only [strlcpyLoop, this]
        simp
      | cons c src =>
        have := wr_prefix a [c] [r] rest rfl
        simp only [List.append_assoc, List.singleton_append] at this
        simp only [strlcpyLoop, this, Res.bind_eq, Res.bind_ok]
        have h2 := ih (a ++ [c]) src rest h'
        simp only [List.length_append, List.length_cons, List.length_nil, Nat.zero_add,
          List.append_assoc, List.singleton_append] at h2
        rw [h2]
        by_cases hs : src.length < n
        · rw [if_pos hs, if_pos (by simp; omega)]
          simp; omega
        · rw [if_neg hs, if_neg (by simp; omega)]
          simp; omega

theorem strlcatScan_spec (n : Nat) (d : Bytes) (k : Nat) (h : n ≤ d.length) :
    strlcatScan n d k = .ok (k + ((d.take n).takeWhile (· ≠ 0)).length) := by
  induction n generalizing d k with
  | zero => simp [strlcatScan]
  | succ n ih =>
    match d, h with
    | c :: d, h =>
      have h' : n ≤ d.length := by simpa using h
      simp only [strlcatScan, List.take_succ_cons, List.takeWhile_cons]
      by_cases hc : c = 0
      · simp [hc]
      · rw [if_neg hc, ih d (k + 1) h']
        simp [hc]; omega

theorem strlcatLoop_spec (n : Nat) (a src rest : Bytes) (hn : 0 < n) (h : n ≤ rest.length) :
    strlcatLoop n a.length src (a ++ rest) =
      .ok (a ++ src.take (n - 1) ++ [0] ++ rest.drop (min src.length (n - 1) + 1)) := by
  induction src generalizing n a rest with
  | nil =>
    match rest, h with
    | r :: rest, h =>
      have := wr_prefix a [0] [r] rest rfl
      simp only [List.append_assoc, List.singleton_append] at this
      simp [strlcatLoop, this]
    | [], h => simp at h; omega
  | cons c src ih =>
    match rest, h with
    | [], h => simp at h; omega
    | r :: rest, h =>
      unfold strlcatLoop
      by_cases h1 : n = 1
      · rw [if_neg (by omega), ih n a (r :: rest) hn h]
        subst h1; simp
      · rw [if_pos h1]
        have := wr_prefix a [c] [r] rest rfl
        simp only [List.append_assoc, List.singleton_append] at this
        rw [this]
        simp only [Res.bind_eq, Res.bind_ok]
        have h2 := ih (n - 1) (a ++ [c]) rest (by omega) (by simp at h; omega)
        simp only [List.length_append, List.length_cons, List.length_nil, Nat.zero_add,
          List.append_assoc, List.singleton_append] at h2
        rw [h2]
        obtain ⟨k, rfl⟩ : ∃ k, n = k + 2 := ⟨n - 2, by omega⟩
        simp [Nat.add_min_add_right]

end Ladvd
