import Verif.Spec.Sysinfo
import Verif.Lemmas.Parent
import Verif.Props.Text
import Verif.Props.Main
/-!
# Lemmas about the system information
-/

namespace Ladvd

open Spec Props

theorem cstrAt_line {line rest : Bytes} (h : ∀ b ∈ line, b ≠ 0) : cstrAt (line ++ 0 :: rest) 0 = .ok line := by
  unfold cstrAt
  rw [List.drop_zero, if_pos (by simp), cstr_line h]

/-! ## Numbers -/

theorem white_space (b : UInt8) : isSpace b = true ↔ White b := isSpace_iff b

theorem digit_bool (b : UInt8) : ((0x30 ≤ b && b ≤ 0x39) = true) ↔ Digit b := by simp [Digit]

theorem digit_not_white {b : UInt8} (h : Digit b) : ¬ White b := by
  intro hw
  rcases hw with rfl | rfl | rfl | rfl | rfl | rfl <;> (revert h; decide)

theorem digit_not_sign {b : UInt8} (h : Digit b) : b ≠ 0x2b ∧ b ≠ 0x2d := by
  constructor <;> (rintro rfl; revert h; decide)

theorem digitVal_acc (ds : Bytes) : ∀ a, ds.foldl (fun acc b => acc * 10 + (b.toNat - 48)) a = a * 10 ^ ds.length + numValue ds := by
  induction ds with
  | nil => intro a; simp [numValue]
  | cons b r ih =>
    intro a
    rw [List.foldl_cons, ih, numValue, List.length_cons, Nat.pow_succ, Nat.add_mul]
    rw [Nat.mul_assoc, Nat.mul_comm 10, Nat.add_assoc]

theorem digitVal_eq (ds : Bytes) : digitVal ds = numValue ds := by
  unfold digitVal; rw [digitVal_acc]; simp

theorem takeDrop {p : UInt8 → Bool} (l : Bytes) : l = l.takeWhile p ++ l.dropWhile p := (List.takeWhile_append_dropWhile).symm

theorem takeWhile_all {p : UInt8 → Bool} (l : Bytes) : ∀ b ∈ l.takeWhile p, p b = true := List.all_eq_true.mp List.all_takeWhile

theorem dropWhile_head {p : UInt8 → Bool} (l : Bytes) : ∀ b, (l.dropWhile p).head? = some b → p b = false := by
  intro b hb
  have := List.head?_dropWhile_not p l
  rw [hb] at this
  simpa using this

theorem takeWhile_unique {p : UInt8 → Bool} {a b : Bytes} (ha : ∀ x ∈ a, p x = true) (hb : ∀ x, b.head? = some x → p x = false) :
    (a ++ b).takeWhile p = a ∧ (a ++ b).dropWhile p = b := by
  have h1 : b.takeWhile p = [] := by
    cases b with
    | nil => rfl
    | cons x b => rw [List.takeWhile_cons, if_neg (by rw [hb x rfl]; simp)]
  have h2 : b.dropWhile p = b := by
    cases b with
    | nil => rfl
    | cons x b => rw [List.dropWhile_cons, if_neg (by rw [hb x rfl]; simp)]
  rw [List.takeWhile_append_of_pos ha, List.dropWhile_append_of_pos ha, h1, h2]
  simp

/-- A number is read if there is one. -/
theorem strtol_num {ws sg ds rest : Bytes} (hw : ∀ b ∈ ws, White b) (hs : sg = [] ∨ sg = [0x2b] ∨ sg = [0x2d]) (hd : ds ≠ [])
    (hds : ∀ b ∈ ds, Digit b) (hr : ∀ b, rest.head? = some b → ¬ Digit b) :
    strtol (ws ++ sg ++ ds ++ rest) =
      (max (-9223372036854775808) (min 9223372036854775807 (if sg = [0x2d] then - (numValue ds : Int) else numValue ds)), ws.length + sg.length + ds.length) := by
  obtain ⟨x, ds', rfl⟩ := List.exists_cons_of_ne_nil hd
  have hx := hds x (List.mem_cons_self ..)
  have hns : ∀ b, (sg ++ (x :: ds') ++ rest).head? = some b → isSpace b = false := by
    intro b hb
    rw [Bool.eq_false_iff]
    intro h
    rw [white_space] at h
    rcases hs with rfl | rfl | rfl
    · simp at hb; subst hb; exact digit_not_white hx h
    · simp at hb; subst hb; revert h; simp [White]
    · simp at hb; subst hb; revert h; simp [White]
  have hws := takeWhile_unique (p := isSpace) (a := ws) (b := sg ++ (x :: ds') ++ rest) (fun b hb => (white_space b).mpr (hw b hb)) hns
  have hdig : digitsOf (x :: ds' ++ rest) = x :: ds' := by
    unfold digitsOf
    refine (takeWhile_unique (fun b hb => (digit_bool b).mpr (hds b hb)) ?_).1
    intro b hb
    rw [Bool.eq_false_iff]
    exact fun h => hr b hb ((digit_bool b).mp h)
  have e : ws ++ sg ++ (x :: ds') ++ rest = ws ++ (sg ++ (x :: ds') ++ rest) := by simp
  have hdrop : (ws ++ sg ++ (x :: ds') ++ rest).drop ws.length = sg ++ (x :: ds') ++ rest := by rw [e, List.drop_left]
  have := digit_not_sign hx
  unfold strtol
  dsimp only
  rw [e, hws.1, List.drop_left]
  rcases hs with rfl | rfl | rfl
  · simp only [List.nil_append, List.cons_append, List.head?_cons, Option.some.injEq, this.1, this.2, or_self, if_false, List.drop_zero]
    rw [← List.cons_append, hdig, if_neg hd, digitVal_eq]
    simp
  · simp only [List.cons_append, List.nil_append, List.head?_cons, Option.some.injEq, show (0x2b : UInt8) ≠ 0x2d by decide, false_or, if_true, if_false, List.drop_succ_cons, List.drop_zero]
    rw [← List.cons_append, hdig, if_neg hd, digitVal_eq]
    simp
  · simp only [List.cons_append, List.nil_append, List.head?_cons, true_or, if_true, List.drop_succ_cons, List.drop_zero]
    rw [← List.cons_append, hdig, if_neg hd, digitVal_eq]
    simp

/-- Every text has a number at its start, or `strtol` reports none. -/
theorem strtol_cases (t : Bytes) :
    (∃ ws sg ds rest, t = ws ++ sg ++ ds ++ rest ∧ (∀ b ∈ ws, White b) ∧ (sg = [] ∨ sg = [0x2b] ∨ sg = [0x2d]) ∧ ds ≠ [] ∧
      (∀ b ∈ ds, Digit b) ∧ (∀ b, rest.head? = some b → ¬ Digit b)) ∨
    (strtol t = (0, 0) ∧ ¬ ∃ v, Numeral t v) := by
  by_cases hn : ∃ v, Numeral t v
  · obtain ⟨v, ws, sg, ds, rest, h1, h2, h3, h4, h5, h6, -⟩ := hn
    exact .inl ⟨ws, sg, ds, rest, h1, h2, h3, h4, h5, h6⟩
  · refine .inr ⟨?_, hn⟩
    unfold strtol
    dsimp only
    generalize hws : t.takeWhile isSpace = ws
    generalize hr : t.drop ws.length = r
    have ht : t = ws ++ r := by
      rw [← hr, ← hws]
      have h := takeDrop (p := isSpace) t
      conv => lhs; rw [h]
      congr 1
      conv => rhs; rw [h]
      rw [List.drop_left' ]
      rw [← h]
    have hsg : ∃ sg, (sg = [] ∨ sg = [0x2b] ∨ sg = [0x2d]) ∧ r = sg ++ r.drop (if r.head? = some 0x2d ∨ r.head? = some 0x2b then 1 else 0) := by
      split
      · rename_i h
        cases r with
        | nil => simp at h
        | cons x r =>
          simp only [List.head?_cons, Option.some.injEq] at h
          rcases h with rfl | rfl
          · exact ⟨[0x2d], .inr (.inr rfl), rfl⟩
          · exact ⟨[0x2b], .inr (.inl rfl), rfl⟩
      · exact ⟨[], .inl rfl, by simp⟩
    obtain ⟨sg, hs1, hs2⟩ := hsg
    generalize r.drop (if r.head? = some 0x2d ∨ r.head? = some 0x2b then 1 else 0) = r' at hs2 ⊢
    rw [if_pos]
    cases hd : digitsOf r' with
    | nil => rfl
    | cons x ds =>
      exfalso
      refine hn ⟨_, ws, sg, digitsOf r', r'.dropWhile (fun b => 0x30 ≤ b && b ≤ 0x39), ?_, ?_, hs1, by rw [hd]; simp, ?_, ?_, rfl⟩
      · rw [ht, hs2]
        unfold digitsOf
        rw [List.append_assoc, List.append_assoc, ← takeDrop]
      · intro b hb; rw [← hws] at hb; exact (white_space b).mp (takeWhile_all t b hb)
      · intro b hb; exact (digit_bool b).mp (takeWhile_all r' b hb)
      · intro b hb hd; have := dropWhile_head r' b hb; rw [(digit_bool b).mpr hd] at this; cases this

/-! ## The release -/

/-- The loop over the release finishes and keeps three numbers. -/
theorem relLoop_ok : ∀ (fuel : Nat) (r : Bytes) (i : Nat) (rel : Bytes), r.length < fuel → rel.length = 3 →
    ∃ rel', relLoop fuel r i rel = .ok rel' ∧ rel'.length = 3 := by
  intro fuel
  induction fuel with
  | zero => intro r i rel h; omega
  | succ fuel ih =>
    intro r i rel hf hl
    unfold relLoop
    split
    · exact ⟨rel, rfl, hl⟩
    · rename_i hc
      have hc1 : r ≠ [] := fun h => hc (.inl h)
      have hc2 : i < 3 := Decidable.byContradiction fun h => hc (.inr h)
      obtain ⟨m, e, -, l⟩ := wr_some (m := rel) (p := i) (v := [UInt8.ofInt (strtol r).1]) (by simp; omega)
      show ∃ rel', (wr rel i [UInt8.ofInt (strtol r).1]).bind _ = .ok rel' ∧ _
      rw [e]
      have := List.length_pos_iff.mpr hc1
      exact ih _ _ _ (by simp only [List.length_drop]; omega) (by omega)

theorem numbers_skip {b : UInt8} {r : Bytes} {l : List Bytes} (hb : ¬ Digit b) (h : Numbers (b :: r) l) : Numbers r l := by
  generalize ht : b :: r = t at h
  cases h with
  | nil => cases ht
  | skip _ h => injection ht with _ h2; exact h2 ▸ h
  | run h1 h2 _ _ =>
    rename_i ds _ _
    obtain ⟨x, ds', rfl⟩ := List.exists_cons_of_ne_nil h1
    injection ht with h3 _
    exact absurd (h2 x (List.mem_cons_self ..)) (h3 ▸ hb)

theorem numbers_skips {p r : Bytes} {l : List Bytes} (hb : ∀ b ∈ p, ¬ Digit b) (h : Numbers (p ++ r) l) : Numbers r l := by
  induction p with
  | nil => exact h
  | cons b p ih => exact ih (fun b hb' => hb b (List.mem_cons_of_mem _ hb')) (numbers_skip (hb b (List.mem_cons_self ..)) h)

theorem numbers_run {ds r : Bytes} {l : List Bytes} (hd : ds ≠ []) (hds : ∀ b ∈ ds, Digit b) (hr : ∀ b, r.head? = some b → ¬ Digit b)
    (h : Numbers (ds ++ r) l) : ∃ l', l = ds :: l' ∧ Numbers r l' := by
  generalize ht : ds ++ r = t at h
  obtain ⟨x, ds', rfl⟩ := List.exists_cons_of_ne_nil hd
  have hp : ∀ {a b : Bytes}, (∀ x ∈ a, Digit x) → (∀ x, b.head? = some x → ¬ Digit x) → (a ++ b).takeWhile (fun b => 0x30 ≤ b && b ≤ 0x39) = a ∧
      (a ++ b).dropWhile (fun b => 0x30 ≤ b && b ≤ 0x39) = b := by
    intro a b ha hb
    refine takeWhile_unique (fun x hx => (digit_bool x).mpr (ha x hx)) (fun x hx => ?_)
    rw [Bool.eq_false_iff]
    exact fun h => hb x hx ((digit_bool x).mp h)
  cases h with
  | nil => cases ht
  | skip h1 _ => injection ht with h2 _; exact absurd (hds x (List.mem_cons_self ..)) (h2 ▸ h1)
  | run h1 h2 h3 h4 =>
    have a := hp hds hr
    have b := hp h2 h3
    rw [ht] at a
    rw [a.1] at b
    rw [a.2] at b
    exact ⟨_, congrArg (· :: _) b.1.symm, b.2 ▸ h4⟩

theorem noMinus_suffix {p r : Bytes} {x : UInt8} (hx : ¬ Digit x) (h : NoMinus (p ++ x :: r)) : NoMinus r := by
  rintro a b rfl hb
  obtain ⟨c, h1, h2⟩ := h (p ++ x :: a) b (by simp) hb
  rcases List.eq_nil_or_concat a with rfl | ⟨a', y, rfl⟩
  · simp at h1; subst h1; exact absurd h2 hx
  · refine ⟨c, ?_, h2⟩
    rw [List.concat_eq_append] at h1 ⊢
    rw [← List.cons_append, ← List.append_assoc, List.getLast?_concat] at h1
    rw [List.getLast?_concat]; exact h1

/-- The value of a number in one octet. -/
def octet (ds : Bytes) : UInt8 := UInt8.ofNat (numValue ds)

theorem ofInt_nat (n : Nat) : UInt8.ofInt (n : Int) = UInt8.ofNat n := by
  apply UInt8.toNat_inj.mp
  unfold UInt8.ofInt
  rw [UInt8.toNat_ofNat', UInt8.toNat_ofNat']
  omega

theorem replicate_split (n : Nat) (h : 0 < n) : List.replicate n (0 : UInt8) = 0 :: List.replicate (n - 1) 0 := by
  obtain ⟨m, rfl⟩ : ∃ m, n = m + 1 := ⟨n - 1, by omega⟩
  rfl

/-- The loop over the release finds the first three numbers. -/
theorem relLoop_numbers : ∀ (fuel : Nat) (r : Bytes) (l : List Bytes) (dn : Bytes), r.length < fuel → dn.length ≤ 3 → Numbers r l → NoMinus r →
    (∀ ds ∈ l, numValue ds < 9223372036854775808) →
    relLoop fuel r dn.length (dn ++ List.replicate (3 - dn.length) 0) = .ok ((dn ++ l.map octet ++ [0, 0, 0]).take 3) := by
  intro fuel
  induction fuel with
  | zero => intro r l dn h; omega
  | succ fuel ih =>
    intro r l dn hf hdn hl hm hv
    unfold relLoop
    split
    · rename_i hc
      rcases hc with rfl | hc
      · have : l = [] := by
          generalize ht : ([] : Bytes) = t at hl
          cases hl with
          | nil => rfl
          | skip => cases ht
          | run h1 => simp at ht; exact absurd ht.1 h1
        subst this
        match dn, hdn with
        | [], _ => rfl
        | [a], _ => rfl
        | [a, b], _ => rfl
        | [a, b, c], _ => rfl
      · have : dn.length = 3 := by omega
        rw [this]
        simp only [Nat.sub_self, List.replicate_zero, List.append_nil, List.append_assoc]
        rw [List.take_append_of_le_length (by omega), List.take_of_length_le (by omega)]
    · rename_i hc
      have hc1 : r ≠ [] := fun h => hc (.inl h)
      have hc2 : dn.length < 3 := Decidable.byContradiction fun h => hc (.inr h)
      have hwr : ∀ v : UInt8, wr (dn ++ List.replicate (3 - dn.length) 0) dn.length [v] = .ok (dn ++ [v] ++ List.replicate (3 - dn.length - 1) 0) := by
        intro v
        rw [replicate_split _ (by omega), show dn ++ (0 : UInt8) :: List.replicate (3 - dn.length - 1) 0 = dn ++ [0] ++ List.replicate (3 - dn.length - 1) 0 by simp]
        exact wr_prefix dn [v] [0] _ rfl
      show (wr (dn ++ List.replicate (3 - dn.length) 0) dn.length [UInt8.ofInt (strtol r).1]).bind _ = _
      rw [hwr]
      dsimp only [Res.bind_ok]
      rcases strtol_cases r with ⟨ws, sg, ds, rest, h1, h2, h3, h4, h5, h6⟩ | ⟨h1, h2⟩
      · have hs := strtol_num h2 h3 h4 h5 h6
        -- the numbers in front
        have hnd : ∀ b ∈ ws ++ sg, ¬ Digit b := by
          intro b hb hd
          rcases List.mem_append.mp hb with hb | hb
          · exact digit_not_white hd (h2 b hb)
          · rcases h3 with rfl | rfl | rfl
            · cases hb
            · exact (digit_not_sign hd).1 (List.mem_singleton.mp hb)
            · exact (digit_not_sign hd).2 (List.mem_singleton.mp hb)
        have hl' : Numbers (ws ++ sg ++ (ds ++ rest)) l := by rw [h1, List.append_assoc (ws ++ sg)] at hl; exact hl
        obtain ⟨l', rfl, hl2⟩ := numbers_run h4 h5 h6 (numbers_skips hnd hl')
        -- the sign is not a minus
        have hsg : sg ≠ [0x2d] := by
          rintro rfl
          obtain ⟨x, ds', rfl⟩ := List.exists_cons_of_ne_nil h4
          obtain ⟨c, hc, hd⟩ := hm ws (x :: ds' ++ rest) (by rw [h1]; simp) ⟨x, rfl, h5 x (List.mem_cons_self ..)⟩
          exact digit_not_white hd (h2 c (List.mem_of_getLast? hc))
        have hval := hv ds (List.mem_cons_self ..)
        have e1 : (strtol r).1 = (numValue ds : Int) := by rw [h1, hs, if_neg hsg]; dsimp only; omega
        have e2 : (strtol r).2 = ws.length + sg.length + ds.length := by rw [h1, hs]
        have e3 : r.drop (strtol r).2 = rest := by
          rw [e2, h1]
          exact List.drop_left' (by simp [Nat.add_assoc])
        have hpos := List.length_pos_iff.mpr h4
        rw [e1, e3, if_pos (by omega), ofInt_nat]
        have := ih (rest.drop 1) l' (dn ++ [octet ds]) ?_ (by simp; omega) ?_ ?_ (fun d hd => hv d (List.mem_cons_of_mem _ hd))
        · rw [List.length_append, List.length_singleton] at this
          rw [show UInt8.ofNat (numValue ds) = octet ds from rfl, show 3 - dn.length - 1 = 3 - (dn.length + 1) by omega, this]
          simp
        · have := congrArg List.length h1
          simp only [List.length_append] at this
          rw [List.length_drop]; omega
        · cases rest with
          | nil => exact hl2
          | cons x rest => exact numbers_skip (h6 x rfl) hl2
        · cases rest with
          | nil => intro a b h; simp at h
          | cons x rest =>
            refine noMinus_suffix (p := ws ++ sg ++ ds) (h6 x rfl) ?_
            rw [List.drop_one, List.tail_cons, ← h1]; exact hm
      · rw [h1]
        dsimp only
        rw [if_neg (by omega), List.drop_zero]
        obtain ⟨x, r', rfl⟩ := List.exists_cons_of_ne_nil hc1
        have hx : ¬ Digit x := by
          intro hd
          refine h2 ⟨_, [], [], digitsOf (x :: r'), (x :: r').dropWhile (fun b => 0x30 ≤ b && b ≤ 0x39), ?_, by simp, .inl rfl, ?_, ?_, ?_, rfl⟩
          · unfold digitsOf; simp only [List.nil_append]; exact takeDrop _
          · unfold digitsOf; rw [List.takeWhile_cons, if_pos ((digit_bool x).mpr hd)]; simp
          · intro b hb; exact (digit_bool b).mp (takeWhile_all _ b hb)
          · intro b hb hd; have := dropWhile_head (x :: r') b hb; rw [(digit_bool b).mpr hd] at this; cases this
        have e : dn ++ [UInt8.ofInt 0] ++ List.replicate (3 - dn.length - 1) 0 = dn ++ List.replicate (3 - dn.length) 0 := by
          rw [replicate_split (3 - dn.length) (by omega)]
          simp
          rfl
        rw [e]
        exact ih r' l dn (by simp at hf; omega) hdn (numbers_skip hx hl) (noMinus_suffix (p := []) hx hm) hv

/-! ## Texts -/

theorem lsbLine_ok (t : Bytes) : ∃ d, lsbLine t = .ok (d ++ lit " ") ∧ Unquoted (t.takeWhile (fun b => b ≠ 0x0a && b ≠ 0)) d := by
  unfold lsbLine
  generalize hs : t.takeWhile (fun b => b ≠ 0x0a && b ≠ 0) = s
  have hz : ∀ b ∈ s, b ≠ 0 := by
    intro b hb; rw [← hs] at hb
    have := takeWhile_all t b hb
    simp at this; exact this.2
  have ht : (t ++ [0]).takeWhile (fun b => b ≠ 0x0a && b ≠ 0) = s := by
    rw [← hs, List.takeWhile_append]
    split
    · rename_i h
      have h' := (List.takeWhile_prefix _).eq_of_length h
      rw [h']; simp
    · rfl
  have hle : s.length ≤ t.length := by rw [← hs]; exact (List.takeWhile_prefix _).length_le
  dsimp only
  rw [ht]
  obtain ⟨m, e, v, -⟩ := wr_some (m := t ++ [0]) (p := s.length) (v := [0]) (by simp; omega)
  have hm : ∃ rest, m = s ++ 0 :: rest := by
    refine ⟨(t ++ [0]).drop (s.length + 1), ?_⟩
    have : (t ++ [0]).take s.length = s := by
      have hp : s <+: t ++ [0] := by rw [← ht]; exact List.takeWhile_prefix _
      exact (List.prefix_iff_eq_take.mp hp).symm
    rw [v, this]; simp
  obtain ⟨rest, hm⟩ := hm
  show ∃ d, (wr (t ++ [0]) s.length [0]).bind _ = _ ∧ _
  rw [e, hm]
  dsimp only [Res.bind_ok]
  rw [cstr_line hz]
  by_cases hq : s.head? = some 0x22 ∧ s.getLast? = some 0x22
  · rw [if_pos hq]
    obtain ⟨h1, h2⟩ := hq
    match s, h1 with
    | x :: s', h1 =>
      simp at h1; subst h1
      rcases List.eq_nil_or_concat s' with rfl | ⟨r, y, rfl⟩
      · refine ⟨[], ?_, .inl ⟨rfl, rfl⟩⟩
        show (wr (0x22 :: 0 :: rest) 0 [0]).bind _ = _
        rfl
      · rw [List.concat_eq_append] at h2 hz ⊢
        have : y = 0x22 := by rw [← List.cons_append, List.getLast?_append] at h2; simpa using h2
        subst this
        refine ⟨r, ?_, .inr (.inl (by simp))⟩
        have hw := wr_prefix (0x22 :: r) [0] [0x22] (0 :: rest) rfl
        have e1 : ((0x22 :: (r ++ [0x22])).length - 1) = (0x22 :: r).length := by simp
        have e2 : 0x22 :: (r ++ [0x22]) ++ 0 :: rest = 0x22 :: r ++ [0x22] ++ 0 :: rest := by simp
        rw [e1, e2]
        show (wr (0x22 :: r ++ [0x22] ++ 0 :: rest) (0x22 :: r).length [0]).bind _ = _
        rw [hw]
        have hr : ∀ b ∈ r, b ≠ 0 := fun b hb => hz b (by simp [hb])
        show (cstrAt (0x22 :: r ++ [0] ++ 0 :: rest) 1).bind _ = _
        have : cstrAt (0x22 :: r ++ [0] ++ 0 :: rest) 1 = cstrAt (r ++ 0 :: 0 :: rest) 0 := by
          unfold cstrAt; simp
        rw [this, cstrAt_line hr]
        rfl
  · rw [if_neg hq]
    exact ⟨s, rfl, .inr (.inr ⟨rfl, hq⟩)⟩

theorem lsbDescr_ok (e : SysEnv) : ∃ d, lsbDescr e = .ok (d.map (· ++ lit " ")) ∧ Distribution e d := by
  unfold lsbDescr
  by_cases h : e.lsbOut = []
  · rw [if_pos h]; exact ⟨none, rfl, .inr h⟩
  · rw [if_neg h]
    obtain ⟨d, h1, h2⟩ := lsbLine_ok (fgetsText 512 e.lsbOut)
    show ∃ d, (lsbLine (fgetsText 512 e.lsbOut)).bind _ = _ ∧ _
    rw [h1]
    rw [fgetsText_line] at h2
    by_cases hk : e.lsbOk = true
    · exact ⟨some d, by simp [hk], hk, h, h2⟩
    · exact ⟨none, by simp [hk], .inl (by simpa using hk)⟩

theorem strlcpy_text {n : Nat} (src : Bytes) (hz : ∀ b ∈ src, b ≠ 0) :
    ∃ m r, strlcpy (List.replicate (n + 1) 0) src (n + 1) = .ok (m, r) ∧ cstrAt m 0 = .ok (src.take n) ∧ ∃ rest, m = src.take n ++ 0 :: rest := by
  refine ⟨_, _, C14_strlcpy _ src (n + 1) (by simp), ?_⟩
  rw [if_neg (by omega)]
  rw [show n + 1 - 1 = n from rfl, List.append_assoc, List.singleton_append]
  exact ⟨cstrAt_line (fun b hb => hz b (List.mem_of_mem_take hb)), _, rfl⟩

theorem hostText_ok (e : SysEnv) (u : Uname) (he : ∀ n h, e.hostByName n = some h → ∀ b ∈ h, b ≠ 0) (hu : ∀ b ∈ u.nodename, b ≠ 0) :
    ∃ h, hostText e u = .ok h ∧ HostName e u h ∧ cText 255 h := by
  have key : ∀ name : Bytes, (∀ b ∈ name, b ≠ 0) → ∃ m r, strlcpy (List.replicate 256 0) name 256 = .ok (m, r) ∧ cstrAt m 0 = .ok (name.take 255) ∧ cText 255 (name.take 255) := by
    intro name hz
    obtain ⟨m, r, h1, h2, -⟩ := strlcpy_text (n := 255) name hz
    exact ⟨m, r, h1, h2, List.length_take_le _ _, fun b hb => hz b (List.mem_of_mem_take hb)⟩
  unfold hostText
  match hq : e.hostByName u.nodename with
  | none =>
    obtain ⟨m, r, h1, h2, h3⟩ := key u.nodename hu
    refine ⟨u.nodename.take 255, ?_, .inr ⟨.inl hq, rfl⟩, h3⟩
    show (strlcpy (List.replicate 256 0) u.nodename 256).bind _ = _
    rw [h1]; exact h2
  | some n =>
    by_cases hl : n = lit "localhost"
    · obtain ⟨m, r, h1, h2, h3⟩ := key u.nodename hu
      refine ⟨u.nodename.take 255, ?_, .inr ⟨.inr (hl ▸ hq), rfl⟩, h3⟩
      dsimp only
      rw [if_neg (fun h => h hl)]
      show (strlcpy (List.replicate 256 0) u.nodename 256).bind _ = _
      rw [h1]; exact h2
    · obtain ⟨m, r, h1, h2, h3⟩ := key n (he _ _ hq)
      refine ⟨n.take 255, ?_, .inl ⟨n, hq, hl, rfl⟩, h3⟩
      dsimp only
      rw [if_pos hl]
      show (strlcpy (List.replicate 256 0) n 256).bind _ = _
      rw [h1]; exact h2

theorem dmiMem_ok (e : SysEnv) (f : Dmi) : ∃ m, dmiMem e f = .ok m ∧ cstrAt m 0 = .ok (fileLine 32 (e.dmi f)) ∧ cText 32 (fileLine 32 (e.dmi f)) ∧
    ((fileLine 32 (e.dmi f)) ≠ [] → m.any (fun b => b != 0) = true) := by
  unfold dmiMem
  match hq : e.dmi f with
  | none => exact ⟨List.replicate 33 0, rfl, by decide +kernel, ⟨by simp [fileLine], by simp [fileLine]⟩, fun h => absurd rfl h⟩
  | some [] => exact ⟨List.replicate 33 0, rfl, by decide +kernel, ⟨by simp [fileLine, firstLine], by simp [fileLine, firstLine]⟩, fun h => absurd rfl h⟩
  | some (x :: c) =>
    obtain ⟨m, h1, h2, h3⟩ := readLine_ok (obj := List.replicate INV_SIZE 0) (size := INV_SIZE) (by decide) (by simp) (x :: c)
    obtain ⟨rest, hm⟩ := h3 (by simp)
    have hz : ∀ b ∈ firstLine 32 (x :: c), b ≠ 0 := fun b hb => (firstLine_ne _ _ b hb).2
    refine ⟨m, by rw [h1]; rfl, ?_, ⟨firstLine_length _ _, hz⟩, ?_⟩
    · rw [hm]; exact cstrAt_line hz
    · intro hne
      obtain ⟨y, t, hy⟩ := List.exists_cons_of_ne_nil hne
      rw [List.any_eq_true]
      have : y ∈ firstLine 32 (x :: c) := by
        show y ∈ fileLine 32 (some (x :: c))
        rw [hy]; exact List.mem_cons_self ..
      exact ⟨y, by rw [hm]; exact List.mem_append_left _ this, by simpa using hz y this⟩

theorem any_append_left {a b : Bytes} {p : UInt8 → Bool} (h : a.any p = true) : (a ++ b).any p = true := by rw [List.any_append, h]; rfl

/-- The inventory. -/
theorem hinvFetch_ok (e : SysEnv) (u : Uname) (hu : u.release ≠ [] ∧ ∀ b ∈ u.release, b ≠ 0) :
    ∃ hv, hinvFetch e u = .ok (hv, true) ∧ hv.swRevision = u.release.take 32 ∧ hv.hwRevision = fileLine 32 (e.dmi .hw) ∧
      hv.fwRevision = fileLine 32 (e.dmi .fw) ∧ hv.serialNumber = fileLine 32 (e.dmi .serial) ∧
      hv.manufacturer = fileLine 32 (e.dmi .manufacturer) ∧ hv.modelName = fileLine 32 (e.dmi .model) ∧ hv.assetId = [] := by
  obtain ⟨sw, r, a1, a2, rest, a3⟩ := strlcpy_text (n := 32) u.release hu.2
  obtain ⟨hw, b1, b2, -⟩ := dmiMem_ok e .hw
  obtain ⟨fw, c1, c2, -⟩ := dmiMem_ok e .fw
  obtain ⟨se, d1, d2, -⟩ := dmiMem_ok e .serial
  obtain ⟨ma, e1, e2, -⟩ := dmiMem_ok e .manufacturer
  obtain ⟨mo, f1, f2, -⟩ := dmiMem_ok e .model
  have hinv : (hw ++ fw ++ sw ++ se ++ ma ++ mo).any (fun b => b != 0) = true := by
    obtain ⟨x, t, hx⟩ := List.exists_cons_of_ne_nil hu.1
    rw [List.any_eq_true]
    refine ⟨x, ?_, by simpa using hu.2 x (by rw [hx]; exact List.mem_cons_self ..)⟩
    have : x ∈ sw := by rw [a3, hx]; simp
    simp [this]
  refine ⟨{ hwRevision := fileLine 32 (e.dmi .hw), fwRevision := fileLine 32 (e.dmi .fw), swRevision := u.release.take 32
            serialNumber := fileLine 32 (e.dmi .serial), manufacturer := fileLine 32 (e.dmi .manufacturer)
            modelName := fileLine 32 (e.dmi .model), assetId := [] }, ?_, rfl, rfl, rfl, rfl, rfl, rfl, rfl⟩
  unfold hinvFetch
  show (strlcpy (List.replicate 33 0) u.release 33).bind _ = _
  rw [a1]
  show (dmiMem e .hw).bind _ = _
  rw [b1]
  show (dmiMem e .fw).bind _ = _
  rw [c1]
  show (dmiMem e .serial).bind _ = _
  rw [d1]
  show (dmiMem e .manufacturer).bind _ = _
  rw [e1]
  show (dmiMem e .model).bind _ = _
  rw [f1]
  dsimp only [Res.bind_ok, Res.bind_eq, Res.pure_eq]
  rw [a2, b2, c2, d2, e2, f2, hinv]
  rfl

/-- One of the files that tell about forwarding. -/
theorem forwardFile_ok (c : Option Bytes) : ∃ r a, forwardFile c = .ok (r, a) ∧ (r = true ↔ fileLine 255 c ≠ []) ∧ (a = true → r = true) ∧
    ((∀ v, Numeral (fileLine 255 c) v → -2147483648 ≤ v ∧ v < 2147483648) → (a = true ↔ Numeral (fileLine 255 c) 1)) := by
  have hnil : ∀ v, ¬ Numeral [] v := by
    rintro v ⟨ws, sg, ds, rest, h, -, -, hd, -⟩
    simp at h
    exact hd h.2.2.1
  have hnone : fileLine 255 c = [] → ∀ P : Prop, ¬ P → (false = true ↔ fileLine 255 c ≠ []) := by
    intro h P _; simp [h]
  unfold forwardFile
  obtain ⟨m, h1, h2⟩ := readLine_opt (obj := List.replicate 256 0) (size := 256) (by omega) (by rw [List.length_replicate]; omega) c
  have e : (c.map (firstLine (256 - 1))).getD [] = fileLine 255 c := rfl
  rw [e] at h1 h2
  show ∃ r a, (readLine (List.replicate 256 0) 256 c).bind _ = _ ∧ _
  rw [h1]
  dsimp only [Res.bind_ok]
  by_cases hl : fileLine 255 c = []
  · rw [if_pos (by rw [hl]; rfl)]
    refine ⟨false, false, rfl, by simp [hl], by simp, ?_⟩
    intro _
    rw [hl]
    simp [hnil]
  · rw [if_neg (by rw [List.length_eq_zero_iff]; exact hl)]
    have hc : cstrAt m 0 = .ok (fileLine 255 c) := by
      match c, hl with
      | some ct, hl =>
        obtain ⟨m', k1, -, k3⟩ := readLine_ok (obj := List.replicate 256 0) (size := 256) (by omega) (by rw [List.length_replicate]; omega) ct
        rw [h1] at k1
        injection k1 with k1
        injection k1 with k1 _
        subst k1
        match ct, hl with
        | x :: ct, hl =>
          obtain ⟨rest, k4⟩ := k3 (by simp)
          rw [k4]
          exact cstrAt_line (fun b hb => (firstLine_ne _ _ b hb).2)
        | [], hl => exact absurd rfl hl
      | none, hl => exact absurd rfl hl
    show ∃ r a, (cstrAt m 0).bind _ = _ ∧ _
    rw [hc]
    refine ⟨true, _, rfl, by simp [hl], by simp, ?_⟩
    intro hv
    unfold atoiIs1
    rw [decide_eq_true_eq]
    rcases strtol_cases (fileLine 255 c) with ⟨ws, sg, ds, rest, k1, k2, k3, k4, k5, k6⟩ | ⟨k1, k2⟩
    · have hn : ∀ v, v = (if sg = [0x2d] then - (numValue ds : Int) else numValue ds) → Numeral (fileLine 255 c) v :=
        fun v hv => ⟨ws, sg, ds, rest, k1, k2, k3, k4, k5, k6, hv⟩
      have hs := strtol_num k2 k3 k4 k5 k6
      rw [← k1] at hs
      rw [hs]
      have hr := hv _ (hn _ rfl)
      generalize hv' : (if sg = [0x2d] then - (numValue ds : Int) else numValue ds) = v at hr
      dsimp only
      constructor
      · intro h
        have : v = 1 := by omega
        exact hn 1 (by rw [hv', this])
      · rintro ⟨ws', sg', ds', rest', j1, j2, j3, j4, j5, j6, j7⟩
        have hs' := strtol_num j2 j3 j4 j5 j6
        rw [← j1, hs] at hs'
        have := congrArg Prod.fst hs'
        dsimp only at this
        rw [← j7] at this
        omega
    · rw [k1]
      constructor
      · intro h; simp at h
      · intro h; exact absurd ⟨1, h⟩ k2

/-- What forwarding adds to the capabilities. -/
theorem forwarding_ok (e : SysEnv) (s : SysInfo) : ∃ s' r a, forwarding e s = .ok s' ∧
    s' = { s with cap := if r then s.cap ||| 8 else s.cap, capActive := if a then s.capActive ||| 8 else s.capActive } ∧
    (a = true → r = true) ∧
    ((∀ c ∈ [e.forward4, e.forward6], ∀ v, Numeral (fileLine 255 c) v → -2147483648 ≤ v ∧ v < 2147483648) →
      (a = true ↔ ∃ c ∈ [e.forward4, e.forward6], Numeral (fileLine 255 c) 1) ∧
      (r = true ↔ ∃ c ∈ [e.forward4, e.forward6], fileLine 255 c ≠ [])) := by
  obtain ⟨r4, a4, h1, h2, h3, h4⟩ := forwardFile_ok e.forward4
  obtain ⟨r6, a6, k1, k2, k3, k4⟩ := forwardFile_ok e.forward6
  have hnum : ∀ c, Numeral (fileLine 255 c) 1 → fileLine 255 c ≠ [] := by
    rintro c ⟨ws, sg, ds, rest, h, -, -, hd, -⟩ hn
    rw [hn] at h
    simp at h
    exact hd h.2.2.1
  unfold forwarding
  show ∃ s' r a, (forwardFile e.forward4).bind _ = _ ∧ _
  rw [h1]
  dsimp only [Res.bind_ok]
  by_cases ha : a4 = true
  · rw [if_pos ha, h3 ha]
    refine ⟨_, true, true, rfl, rfl, fun _ => rfl, ?_⟩
    intro hv
    have := (h4 (hv _ (by simp))).mp ha
    exact ⟨⟨fun _ => ⟨_, by simp, this⟩, fun _ => rfl⟩, ⟨fun _ => ⟨_, by simp, hnum _ this⟩, fun _ => rfl⟩⟩
  · rw [if_neg ha]
    show ∃ s' r a, (forwardFile e.forward6).bind _ = _ ∧ _
    rw [k1]
    dsimp only [Res.bind_ok, Res.pure_eq]
    refine ⟨_, r4 || r6, a6, rfl, ?_, ?_, ?_⟩
    · cases r4 <;> cases r6 <;> cases a6 <;> simp [Nat.or_assoc]
    · intro h; rw [k3 h]; simp
    · intro hv
      have i4 := h4 (hv _ (by simp))
      have i6 := k4 (hv _ (by simp))
      constructor
      · rw [i6]
        constructor
        · intro h; exact ⟨_, by simp, h⟩
        · rintro ⟨c, hc, hn⟩
          simp only [List.mem_cons, List.not_mem_nil, or_false] at hc
          rcases hc with rfl | rfl
          · exact absurd (i4.mpr hn) ha
          · exact hn
      · rw [Bool.or_eq_true, h2, k2]
        simp

/-- What the daemon knows about its system, of which `u` are the names, after a start with country and location of `s`. -/
theorem sysinfoFetch_ok (e : SysEnv) (he : SysEnvOk e) (hrun : e.lsbRun = true) {u : Uname} (hu : e.uname = some u) (s : SysInfo)
    (hs : s.utsRel = [0, 0, 0]) :
    ∃ s' d r a, sysinfoFetch e s = .ok s' ∧ Distribution e d ∧ HostName e u s'.hostname ∧
      s' = { s with
        utsStr := (words (d.toList ++ [u.sysname, u.release, u.version, u.machine])).take 255
        platform := (words (d.toList ++ (if d.isSome then [u.sysname, u.machine] else [u.sysname, u.release, u.machine]))).take 255
        utsRel := s'.utsRel, hostname := s'.hostname
        hinv := { hwRevision := fileLine 32 (e.dmi .hw), fwRevision := fileLine 32 (e.dmi .fw), swRevision := u.release.take 32
                  serialNumber := fileLine 32 (e.dmi .serial), manufacturer := fileLine 32 (e.dmi .manufacturer)
                  modelName := fileLine 32 (e.dmi .model), assetId := [] }
        cap := if r then 12 else 4, capActive := if a then 12 else 4
        lldpmedDevtype := if s.lldpmedDevtype = -1 then 1 else s.lldpmedDevtype
        capLldpmed := if s.country ≠ [] ∧ s.location ≠ [] then 37 else 33 } ∧
      s'.utsRel.length = 3 ∧
      (∀ l, Numbers u.release l → NoMinus u.release → (∀ ds ∈ l, numValue ds < 9223372036854775808) → s'.utsRel = (l.map octet ++ [0, 0, 0]).take 3) ∧
      (a = true → r = true) ∧
      ((∀ c ∈ [e.forward4, e.forward6], ∀ v, Numeral (fileLine 255 c) v → -2147483648 ≤ v ∧ v < 2147483648) →
        (a = true ↔ ∃ c ∈ [e.forward4, e.forward6], Numeral (fileLine 255 c) 1) ∧
        (r = true ↔ ∃ c ∈ [e.forward4, e.forward6], fileLine 255 c ≠ [])) := by
  have hu5 := he.uts u (by rw [hu]; rfl)
  obtain ⟨d, a1, a2⟩ := lsbDescr_ok e
  obtain ⟨rel, b1, b2⟩ := relLoop_ok (u.release.length + 1) u.release 0 s.utsRel (by omega) (by rw [hs]; rfl)
  obtain ⟨host, c1, c2, -⟩ := hostText_ok e u he.host (hu5 _ (by simp)).2
  obtain ⟨hv, d1, d2, d3, d4, d5, d6, d7, d8⟩ := hinvFetch_ok e u (hu5 _ (by simp))
  have hfin : ∀ s1 : SysInfo, s1.cap = 4 → s1.capActive = 4 → ∃ s' r a, forwarding e s1 = .ok s' ∧
      s' = { s1 with cap := if r then 12 else 4, capActive := if a then 12 else 4 } ∧ (a = true → r = true) ∧
    ((∀ c ∈ [e.forward4, e.forward6], ∀ v, Numeral (fileLine 255 c) v → -2147483648 ≤ v ∧ v < 2147483648) →
      (a = true ↔ ∃ c ∈ [e.forward4, e.forward6], Numeral (fileLine 255 c) 1) ∧
      (r = true ↔ ∃ c ∈ [e.forward4, e.forward6], fileLine 255 c ≠ [])) := by
    intro s1 h1 h2
    obtain ⟨s', r, a, f1, f2, f3, f4⟩ := forwarding_ok e s1
    refine ⟨s', r, a, f1, ?_, f3, f4⟩
    rw [f2, h1, h2]
    rfl
  have hnum : ∀ l, Numbers u.release l → NoMinus u.release → (∀ ds ∈ l, numValue ds < 9223372036854775808) → rel = (l.map octet ++ [0, 0, 0]).take 3 := by
    intro l h1 h2 h3
    have := relLoop_numbers (u.release.length + 1) u.release l [] (by omega) (by simp) h1 h2 h3
    rw [show ([] : Bytes) ++ List.replicate (3 - ([] : Bytes).length) 0 = s.utsRel by rw [hs]; rfl] at this
    rw [show ([] : Bytes).length = 0 from rfl, b1] at this
    injection this
  have hut : ∀ d : Option Bytes, utsText (d.map (· ++ lit " ")) u = (words (d.toList ++ [u.sysname, u.release, u.version, u.machine])).take 255 := by
    intro d
    cases d <;> simp [utsText, snprintf256, words, List.intercalate, List.intersperse]
  have hpl : ∀ d : Option Bytes, platformText (d.map (· ++ lit " ")) u =
      (words (d.toList ++ (if d.isSome then [u.sysname, u.machine] else [u.sysname, u.release, u.machine]))).take 255 := by
    intro d
    cases d <;> simp [platformText, snprintf256, words, List.intercalate, List.intersperse]
  unfold sysinfoFetch
  rw [hrun, hu]
  dsimp only [Bool.not_true]
  rw [if_neg (by simp), a1]
  dsimp only [Res.bind_ok, Res.bind_eq]
  rw [b1]
  dsimp only [Res.bind_ok]
  rw [c1]
  dsimp only [Res.bind_ok]
  rw [d1]
  dsimp only [Res.bind_ok]
  obtain ⟨s', r, a, f1, f2, f3, f4⟩ := hfin { s with
        utsStr := utsText (d.map (· ++ lit " ")) u, platform := platformText (d.map (· ++ lit " ")) u, utsRel := rel, hostname := host, hinv := hv, cap := 4, capActive := 4
        lldpmedDevtype := if s.lldpmedDevtype = -1 then 1 else s.lldpmedDevtype
        capLldpmed := 1 + (if s.country ≠ [] ∧ s.location ≠ [] then 4 else 0) + (if true = true then 32 else 0) } rfl rfl
  have g1 : s'.hostname = host := by rw [f2]
  have g2 : s'.utsRel = rel := by rw [f2]
  refine ⟨s', d, r, a, f1, a2, by rw [g1]; exact c2, ?_, by rw [g2]; exact b2, by rw [g2]; exact hnum, f3, f4⟩
  rw [g1, g2, f2, hut, hpl]
  congr 1
  · dsimp only
    split <;> rfl
  · cases hv
    simp only at d2 d3 d4 d5 d6 d7 d8
    subst d2 d3 d4 d5 d6 d7 d8
    rfl

end Ladvd
