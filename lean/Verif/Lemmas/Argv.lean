import Verif.Spec.Argv
import Verif.Lemmas.Main
/-!
# Lemmas about the words of command lines
-/

namespace Ladvd

open Spec

/-- The option string of a program agrees with its letters. -/
structure Fits (spec : Bytes) (L : Letters) : Prop where
  flag : ∀ c ∈ L.flags, optKind spec (letter c) = some false
  valued : ∀ c ∈ L.valued, optKind spec (letter c) = some true
  only : ∀ b : UInt8, (∀ v, optKind spec b = some v → (if v then Char.ofNat b.toNat ∈ L.valued else Char.ofNat b.toNat ∈ L.flags) ∧
    letter (Char.ofNat b.toNat) = b)
  back : ∀ c, c ∈ L.flags ∨ c ∈ L.valued → Char.ofNat (letter c).toNat = c ∧ letter c ≠ 0x2d ∧ c ≠ '?'

theorem daemon_fits : Fits daemonSpec daemonLetters where
  flag := by decide +kernel
  valued := by decide +kernel
  only := by
    have h : ∀ n : Fin 256, ∀ v, optKind daemonSpec (UInt8.ofNat n) = some v →
        (if v then Char.ofNat (UInt8.ofNat n).toNat ∈ daemonLetters.valued else Char.ofNat (UInt8.ofNat n).toNat ∈ daemonLetters.flags) ∧
        letter (Char.ofNat (UInt8.ofNat n).toNat) = UInt8.ofNat n := by decide +kernel
    intro b
    have := h ⟨b.toNat, b.toNat_lt⟩
    simpa using this
  back := by
    have h1 : ∀ c ∈ daemonLetters.flags ++ daemonLetters.valued, Char.ofNat (letter c).toNat = c ∧ letter c ≠ 0x2d ∧ c ≠ '?' := by decide +kernel
    intro c hc
    exact h1 c (List.mem_append.mpr hc)

theorem client_fits : Fits clientSpec clientLetters where
  flag := by decide +kernel
  valued := by decide +kernel
  only := by
    have h : ∀ n : Fin 256, ∀ v, optKind clientSpec (UInt8.ofNat n) = some v →
        (if v then Char.ofNat (UInt8.ofNat n).toNat ∈ clientLetters.valued else Char.ofNat (UInt8.ofNat n).toNat ∈ clientLetters.flags) ∧
        letter (Char.ofNat (UInt8.ofNat n).toNat) = UInt8.ofNat n := by decide +kernel
    intro b
    have := h ⟨b.toNat, b.toNat_lt⟩
    simpa using this
  back := by
    have h1 : ∀ c ∈ clientLetters.flags ++ clientLetters.valued, Char.ofNat (letter c).toNat = c ∧ letter c ≠ 0x2d ∧ c ≠ '?' := by decide +kernel
    intro c hc
    exact h1 c (List.mem_append.mpr hc)

/-- No failure among the options. -/
def Clean (os : List Opt) : Prop := ∀ o ∈ os, o.ch ≠ '?'

theorem word_flags (l : Libc) {spec : Bytes} {L : Letters} (hf : Fits spec L) (bs : Bytes) : ∀ cs : List Char, (∀ c ∈ cs, c ∈ L.flags) →
    getoptWord l spec (cs.map letter ++ bs) = (cs.map (fun c => (⟨c, []⟩ : Opt)) ++ (getoptWord l spec bs).1, (getoptWord l spec bs).2) := by
  intro cs
  induction cs with
  | nil => intro _; simp
  | cons c cs ih =>
    intro h
    have hc := h c (List.mem_cons_self ..)
    simp only [List.map_cons, List.cons_append]
    rw [getoptWord, hf.flag c hc, ih (fun x hx => h x (List.mem_cons_of_mem _ hx))]
    simp only [(hf.back c (Or.inl hc)).1]

theorem word_shape (l : Libc) {spec : Bytes} {L : Letters} (hf : Fits spec L) : ∀ bs : Bytes, Clean (getoptWord l spec bs).1 →
    (∃ cs : List Char, (∀ c ∈ cs, c ∈ L.flags) ∧ bs = cs.map letter ∧ getoptWord l spec bs = (cs.map (fun c => (⟨c, []⟩ : Opt)), none)) ∨
    (∃ (cs : List Char) (c : Char) (v : Bytes), (∀ c ∈ cs, c ∈ L.flags) ∧ c ∈ L.valued ∧ v ≠ [] ∧ bs = cs.map letter ++ letter c :: v ∧
      getoptWord l spec bs = (cs.map (fun c => (⟨c, []⟩ : Opt)) ++ [⟨c, v⟩], none)) ∨
    (∃ (cs : List Char) (c : Char), (∀ c ∈ cs, c ∈ L.flags) ∧ c ∈ L.valued ∧ bs = cs.map letter ++ [letter c] ∧
      getoptWord l spec bs = (cs.map (fun c => (⟨c, []⟩ : Opt)), some (letter c))) := by
  intro bs
  induction bs with
  | nil => intro _; exact Or.inl ⟨[], (by intro c h; cases h), rfl, rfl⟩
  | cons b bs ih =>
    intro hcl
    cases hk : optKind spec b with
    | none =>
      rw [getoptWord, hk] at hcl
      exact absurd rfl (hcl ⟨'?', l.invalid b⟩ (List.mem_cons_self ..))
    | some v =>
      have ho := hf.only b v hk
      cases v with
      | false =>
        rw [getoptWord, hk] at hcl
        have hmem : Char.ofNat b.toNat ∈ L.flags := ho.1
        have hb := ho.2
        have e : getoptWord l spec (b :: bs) = (⟨Char.ofNat b.toNat, []⟩ :: (getoptWord l spec bs).1, (getoptWord l spec bs).2) := by
          rw [getoptWord, hk]
        have hall : ∀ cs : List Char, (∀ c ∈ cs, c ∈ L.flags) → ∀ c ∈ Char.ofNat b.toNat :: cs, c ∈ L.flags := by
          intro cs h c hc
          rcases List.mem_cons.mp hc with rfl | hc
          · exact hmem
          · exact h c hc
        rcases ih (fun o ho => hcl o (List.mem_cons_of_mem _ ho)) with ⟨cs, h1, h2, h3⟩ | ⟨cs, c, v, h1, h2, h3, h4, h5⟩ | ⟨cs, c, h1, h2, h4, h5⟩
        · refine Or.inl ⟨Char.ofNat b.toNat :: cs, hall cs h1, ?_, ?_⟩
          · simp only [List.map_cons, hb, h2]
          · rw [e, h3]; rfl
        · refine Or.inr (Or.inl ⟨Char.ofNat b.toNat :: cs, c, v, hall cs h1, h2, h3, ?_, ?_⟩)
          · simp only [List.map_cons, hb, h4, List.cons_append]
          · rw [e, h5]; rfl
        · refine Or.inr (Or.inr ⟨Char.ofNat b.toNat :: cs, c, hall cs h1, h2, ?_, ?_⟩)
          · simp only [List.map_cons, hb, h4, List.cons_append]
          · rw [e, h5]; rfl
      | true =>
        have hmem : Char.ofNat b.toNat ∈ L.valued := ho.1
        by_cases hn : bs = []
        · refine Or.inr (Or.inr ⟨[], Char.ofNat b.toNat, (by intro c h; cases h), hmem, ?_, ?_⟩)
          · rw [ho.2, hn]; rfl
          · rw [getoptWord, hk, ho.2]; simp only [hn, if_true]; rfl
        · refine Or.inr (Or.inl ⟨[], Char.ofNat b.toNat, bs, (by intro c h; cases h), hmem, hn, ?_, ?_⟩)
          · rw [ho.2]; rfl
          · rw [getoptWord, hk]; simp only [if_neg hn]; rfl

theorem dashes : lit "--" = [0x2d, 0x2d] := by decide +kernel

theorem dash : lit "-" = [0x2d] := by decide +kernel

/-- A word of options. -/
theorem all_word (l : Libc) (spec : Bytes) (b : UInt8) (bs : Bytes) (h : b ≠ 0x2d) (ws : List Bytes) :
    getoptAll l spec none ((0x2d :: b :: bs) :: ws) =
      ((getoptWord l spec (b :: bs)).1 ++ (getoptAll l spec (getoptWord l spec (b :: bs)).2 ws).1,
       (getoptAll l spec (getoptWord l spec (b :: bs)).2 ws).2) := by
  rw [getoptAll]
  rw [if_neg (by rw [dashes]; intro e; injection e with _ e; injection e with e _; exact h e), if_pos (by simp)]
  rfl

/-- A word that is not an option. -/
theorem operand_word (w : Bytes) : IsOperand w ↔ w ≠ lit "--" ∧ ¬ (w.head? = some 0x2d ∧ 2 ≤ w.length) := by
  unfold IsOperand
  rw [dashes, dash]
  match w with
  | [] => simp
  | [b] => simp; by_cases h : b = 45 <;> simp [h]
  | b :: c :: r => simp; intro h; simp [h]

theorem written_all (l : Libc) {spec : Bytes} {L : Letters} (hf : Fits spec L) {ws os args} (h : Written L l.permute ws os args) :
    getoptAll l spec none ws = (os, args) ∧ Clean os := by
  have hfl : ∀ cs : List Char, (∀ c ∈ cs, c ∈ L.flags) → ∀ o ∈ cs.map (fun c => (⟨c, []⟩ : Opt)), o.ch ≠ '?' := by
    intro cs hc o ho
    obtain ⟨c, hx, rfl⟩ := List.mem_map.mp ho
    exact (hf.back c (Or.inl (hc c hx))).2.2
  -- the first letter behind the dash is not a dash
  have first : ∀ (cs : List Char), (∀ c ∈ cs, c ∈ L.flags) → ∀ (t : Bytes), (∀ b, t.head? = some b → b ≠ 0x2d) → cs.map letter ++ t ≠ [] →
      ∃ b bs, cs.map letter ++ t = b :: bs ∧ b ≠ 0x2d := by
    intro cs hc t ht hne
    cases cs with
    | nil =>
      cases t with
      | nil => exact absurd rfl hne
      | cons b bs => exact ⟨b, bs, rfl, ht b rfl⟩
    | cons c cs => exact ⟨letter c, cs.map letter ++ t, rfl, (hf.back c (Or.inl (hc c (List.mem_cons_self ..)))).2.1⟩
  induction h with
  | none => exact ⟨by rw [getoptAll], by intro o h; cases h⟩
  | flags cs hn hc h ih =>
    obtain ⟨b, bs, e, hb⟩ := first cs hc [] (by simp) (by simpa using hn)
    have hw := word_flags l hf [] cs hc
    rw [List.append_nil] at e hw
    rw [e, all_word l spec b bs hb, ← e, hw]
    refine ⟨?_, ?_⟩
    · simp only [getoptWord, List.append_nil, ih.1]
    · intro o ho
      rcases List.mem_append.mp ho with ho | ho
      · exact hfl cs hc o ho
      · exact ih.2 o ho
  | attached cs hc c hv v hn h ih =>
    obtain ⟨b, bs, e, hb⟩ := first cs hc (letter c :: v) (by intro b hb; injection hb with hb; rw [← hb]; exact (hf.back c (Or.inr hv)).2.1) (by simp)
    rw [e, all_word l spec b bs hb, ← e, word_flags l hf _ cs hc]
    have hw : getoptWord l spec (letter c :: v) = ([⟨c, v⟩], none) := by
      rw [getoptWord, hf.valued c hv]; simp only [if_neg hn, (hf.back c (Or.inr hv)).1]
    rw [hw]
    refine ⟨?_, ?_⟩
    · simp only [ih.1, List.append_assoc, List.singleton_append]
    · intro o ho
      rcases List.mem_append.mp ho with ho | ho
      · exact hfl cs hc o ho
      · rcases List.mem_cons.mp ho with rfl | ho
        · exact (hf.back c (Or.inr hv)).2.2
        · exact ih.2 o ho
  | separate cs hc c hv v h ih =>
    obtain ⟨b, bs, e, hb⟩ := first cs hc [letter c] (by intro b hb; injection hb with hb; rw [← hb]; exact (hf.back c (Or.inr hv)).2.1) (by simp)
    rw [e, all_word l spec b bs hb, ← e, word_flags l hf _ cs hc]
    have hw : getoptWord l spec [letter c] = ([], some (letter c)) := by
      rw [getoptWord, hf.valued c hv]; simp only [if_true]
    rw [hw]
    refine ⟨?_, ?_⟩
    · simp only [getoptAll, ih.1, List.append_nil, (hf.back c (Or.inr hv)).1]
    · intro o ho
      rcases List.mem_append.mp ho with ho | ho
      · exact hfl cs hc o ho
      · rcases List.mem_cons.mp ho with rfl | ho
        · exact (hf.back c (Or.inr hv)).2.2
        · exact ih.2 o ho
  | operand w hw hp h ih =>
    obtain ⟨h1, h2⟩ := (operand_word w).mp hw
    rw [getoptAll, if_neg h1, if_neg h2, if_pos hp, ih.1]
    exact ⟨rfl, ih.2⟩
  | rest w hw hp ws =>
    obtain ⟨h1, h2⟩ := (operand_word w).mp hw
    rw [getoptAll, if_neg h1, if_neg h2, if_neg (by rw [hp]; decide)]
    exact ⟨rfl, by intro o h; cases h⟩
  | stop ws =>
    rw [getoptAll, if_pos rfl]
    exact ⟨rfl, by intro o h; cases h⟩

theorem all_written (l : Libc) {spec : Bytes} {L : Letters} (hf : Fits spec L) (n : Nat) : ∀ ws : List Bytes, ws.length ≤ n →
    Clean (getoptAll l spec none ws).1 → Written L l.permute ws (getoptAll l spec none ws).1 (getoptAll l spec none ws).2 := by
  induction n with
  | zero =>
    intro ws hl _
    cases ws with
    | nil => rw [getoptAll]; exact .none
    | cons w ws => simp at hl
  | succ n ih =>
    intro ws hl hcl
    cases ws with
    | nil => rw [getoptAll]; exact .none
    | cons w ws =>
      have hl' : ws.length ≤ n := by simpa using hl
      by_cases hw : IsOperand w
      · obtain ⟨h1, h2⟩ := (operand_word w).mp hw
        rw [getoptAll, if_neg h1, if_neg h2] at hcl ⊢
        by_cases hp : l.permute = true
        · rw [if_pos hp] at hcl ⊢
          exact .operand w hw hp (ih ws hl' hcl)
        · rw [if_neg hp] at hcl ⊢
          exact .rest w hw (by simpa using hp) ws
      · by_cases hs : w = lit "--"
        · rw [hs, getoptAll, if_pos rfl]; exact .stop ws
        · have h2 : w.head? = some 0x2d ∧ 2 ≤ w.length := by
            false_or_by_contra
            rename_i h
            exact hw ((operand_word w).mpr ⟨hs, h⟩)
          match w, h2 with
          | b :: bs, h2 =>
            have hb : b = 0x2d := by simpa using h2.1
            subst hb
            have hbs : bs ≠ [] := by
              intro e
              rw [e] at h2
              simp at h2
            rw [getoptAll, if_neg hs, if_pos h2] at hcl ⊢
            simp only [List.drop_succ_cons, List.drop_zero] at hcl ⊢
            rcases word_shape l hf bs (fun o ho => hcl o (List.mem_append_left _ ho)) with ⟨cs, h3, h4, h5⟩ | ⟨cs, c, v, h3, h4, h5, h6, h7⟩ | ⟨cs, c, h3, h4, h6, h7⟩
            · rw [h5] at hcl ⊢
              rw [h4]
              exact .flags cs (by intro e; rw [e] at h4; exact hbs h4) h3 (ih ws hl' (fun o ho => hcl o (List.mem_append_right _ ho)))
            · rw [h7] at hcl ⊢
              rw [h6]
              have := Written.attached cs h3 c h4 v h5 (ih ws hl' (fun o ho => hcl o (List.mem_append_right _ ho)))
              simpa [List.append_assoc] using this
            · rw [h7] at hcl ⊢
              rw [h6]
              cases ws with
              | nil =>
                rw [getoptAll] at hcl
                exact absurd rfl (hcl ⟨'?', l.lacking (letter c)⟩ (by simp))
              | cons v ws =>
                rw [getoptAll] at hcl ⊢
                have e := (hf.back c (Or.inr h4)).1
                have := Written.separate cs h3 c h4 v (ih ws (by simp at hl'; omega) (fun o ho => hcl o (by simp [ho])))
                simpa [e] using this

end Ladvd
