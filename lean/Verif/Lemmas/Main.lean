import Verif.Spec.Main
/-!
# Lemmas on option processing
-/

namespace Ladvd
open Spec

/-- The bits an option letter sets. -/
def optOn : Char → List Nat
  | 'a' => [OPT_AUTO, OPT_RECV] | 'd' => [OPT_DEBUG] | 'm' => [OPT_MNETIF] | 'n' => [OPT_MADDR] | 'o' => [OPT_ONCE]
  | 'q' => [OPT_CHASSIS_IF] | 'r' => [OPT_RECV] | 't' => [OPT_TAP] | 'w' => [OPT_WIRELESS]
  | 'y' => [OPT_USEDESCR, OPT_RECV, OPT_IFDESCR] | 'z' => [OPT_RECV, OPT_IFDESCR] | _ => []

/-- The bits an option letter clears. -/
def optOff : Char → List Nat
  | 'd' => [OPT_DAEMON] | 'f' => [OPT_DAEMON] | 's' => [OPT_SEND] | _ => []

theorem testBit_shift (b k : Nat) : (1 <<< b).testBit k = decide (k = b) := by
  rw [Nat.one_shiftLeft, Nat.testBit_two_pow]
  simp only [eq_comm]

theorem on_bit (s : MainSt) (b k : Nat) : (s.on b).opts.testBit k = (s.opts.testBit k || decide (k = b)) := by
  unfold MainSt.on
  rw [Nat.testBit_or, testBit_shift]

theorem off_bit (s : MainSt) (b k : Nat) : (s.off b).opts.testBit k = (s.opts.testBit k && !decide (k = b)) := by
  unfold MainSt.off
  rw [Nat.testBit_xor, Nat.testBit_and, testBit_shift]
  cases s.opts.testBit k <;> cases decide (k = b) <;> rfl

/-- The protocol an option letter enables. -/
def optProto : Char → Option Nat
  | 'L' => some 0 | 'C' => some 1 | 'E' => some 2 | 'F' => some 3 | 'N' => some 4 | _ => none

theorem toUpper_ok (b c : UInt8) (h : toUpper b = .ok c) : (b < 0x80 ∨ b = 0xff) ∧ c = if 0x61 ≤ b ∧ b ≤ 0x7a then b - 0x20 else b := by
  unfold toUpper at h
  split at h
  · cases h
  · rename_i hn
    injection h with h
    refine ⟨?_, h.symm⟩
    rcases Nat.lt_or_ge b.toNat 0x80 with h1 | h1
    · exact Or.inl h1
    · right
      by_cases h2 : b = 0xff
      · exact h2
      · exact absurd ⟨h1, h2⟩ hn

theorem toUpper_some (b : UInt8) (h : b < 0x80 ∨ b = 0xff) : ∃ c, toUpper b = .ok c := by
  unfold toUpper
  rw [if_neg]
  · exact ⟨_, rfl⟩
  · rintro ⟨h1, h2⟩
    rcases h with h | h
    · exact absurd (Nat.lt_of_lt_of_le (UInt8.lt_iff_toNat_lt.mp h) (UInt8.le_iff_toNat_le.mp h1)) (Nat.lt_irrefl _)
    · exact h2 h

/-- What one accepted option does. -/
structure OptStep (h : Host) (s : MainSt) (o : Opt) (s' : MainSt) : Prop where
  valid : ValidOpt h o
  bits : ∀ k, s'.opts.testBit k = ((s.opts.testBit k || decide (k ∈ optOn o.ch)) && !decide (k ∈ optOff o.ch))
  protos : ∀ k, s'.protos.testBit k = (s.protos.testBit k || decide (optProto o.ch = some k))
  user : s'.user = if o.ch = 'u' then o.arg else s.user
  excl : s'.excl = if o.ch = 'e' then s.excl ++ [o.arg.take 15] else s.excl
  country : s'.country = if o.ch = 'c' then capitals o.arg else s.country
  location : s'.location = if o.ch = 'l' then o.arg.take 255 else s.location
  mifname : s'.mgmt.mifname = if o.ch = 'm' ∧ h.hasIf o.arg = true then some o.arg else s.mgmt.mifname
  maddr4 : s'.mgmt.maddr4 = if o.ch = 'm' ∧ h.hasIf o.arg = false then (h.pton4 o.arg).getD s.mgmt.maddr4 else s.mgmt.maddr4
  maddr6 : s'.mgmt.maddr6 = if o.ch = 'm' ∧ h.hasIf o.arg = false ∧ h.pton4 o.arg = none then (h.pton6 o.arg).getD s.mgmt.maddr6 else s.mgmt.maddr6

theorem mgmt_step (h : Host) (s s' : MainSt) (o : Opt) (hc : o.ch = 'm') (ho : mainMgmt h s o.arg = .ok s') : OptStep h s o s' := by
  unfold mainMgmt at ho
  dsimp only at ho
  have base : ∀ m : Mgmt, ValidOpt h o →
      m.mifname = (if h.hasIf o.arg = true then some o.arg else s.mgmt.mifname) →
      m.maddr4 = (if h.hasIf o.arg = false then (h.pton4 o.arg).getD s.mgmt.maddr4 else s.mgmt.maddr4) →
      m.maddr6 = (if h.hasIf o.arg = false ∧ h.pton4 o.arg = none then (h.pton6 o.arg).getD s.mgmt.maddr6 else s.mgmt.maddr6) →
      OptStep h s o { s.on OPT_MNETIF with mgmt := m } := by
    intro m hv h1 h2 h3
    refine ⟨hv, ?_, ?_, ?_, ?_, ?_, ?_, ?_, ?_, ?_⟩
    · intro k
      have := on_bit s OPT_MNETIF k
      rw [hc]
      show (s.on OPT_MNETIF).opts.testBit k = _
      rw [this]
      simp [optOn, optOff]
    · intro k; rw [hc]; simp [optProto, MainSt.on]
    · rw [hc]; simp [MainSt.on]
    · rw [hc]; simp [MainSt.on]
    · rw [hc]; simp [MainSt.on]
    · rw [hc]; simp [MainSt.on]
    · rw [h1]; simp [hc]
    · rw [h2]; simp [hc]
    · rw [h3]; simp [hc]
  split at ho
  · rename_i hi
    injection ho with ho
    subst ho
    exact base _ (Or.inr (Or.inr (Or.inl ⟨hc, Or.inl hi⟩))) (by rw [if_pos hi]) (by rw [hi]; rfl) (by rw [hi]; rfl)
  · rename_i hi
    have hf : h.hasIf o.arg = false := by simpa using hi
    split at ho
    · rename_i a h4
      injection ho with ho
      subst ho
      exact base _ (Or.inr (Or.inr (Or.inl ⟨hc, Or.inr (Or.inl (by rw [h4]; rfl))⟩))) (by rw [hf]; rfl) (by rw [hf, h4]; rfl) (by rw [hf, h4]; rfl)
    · rename_i a h4 h6
      injection ho with ho
      subst ho
      exact base _ (Or.inr (Or.inr (Or.inl ⟨hc, Or.inr (Or.inr (by rw [h6]; rfl))⟩))) (by rw [hf]; rfl) (by rw [hf, h4]; rfl) (by rw [hf, h4, h6]; rfl)
    · cases ho

theorem country_step (h : Host) (s s' : MainSt) (o : Opt) (hc : o.ch = 'c') (ho : mainCountry s o.arg = .ok s') : OptStep h s o s' := by
  unfold mainCountry at ho
  split at ho
  · rename_i a b hab
    cases ha : toUpper a with
    | ok a' =>
      cases hb : toUpper b with
      | ok b' =>
        rw [ha, hb] at ho
        injection ho with ho
        subst ho
        obtain ⟨a1, a2⟩ := toUpper_ok _ _ ha
        obtain ⟨b1, b2⟩ := toUpper_ok _ _ hb
        refine ⟨Or.inr (Or.inr (Or.inr (Or.inl ⟨hc, by rw [hab]; rfl, ?_⟩))), ?_, ?_, ?_, ?_, ?_, ?_, ?_, ?_, ?_⟩
        · intro x hx
          rw [hab] at hx
          rcases List.mem_cons.mp hx with rfl | hx
          · exact a1
          · rw [List.mem_singleton.mp hx]; exact b1
        · intro k; rw [hc]; simp [optOn, optOff]
        · intro k; rw [hc]; simp [optProto]
        all_goals rw [hc]
        · simp
        · simp
        · rw [if_pos rfl, hab, a2, b2]; rfl
        · simp
        · simp
        · simp
        · simp
      | _ => rw [ha, hb] at ho; cases ho
    | _ => rw [ha] at ho; cases ho
  · cases ho

theorem proto_bit (n b k : Nat) : (n ||| (1 <<< b)).testBit k = (n.testBit k || decide (b = k)) := by
  rw [Nat.testBit_or, testBit_shift]
  simp only [eq_comm]

theorem opt_step (h : Host) (s s' : MainSt) (o : Opt) (ho : mainOpt h s o = .ok s') : OptStep h s o s' := by
  unfold mainOpt at ho
  split at ho
  case h_3 hc =>
    split at ho
    · rename_i hi
      injection ho with ho
      subst ho
      refine ⟨Or.inr (Or.inl ⟨hc, hi⟩), ?_, ?_, ?_, ?_, ?_, ?_, ?_, ?_, ?_⟩ <;> (rw [hc]; simp [optOn, optOff, optProto])
    · cases ho
  case h_5 hc => exact mgmt_step h s s' o hc ho
  case h_17 hc => exact country_step h s s' o hc ho
  case h_18 hc =>
    split at ho
    · cases ho
    · rename_i hi
      injection ho with ho
      subst ho
      refine ⟨Or.inr (Or.inr (Or.inr (Or.inr ⟨hc, fun e => hi (by rw [e]; rfl)⟩))), ?_, ?_, ?_, ?_, ?_, ?_, ?_, ?_, ?_⟩ <;>
        (rw [hc]; simp [optOn, optOff, optProto])
  case h_24 => cases ho
  all_goals
    rename_i hc
    injection ho with ho
    subst ho
    refine ⟨Or.inl (by rw [hc]; decide), ?_, ?_, ?_, ?_, ?_, ?_, ?_, ?_, ?_⟩
    · intro k; rw [hc]; simp [optOn, optOff, on_bit, off_bit, Bool.or_assoc]
    · intro k
      rw [hc]
      first
        | (simp [optProto, MainSt.on, MainSt.off]; done)
        | (simp only [optProto, Option.some.injEq]; exact proto_bit _ _ _)
    all_goals (rw [hc]; simp [MainSt.on, MainSt.off])

theorem opt_ok (h : Host) (s : MainSt) (o : Opt) (hv : ValidOpt h o) : ∃ s', mainOpt h s o = .ok s' := by
  unfold mainOpt
  rcases hv with hv | ⟨hc, hi⟩ | ⟨hc, hi⟩ | ⟨hc, h2, hb⟩ | ⟨hc, hl⟩
  · split
    case h_3 hc => rw [hc] at hv; exact absurd hv (by decide)
    case h_5 hc => rw [hc] at hv; exact absurd hv (by decide)
    case h_17 hc => rw [hc] at hv; exact absurd hv (by decide)
    case h_18 hc => rw [hc] at hv; exact absurd hv (by decide)
    case h_24 =>
      simp only [List.mem_cons, List.not_mem_nil, or_false] at hv
      exfalso
      rcases hv with hv | hv | hv | hv | hv | hv | hv | hv | hv | hv | hv | hv | hv | hv | hv | hv | hv | hv | hv <;> contradiction
    all_goals exact ⟨_, rfl⟩
  · simp only [hc, hi, if_true]
    exact ⟨_, rfl⟩
  · simp only [hc]
    unfold mainMgmt
    dsimp only
    split
    · exact ⟨_, rfl⟩
    · rename_i hn
      split
      · exact ⟨_, rfl⟩
      · exact ⟨_, rfl⟩
      · rename_i h4 h6
        rw [h4, h6] at hi
        rcases hi with hi | hi | hi
        · exact absurd hi hn
        · cases hi
        · cases hi
  · simp only [hc]
    unfold mainCountry
    match ha : o.arg, h2 with
    | [a, b], _ =>
      obtain ⟨a', h1⟩ := toUpper_some a (hb a (by rw [ha]; simp))
      obtain ⟨b', h2⟩ := toUpper_some b (hb b (by rw [ha]; simp))
      dsimp only
      rw [h1, h2]
      exact ⟨_, rfl⟩
  · simp only [hc]
    rw [if_neg (fun e => hl (List.length_eq_zero_iff.mp e))]
    exact ⟨_, rfl⟩

theorem loop_ok (h : Host) (os : List Opt) : ∀ s, (∃ s', mainLoop h os s = .ok s') ↔ ∀ o ∈ os, ValidOpt h o := by
  induction os with
  | nil => intro s; exact ⟨fun _ _ ho => (by cases ho), fun _ => ⟨s, rfl⟩⟩
  | cons o os ih =>
    intro s
    constructor
    · rintro ⟨s', hs⟩
      unfold mainLoop at hs
      cases h1 : mainOpt h s o with
      | ok s1 =>
        rw [h1] at hs
        intro x hx
        rcases List.mem_cons.mp hx with rfl | hx
        · exact (opt_step h s s1 _ h1).valid
        · exact (ih s1).mp ⟨s', hs⟩ x hx
      | _ => rw [h1] at hs; cases hs
    · intro hv
      obtain ⟨s1, h1⟩ := opt_ok h s o (hv o (List.mem_cons_self ..))
      obtain ⟨s2, h2⟩ := (ih s1).mpr (fun x hx => hv x (List.mem_cons_of_mem _ hx))
      exact ⟨s2, by unfold mainLoop; rw [h1]; exact h2⟩

/-- What a sequence of options does. -/
structure OptRun (h : Host) (s : MainSt) (os : List Opt) (s' : MainSt) : Prop where
  bits : ∀ k, s'.opts.testBit k = ((s.opts.testBit k || os.any (fun o => decide (k ∈ optOn o.ch))) && !os.any (fun o => decide (k ∈ optOff o.ch)))
  protos : ∀ k, s'.protos.testBit k = (s.protos.testBit k || os.any (fun o => decide (optProto o.ch = some k)))
  user : s'.user = (argsOf 'u' os).getLast?.getD s.user
  excl : s'.excl = s.excl ++ (argsOf 'e' os).map (fun a => a.take 15)
  country : s'.country = ((argsOf 'c' os).getLast?.map capitals).getD s.country
  location : s'.location = ((argsOf 'l' os).getLast?.map (fun a => a.take 255)).getD s.location
  mifname : s'.mgmt.mifname = (((argsOf 'm' os).filter (fun a => h.hasIf a)).getLast?.map some).getD s.mgmt.mifname
  maddr4 : s'.mgmt.maddr4 = (((argsOf 'm' os).filter (fun a => !h.hasIf a)).filterMap h.pton4).getLast?.getD s.mgmt.maddr4
  maddr6 : s'.mgmt.maddr6 =
    (((argsOf 'm' os).filter (fun a => !h.hasIf a && (h.pton4 a).isNone)).filterMap h.pton6).getLast?.getD s.mgmt.maddr6

theorem on_off (c c' : Char) (k : Nat) (h1 : k ∈ optOn c) (h2 : k ∈ optOff c') : False := by
  have hk : k = 0 ∨ k = 1 := by
    unfold optOff at h2
    split at h2 <;> simp_all [OPT_DAEMON, OPT_SEND]
  unfold optOn at h1
  split at h1 <;> simp only [OPT_AUTO, OPT_RECV, OPT_DEBUG, OPT_MNETIF, OPT_MADDR, OPT_ONCE, OPT_CHASSIS_IF, OPT_TAP, OPT_WIRELESS, OPT_USEDESCR,
    OPT_IFDESCR, List.mem_cons, List.not_mem_nil, or_false] at h1 <;> omega

theorem last_cons {α : Type} (x : α) (l : List α) (d : α) : (x :: l).getLast?.getD d = l.getLast?.getD x := by
  cases l with
  | nil => rfl
  | cons y l => rw [List.getLast?_cons_cons]; cases h : (y :: l).getLast? with
    | none => simp at h
    | some z => rfl

theorem argsOf_cons (ch : Char) (o : Opt) (os : List Opt) :
    argsOf ch (o :: os) = if o.ch = ch then o.arg :: argsOf ch os else argsOf ch os := by
  unfold argsOf
  by_cases h : o.ch = ch
  · rw [if_pos h, List.filter_cons_of_pos (by simpa using h)]; rfl
  · rw [if_neg h, List.filter_cons_of_neg (by simpa using h)]

theorem loop_run (h : Host) (os : List Opt) : ∀ s s', mainLoop h os s = .ok s' → OptRun h s os s' := by
  induction os with
  | nil =>
    intro s s' hs
    injection hs with hs
    subst hs
    refine ⟨?_, ?_, rfl, ?_, rfl, rfl, rfl, rfl, rfl⟩
    · intro k; simp
    · intro k; simp
    · simp [argsOf]
  | cons o os ih =>
    intro s s' hs
    unfold mainLoop at hs
    cases h1 : mainOpt h s o with
    | ok s1 =>
      rw [h1] at hs
      have a := opt_step h s s1 o h1
      have b := ih s1 s' hs
      refine ⟨?_, ?_, ?_, ?_, ?_, ?_, ?_, ?_, ?_⟩
      · intro k
        rw [b.bits k, a.bits k, List.any_cons, List.any_cons]
        have e1 : decide (k ∈ optOff o.ch) = true → os.any (fun o => decide (k ∈ optOn o.ch)) = false := by
          intro hk
          rw [List.any_eq_false]
          intro x _ hx
          exact on_off _ _ k (of_decide_eq_true hx) (of_decide_eq_true hk)
        cases hk : decide (k ∈ optOff o.ch) with
        | false => simp [Bool.or_assoc]
        | true => rw [e1 hk]; simp
      · intro k
        rw [b.protos k, a.protos k, List.any_cons, Bool.or_assoc]
      · rw [b.user, a.user, argsOf_cons]
        split
        · rw [last_cons]
        · rfl
      · rw [b.excl, a.excl, argsOf_cons]
        split
        · simp
        · rfl
      · rw [b.country, a.country, argsOf_cons]
        split
        · rw [← List.getLast?_map, ← List.getLast?_map, List.map_cons, last_cons]
        · rfl
      · rw [b.location, a.location, argsOf_cons]
        split
        · rw [← List.getLast?_map, ← List.getLast?_map, List.map_cons, last_cons]
        · rfl
      · rw [b.mifname, a.mifname, argsOf_cons]
        by_cases hc : o.ch = 'm'
        · rw [if_pos hc]
          cases hi : h.hasIf o.arg with
          | true => rw [List.filter_cons_of_pos (by simpa using hi), ← List.getLast?_map, ← List.getLast?_map, List.map_cons, last_cons, if_pos ⟨hc, rfl⟩]
          | false => rw [List.filter_cons_of_neg (by simp [hi]), if_neg (by simp)]
        · rw [if_neg hc, if_neg (fun e => hc e.1)]
      · rw [b.maddr4, a.maddr4, argsOf_cons]
        by_cases hc : o.ch = 'm'
        · rw [if_pos hc]
          cases hi : h.hasIf o.arg with
          | true => rw [List.filter_cons_of_neg (by simp [hi]), if_neg (by simp)]
          | false =>
            rw [List.filter_cons_of_pos (by simp [hi]), if_pos ⟨hc, rfl⟩]
            cases h4 : h.pton4 o.arg with
            | none => rw [List.filterMap_cons_none h4]; rfl
            | some x => rw [List.filterMap_cons_some h4, last_cons]; rfl
        · rw [if_neg hc, if_neg (fun e => hc e.1)]
      · rw [b.maddr6, a.maddr6, argsOf_cons]
        by_cases hc : o.ch = 'm'
        · rw [if_pos hc]
          by_cases hi : h.hasIf o.arg = false ∧ h.pton4 o.arg = none
          · rw [List.filter_cons_of_pos (by simp [hi.1, hi.2]), if_pos ⟨hc, hi⟩]
            cases h6 : h.pton6 o.arg with
            | none => rw [List.filterMap_cons_none h6]; rfl
            | some x => rw [List.filterMap_cons_some h6, last_cons]; rfl
          · rw [List.filter_cons_of_neg (by simpa using hi), if_neg (fun e => hi e.2)]
        · rw [if_neg hc, if_neg (fun e => hc e.1)]
    | _ => rw [h1] at hs; cases hs

end Ladvd
