import Verif.Model.Bsd
import Verif.Spec.Bsd
import Verif.Lemmas.Auto
/-!
# Link properties and link notifications on FreeBSD
-/

namespace Ladvd

open Spec

/-- Link fields of an interface. -/
private def withLink (n : Netif) (mtu : Nat) (duplex supp en : Int) (pmd mau : Nat) : Netif :=
  { n with mtu := mtu, duplex := duplex, autonegSupported := supp, autonegEnabled := en, autonegPmd := pmd, mau := mau }

private theorem exists_cons {α : Type} {p : α → Prop} {a : α} {l : List α} : (∃ x ∈ a :: l, p x) ↔ p a ∨ ∃ x ∈ l, p x := by
  constructor
  · rintro ⟨x, hx, h⟩
    rcases List.mem_cons.mp hx with rfl | hx
    · exact Or.inl h
    · exact Or.inr ⟨x, hx, h⟩
  · rintro (h | ⟨x, hx, h⟩)
    · exact ⟨a, List.mem_cons_self, h⟩
    · exact ⟨x, List.mem_cons_of_mem _ hx, h⟩

theorem announces_iff (w : MediaWord) (i : Nat) (hw : w.sub ≠ .auto) : MediaBit w i ↔ bsdPmd w = i := by
  obtain ⟨e, sub, fdx⟩ := w
  unfold MediaBit mediaFits bsdPmdRows
  simp only [exists_cons, List.not_mem_nil, false_and, exists_false, or_false, List.forall_mem_cons, Option.mem_def,
    Option.some.injEq, forall_eq', reduceCtorEq, false_imp_iff, implies_true, and_true]
  cases sub <;> cases fdx <;>
    simp only [bsdPmd, reduceCtorEq, false_and, true_and, and_false, and_true, or_false, false_or, not_false_eq_true, not_true_eq_false, ne_eq,
      Bool.false_eq_true, if_true, if_false, Bool.true_eq_false, eq_comm (a := i)]
  all_goals first
    | exact Iff.rfl
    | exact absurd rfl hw

theorem bsdMau_rows (w : MediaWord) :
    (∀ r ∈ bsdMauRows, mediaFits w r → bsdMau w w.fdx = r.2.2) ∧ ((∀ r ∈ bsdMauRows, ¬ mediaFits w r) → bsdMau w w.fdx = 0) := by
  obtain ⟨e, sub, fdx⟩ := w
  unfold mediaFits bsdMauRows
  simp only [List.not_mem_nil, List.forall_mem_cons, Option.mem_def,
    Option.some.injEq, forall_eq', reduceCtorEq, false_imp_iff, implies_true, and_true]
  cases sub <;> cases fdx <;> simp [bsdMau]

theorem bsdMedia_fold (L : List MediaWord) : ∀ (n : Netif) (mtu : Nat) (d s en : Int) (pmd mau : Nat),
    ∃ pmd', L.foldl bsdMediaStep (withLink n mtu d s en pmd mau) =
        withLink n mtu d (if (∃ w ∈ L, w.sub = .auto) then 1 else s) en pmd' mau ∧
      ∀ i, pmd'.testBit i = true ↔ pmd.testBit i = true ∨ ∃ w ∈ L, MediaBit w i := by
  induction L with
  | nil =>
    intro n mtu d s en pmd mau
    exact ⟨pmd, by simp, fun i => by simp⟩
  | cons w L ih =>
    intro n mtu d s en pmd mau
    rw [List.foldl_cons]
    by_cases hw : w.sub = .auto
    · have e : bsdMediaStep (withLink n mtu d s en pmd mau) w = withLink n mtu d 1 en pmd mau := by
        unfold bsdMediaStep; rw [if_pos hw]; rfl
      rw [e]
      obtain ⟨p, h1, h2⟩ := ih n mtu d 1 en pmd mau
      refine ⟨p, ?_, ?_⟩
      · rw [h1, ite_self, if_pos ⟨w, List.mem_cons_self, hw⟩]
      · intro i
        rw [h2]
        have : ¬ MediaBit w i := fun h => h.1 hw
        simp only [exists_cons, this, false_or]
    · have e : bsdMediaStep (withLink n mtu d s en pmd mau) w = withLink n mtu d s en (pmd ||| 1 <<< bsdPmd w) mau := by
        unfold bsdMediaStep; rw [if_neg hw]; rfl
      rw [e]
      obtain ⟨p, h1, h2⟩ := ih n mtu d s en (pmd ||| 1 <<< bsdPmd w) mau
      refine ⟨p, ?_, ?_⟩
      · rw [h1]
        simp only [exists_cons, hw, false_or]
      · intro i
        rw [h2, testBit_or_shift, Bool.or_eq_true, decide_eq_true_eq, exists_cons, announces_iff w i hw, or_assoc]

theorem bsdMedia_is (m : BsdMedia) (n : Netif) : BsdLinkIs m n (bsdMedia m n) := by
  have hm : ((m.mtu n.name).map (· % 65536)).getD n.mtu = match m.mtu n.name with | some v => v % 65536 | none => n.mtu := by
    cases m.mtu n.name <;> rfl
  have hs : bsdMedia m n = let x := withLink n (((m.mtu n.name).map (· % 65536)).getD n.mtu) (-1) (-1) (-1) 0 0
      if n.type = 0 then bsdPhysical m x else x := rfl
  rw [hs, hm]
  generalize hx : (match m.mtu n.name with | some v => v % 65536 | none => n.mtu) = mtu
  dsimp only
  by_cases hL : ∃ r, MediaKnown m n r
  · obtain ⟨r, hr⟩ := hL
    obtain ⟨h1, h2, h3, h4, h5, h6⟩ := hr
    have hu : ∀ r', MediaKnown m n r' → r' = r := fun r' h' => Option.some.inj (h'.2.1.symm.trans h2)
    rw [if_pos h1]
    obtain ⟨pmd, hf, hb⟩ := bsdMedia_fold r.list n mtu (-1) (-1) (-1) 0 0
    have hp : bsdPhysical m (withLink n mtu (-1) (-1) (-1) 0 0) =
        withLink n mtu (if r.active.fdx then 1 else 0) (if (∃ w ∈ r.list, w.sub = .auto) then 1 else 0)
          (if (∃ w ∈ r.list, w.sub = .auto) then (if r.current.sub = .auto then 1 else 0) else -1) pmd (bsdMau r.active r.active.fdx) := by
      unfold bsdPhysical
      have e : m.media (withLink n mtu (-1) (-1) (-1) 0 0).name = some r := h2
      have e' : m.again (withLink n mtu (-1) (-1) (-1) 0 0).name = true := h6
      have h7 : r.list.length ≠ 0 := fun h => h5 (List.length_eq_zero_iff.mp h)
      rw [e, e']
      dsimp only
      rw [h3, h4]
      simp only [Bool.not_true, Bool.false_eq_true, if_false, if_neg h7]
      rw [hf]
      by_cases ha : ∃ w ∈ r.list, w.sub = .auto
      · simp only [if_pos ha]
        cases r.active.fdx <;> rfl
      · simp only [if_neg ha]
        cases r.active.fdx <;> rfl
    rw [hp]
    refine ⟨rfl, hx.symm, ?_, ?_, ?_, ?_, ?_, ?_, ?_⟩
    · intro h; exact absurd ⟨h1, h2, h3, h4, h5, h6⟩ (h r)
    · intro r' h'; rw [hu r' h']; rfl
    · intro r' h'; rw [hu r' h']; rfl
    · intro r' h' ha; rw [hu r' h'] at ha ⊢; exact if_pos ha
    · intro r' h' ha; rw [hu r' h'] at ha; exact if_neg ha
    · intro r' h' i
      rw [hu r' h']
      refine (hb i).trans ?_
      rw [Nat.zero_testBit]
      simp
    · intro r' h'; rw [hu r' h']; exact bsdMau_rows r.active
  · have hp : (if n.type = 0 then bsdPhysical m (withLink n mtu (-1) (-1) (-1) 0 0) else withLink n mtu (-1) (-1) (-1) 0 0) =
        withLink n mtu (-1) (-1) (-1) 0 0 := by
      by_cases h1 : n.type = 0
      · rw [if_pos h1]
        unfold bsdPhysical
        have e : m.media (withLink n mtu (-1) (-1) (-1) 0 0).name = m.media n.name := rfl
        have e' : m.again (withLink n mtu (-1) (-1) (-1) 0 0).name = m.again n.name := rfl
        rw [e, e']
        cases h2 : m.media n.name with
        | none => rfl
        | some r =>
          dsimp only
          split
          · rfl
          · split
            · rfl
            · split
              · rfl
              · split
                · rfl
                · rename_i h3 h4 h5 h6
                  exact absurd ⟨r, h1, h2, by simpa using h3, by simpa using h4, fun h => h5 (by rw [h]; rfl), by simpa using h6⟩ hL
      · rw [if_neg h1]
    rw [hp]
    have hno : ∀ r, ¬ MediaKnown m n r := fun r h => hL ⟨r, h⟩
    refine ⟨rfl, hx.symm, fun _ => ⟨rfl, rfl, rfl, rfl, rfl⟩, ?_, ?_, ?_, ?_, ?_, ?_⟩
    all_goals exact fun r h => absurd h (hno r)

theorem and_up_running (f : Nat) : f &&& 0x41 = 0x41 ↔ f.testBit 0 = true ∧ f.testBit 6 = true := by
  have hb : ∀ i, Nat.testBit 0x41 i = true ↔ i = 0 ∨ i = 6 := by
    intro i
    rcases Nat.lt_or_ge i 7 with h | h
    · have : ∀ j < 7, (Nat.testBit 0x41 j = true ↔ j = 0 ∨ j = 6) := by decide
      exact this i h
    · have : Nat.testBit 0x41 i = false :=
        Nat.testBit_lt_two_pow (Nat.lt_of_lt_of_le (show 0x41 < 2 ^ 7 by decide) (Nat.pow_le_pow_right (by decide) h))
      rw [this]
      constructor
      · intro h; cases h
      · omega
  constructor
  · intro h
    have h0 := congrArg (fun x => x.testBit 0) h
    have h6 := congrArg (fun x => x.testBit 6) h
    simp only [Nat.testBit_and, (hb 0).mpr (Or.inl rfl), (hb 6).mpr (Or.inr rfl), Bool.and_true] at h0 h6
    exact ⟨h0, h6⟩
  · rintro ⟨h0, h6⟩
    refine Nat.eq_of_testBit_eq (fun i => ?_)
    rw [Nat.testBit_and]
    by_cases hi : i = 0 ∨ i = 6
    · rw [(hb i).mpr hi]
      rcases hi with rfl | rfl
      · rw [h0]; rfl
      · rw [h6]; rfl
    · have : Nat.testBit 0x41 i = false := by
        cases h : Nat.testBit 0x41 i with
        | false => rfl
        | true => exact absurd ((hb i).mp h) hi
      rw [this, Bool.and_false]

theorem routeLink_laidOut {r : RtReport} {msg : Bytes} (h : r.LaidOut msg) : routeLink (some msg) = if r.LinkUp then some r.index else none := by
  obtain ⟨l0, l1, b0, b1, b2, b3, f0, f1, f2, f3, i0, i1, c0, c1, t, d0, d1, d2, s, rest, hm, h1, h2, hf, hi, ht, hs⟩ := h
  have hx : msg.take 2048 = msg := List.take_of_length_le h2
  unfold routeLink
  dsimp only [Option.getD_some]
  rw [hx]
  generalize List.replicate (2048 - msg.length) (0 : UInt8) = z
  rw [if_neg]
  · have e16 : ((msg ++ z).getD 16 0).toNat = t.toNat := by rw [hm]; rfl
    have e20 : ((msg ++ z).getD 20 0).toNat = s.toNat := by rw [hm]; rfl
    have e8 : leNat (((msg ++ z).drop 8).take 4) = r.flags := by
      rw [hm, hf]
      show f0.toNat + 256 * (f1.toNat + 256 * (f2.toNat + 256 * (f3.toNat + 256 * 0))) = _
      omega
    have e12 : leNat (((msg ++ z).drop 12).take 2) = r.index := by
      rw [hm, hi]
      show i0.toNat + 256 * (i1.toNat + 256 * 0) = _
      omega
    simp only [e16, e20, e8, e12, ← ht, ← hs]
    have hu : r.LinkUp ↔ r.ifType = 6 ∧ (r.flags &&& 0x41 = 0x41) ∧ r.link ≠ 1 := by
      rw [and_up_running]; unfold RtReport.LinkUp; simp only [and_assoc]
    by_cases h6 : r.ifType = 6
    · rw [if_neg (by simpa using h6)]
      by_cases hb : r.flags &&& 0x41 = 0x41
      · rw [if_neg (by simpa using hb)]
        by_cases hl : r.link = 1
        · rw [if_pos (by omega), if_neg (fun h => (hu.mp h).2.2 hl)]
        · rw [if_neg (by omega), if_pos (hu.mpr ⟨h6, hb, hl⟩)]
      · rw [if_pos hb, if_neg (fun h => hb (hu.mp h).2.1)]
    · rw [if_pos h6, if_neg (fun h => h6 (hu.mp h).1)]
  · have e2 : ((msg ++ z).getD 2 0).toNat = 5 := by rw [hm]; rfl
    have e3 : ((msg ++ z).getD 3 0).toNat = 14 := by rw [hm]; rfl
    simp only [e2, e3]
    omega

end Ladvd
