import Verif.Model.BsdMedia
/-!
# Link properties on FreeBSD: what they depend on
-/

namespace Ladvd

/-- An interface with other link properties. -/
def setLink (n : Netif) (mtu : Nat) (v : Int × Int × Int × Nat × Nat) : Netif :=
  { n with mtu := mtu, duplex := v.1, autonegSupported := v.2.1, autonegEnabled := v.2.2.1, autonegPmd := v.2.2.2.1, mau := v.2.2.2.2 }

theorem mediaStep_shape (L : List MediaWord) : ∀ (d s en : Int) (pmd mau : Nat), ∃ s' pmd', ∀ n mtu,
    L.foldl bsdMediaStep (setLink n mtu (d, s, en, pmd, mau)) = setLink n mtu (d, s', en, pmd', mau) := by
  induction L with
  | nil => intro d s en pmd mau; exact ⟨s, pmd, fun _ _ => rfl⟩
  | cons w L ih =>
    intro d s en pmd mau
    by_cases hw : w.sub = .auto
    · obtain ⟨s', pmd', h⟩ := ih d 1 en pmd mau
      refine ⟨s', pmd', fun n mtu => ?_⟩
      rw [← h, List.foldl_cons]
      unfold bsdMediaStep
      rw [if_pos hw]
      rfl
    · obtain ⟨s', pmd', h⟩ := ih d s en (pmd ||| (1 <<< bsdPmd w)) mau
      refine ⟨s', pmd', fun n mtu => ?_⟩
      rw [← h, List.foldl_cons]
      unfold bsdMediaStep
      rw [if_neg hw]
      rfl

/-- Link properties depend only on the answers and on name and kind of the interface. -/
theorem bsdMedia_shape (m : BsdMedia) (name : Bytes) (t : Int) : ∃ v, ∀ n : Netif, n.name = name → n.type = t →
    bsdMedia m n = setLink n (((m.mtu name).map (· % 65536)).getD n.mtu) v := by
  have hs : ∀ n : Netif, bsdMedia m n = if n.type = 0 then bsdPhysical m (setLink n (((m.mtu n.name).map (· % 65536)).getD n.mtu) (-1, -1, -1, 0, 0))
      else setLink n (((m.mtu n.name).map (· % 65536)).getD n.mtu) (-1, -1, -1, 0, 0) := fun _ => rfl
  by_cases ht : t = 0
  · cases hm : m.media name with
    | none =>
      refine ⟨(-1, -1, -1, 0, 0), fun n hn hty => ?_⟩
      rw [hs, if_pos (hty.trans ht), hn]
      unfold bsdPhysical
      rw [show (setLink n (((m.mtu name).map (· % 65536)).getD n.mtu) (-1, -1, -1, 0, 0)).name = name from hn, hm]
    | some r =>
      by_cases hc : (!r.current.ether) = true ∨ (!r.link) = true ∨ r.list.length = 0 ∨ (!m.again name) = true
      · refine ⟨(-1, -1, -1, 0, 0), fun n hn hty => ?_⟩
        rw [hs, if_pos (hty.trans ht), hn]
        unfold bsdPhysical
        rw [show (setLink n (((m.mtu name).map (· % 65536)).getD n.mtu) (-1, -1, -1, 0, 0)).name = name from hn, hm]
        dsimp only
        rcases hc with h | h | h | h
        · rw [if_pos h]
        · rw [if_pos h, ite_self]
        · rw [if_pos h, ite_self, ite_self]
        · rw [if_pos h, ite_self, ite_self, ite_self]
      · obtain ⟨s', pmd', hf⟩ := mediaStep_shape r.list (-1) (-1) (-1) 0 0
        refine ⟨(if r.active.fdx then 1 else 0, if s' = 1 then s' else 0, if s' = 1 then (if r.current.sub = .auto then 1 else 0) else -1, pmd',
          bsdMau r.active (decide ((if r.active.fdx then (1 : Int) else 0) ≠ 0))), fun n hn hty => ?_⟩
        simp only [not_or] at hc
        obtain ⟨h1, h2, h3, h4⟩ := hc
        rw [hs, if_pos (hty.trans ht), hn]
        unfold bsdPhysical
        rw [show (setLink n (((m.mtu name).map (· % 65536)).getD n.mtu) (-1, -1, -1, 0, 0)).name = name from hn, hm]
        dsimp only
        rw [if_neg h1, if_neg h2, if_neg h3, if_neg h4, hf]
        by_cases h : s' = 1
        · rw [if_pos (show (setLink n (((m.mtu name).map (· % 65536)).getD n.mtu) (-1, s', -1, pmd', 0)).autonegSupported = 1 from h), if_pos h, if_pos h]
          rfl
        · rw [if_neg (show ¬ (setLink n (((m.mtu name).map (· % 65536)).getD n.mtu) (-1, s', -1, pmd', 0)).autonegSupported = 1 from h), if_neg h, if_neg h]
          rfl
  · refine ⟨(-1, -1, -1, 0, 0), fun n hn hty => ?_⟩
    rw [hs, if_neg (by rw [hty]; exact ht), hn]

theorem bsdMedia_one (m : BsdMedia) (n : Netif) : ∃ v, bsdMedia m n = setLink n (((m.mtu n.name).map (· % 65536)).getD n.mtu) v := by
  obtain ⟨v, h⟩ := bsdMedia_shape m n.name n.type
  exact ⟨v, h n rfl rfl⟩

theorem bsdMedia_idem (m : BsdMedia) (n : Netif) : bsdMedia m (bsdMedia m n) = bsdMedia m n := by
  obtain ⟨v, h⟩ := bsdMedia_shape m n.name n.type
  have e := h n rfl rfl
  rw [h (bsdMedia m n) (by rw [e]; rfl) (by rw [e]; rfl), e]
  have : ∀ a b, setLink (setLink n a v) b v = setLink n b v := fun _ _ => rfl
  rw [this]
  congr 1
  show ((m.mtu n.name).map (· % 65536)).getD (((m.mtu n.name).map (· % 65536)).getD n.mtu) = _
  cases m.mtu n.name <;> rfl

theorem bsdMedia_linkEvent (m : BsdMedia) (le : Nat) (n : Netif) :
    bsdMedia m { n with linkEvent := le } = { bsdMedia m n with linkEvent := le } := by
  obtain ⟨v, h⟩ := bsdMedia_shape m n.name n.type
  rw [h { n with linkEvent := le } rfl rfl, h n rfl rfl]
  rfl

end Ladvd
