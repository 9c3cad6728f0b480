import Verif.Model.Filter
import Verif.Lemmas.Frame
/-!
# Running the capture filter symbolically
-/

namespace Ladvd

open Spec

theorem beNat_inj4 {a b : Bytes} (ha : a.length = 4) (hb : b.length = 4) : beNat a = beNat b ↔ a = b := by
  constructor
  · intro h
    match a, ha, b, hb with
    | [a0, a1, a2, a3], _, [b0, b1, b2, b3], _ =>
      simp only [beNat, List.foldl_cons, List.foldl_nil] at h
      have h0 := a0.toNat_lt; have h1 := a1.toNat_lt; have h2 := a2.toNat_lt; have h3 := a3.toNat_lt
      have g0 := b0.toNat_lt; have g1 := b1.toNat_lt; have g2 := b2.toNat_lt; have g3 := b3.toNat_lt
      have e0 : a0 = b0 := UInt8.toNat_inj.mp (by omega)
      have e1 : a1 = b1 := UInt8.toNat_inj.mp (by omega)
      have e2 : a2 = b2 := UInt8.toNat_inj.mp (by omega)
      have e3 : a3 = b3 := UInt8.toNat_inj.mp (by omega)
      rw [e0, e1, e2, e3]
  · rintro rfl; rfl

theorem bpf_ldAbs (f : Bytes) (n k : Nat) (r : List Insn) (a x : Nat) :
    bpfRun f (.ldAbs n k :: r) a x = if k + n ≤ f.length then bpfRun f r (beNat (at_ f k n)) x else .ok 0 := by
  rw [bpfRun]; rfl

theorem bpf_ldInd (f : Bytes) (n k : Nat) (r : List Insn) (a x : Nat) :
    bpfRun f (.ldInd n k :: r) a x =
      if k + x + n ≤ f.length then bpfRun f r (beNat (at_ f (k + x) n)) x else .ok 0 := by
  rw [bpfRun]; rfl

theorem bpf_jeq (f : Bytes) (k jt jf : Nat) (r : List Insn) (a x : Nat) :
    bpfRun f (.jeq k jt jf :: r) a x = if a = k then bpfRun f (r.drop jt) a x else bpfRun f (r.drop jf) a x := by
  rw [bpfRun]; split <;> rfl

theorem bpf_ret (f : Bytes) (k : Nat) (r : List Insn) (a x : Nat) : bpfRun f (.ret k :: r) a x = .ok k := by
  rw [bpfRun]

/-- The nine instructions of an SNAP protocol. -/
def llcBlock (hi lo org pid : Nat) : List Insn :=
  [.ldAbs 4 0, .jeq hi 0 7, .ldAbs 2 4, .jeq lo 0 5, .ldInd 4 16, .jeq org 0 3, .ldInd 2 20, .jeq pid 0 1,
   .ret BPF_ACCEPT]

theorem at_append2 (f : Bytes) (p m n : Nat) : at_ f p (m + n) = at_ f p m ++ at_ f (p + m) n := by
  unfold at_
  rw [List.take_add, List.drop_drop]

theorem llcBlock_run (f : Bytes) (x : Nat) (rest : List Insn) (R : Res Nat) (hi lo org pid : Bytes)
    (h1 : hi.length = 4) (h2 : lo.length = 2) (h3 : org.length = 4) (h4 : pid.length = 2)
    (hx : 22 + x ≤ f.length) (hr : ∀ a, bpfRun f rest a x = R) (a : Nat) :
    bpfRun f (llcBlock (beNat hi) (beNat lo) (beNat org) (beNat pid) ++ rest) a x =
      if at_ f 0 6 = hi ++ lo ∧ at_ f (16 + x) 6 = org ++ pid then .ok BPF_ACCEPT else R := by
  have k1 : at_ f 0 6 = hi ++ lo ↔ at_ f 0 4 = hi ∧ at_ f 4 2 = lo := by
    rw [show 6 = 4 + 2 from rfl, at_append2]
    exact ⟨fun h => List.append_inj h (by rw [at_length (by omega), h1]), fun h => by rw [← h.1, ← h.2]⟩
  have k2 : at_ f (16 + x) 6 = org ++ pid ↔ at_ f (16 + x) 4 = org ∧ at_ f (20 + x) 2 = pid := by
    rw [show 6 = 4 + 2 from rfl, at_append2, show 16 + x + 4 = 20 + x by omega]
    exact ⟨fun h => List.append_inj h (by rw [at_length (by omega), h3]), fun h => by rw [← h.1, ← h.2]⟩
  have l1 := beNat_inj4 (at_length (f := f) (p := 0) (n := 4) (by omega)) h1
  have l2 := beNat_inj2 (at_length (f := f) (p := 4) (n := 2) (by omega)) h2
  have l3 := beNat_inj4 (at_length (f := f) (p := 16 + x) (n := 4) (by omega)) h3
  have l4 := beNat_inj2 (at_length (f := f) (p := 20 + x) (n := 2) (by omega)) h4
  simp only [llcBlock, List.cons_append, List.nil_append, bpf_ldAbs, bpf_jeq, bpf_ldInd, bpf_ret, List.drop_zero,
    List.drop_succ_cons, hr, l1, l2, l3, l4, k1, k2, show 0 + 4 ≤ f.length by omega, show 4 + 2 ≤ f.length by omega,
    show 16 + x + 4 ≤ f.length by omega, show 20 + x + 2 ≤ f.length by omega, if_true]
  by_cases a1 : at_ f 0 4 = hi <;> by_cases a2 : at_ f 4 2 = lo <;> by_cases a3 : at_ f (16 + x) 4 = org <;>
    by_cases a4 : at_ f (20 + x) 2 = pid <;> simp [a1, a2, a3, a4]

theorem llcBlock_short (f : Bytes) (x : Nat) (rest : List Insn) (hi lo org pid : Nat) (hx : ¬ 22 + x ≤ f.length)
    (hr : ∀ a, bpfRun f rest a x = .ok 0) (a : Nat) :
    bpfRun f (llcBlock hi lo org pid ++ rest) a x = .ok 0 := by
  simp only [llcBlock, List.cons_append, List.nil_append, bpf_ldAbs, bpf_jeq, bpf_ldInd, bpf_ret, List.drop_zero,
    List.drop_succ_cons, hr, show ¬ 20 + x + 2 ≤ f.length by omega, if_false]
  repeat' split
  all_goals rfl

/-- The four SNAP blocks and the final reject. -/
def llcTail : List Insn :=
  llcBlock 0x01000CCC 0xCCCC 0x0300000C 0x2000 ++ (llcBlock 0x000E2B00 0 0x03000E2B 0xbb ++
    (llcBlock 0x01E052CC 0xCCCC 0x0300E052 0x2000 ++ (llcBlock 0x01008100 0x100 0x03000081 0x1a2 ++ [.ret 0])))

/-- The SNAP frames the filter knows: destination, organisation, protocol. -/
def bpfLlc : List (Bytes × Bytes × Nat) :=
  [(CDP_DST, CDP_ORG, CDP_PID), ([0x00, 0x0e, 0x2b, 0, 0, 0], [0x00, 0x0e, 0x2b], EDP_PID),
   (FDP_DST, FDP_ORG, FDP_PID), (NDP_DST, NDP_ORG, NDP_PID)]

/-- Condition on a frame to match an SNAP entry, without the two service access points. -/
def llcMatch (f : Bytes) (x : Nat) (e : Bytes × Bytes × Nat) : Prop :=
  at_ f 0 6 = e.1 ∧ at_ f (16 + x) 6 = [0x03] ++ e.2.1 ++ be16 e.2.2

instance (f : Bytes) (x : Nat) (e : Bytes × Bytes × Nat) : Decidable (llcMatch f x e) := by
  unfold llcMatch; exact inferInstance

theorem llcTail_run (f : Bytes) (x : Nat) (a : Nat) :
    bpfRun f llcTail a x = if ∃ e ∈ bpfLlc, llcMatch f x e then .ok BPF_ACCEPT else .ok 0 := by
  by_cases hx : 22 + x ≤ f.length
  · unfold llcTail
    have h5 : ∀ a, bpfRun f [.ret 0] a x = .ok 0 := fun a => bpf_ret f 0 [] a x
    have h4 := llcBlock_run f x _ _ [0x01, 0x00, 0x81, 0x00] [0x01, 0x00] [0x03, 0x00, 0x00, 0x81] [0x01, 0xa2]
      rfl rfl rfl rfl hx h5
    have h3 := llcBlock_run f x _ _ [0x01, 0xe0, 0x52, 0xcc] [0xcc, 0xcc] [0x03, 0x00, 0xe0, 0x52] [0x20, 0x00]
      rfl rfl rfl rfl hx h4
    have h2 := llcBlock_run f x _ _ [0x00, 0x0e, 0x2b, 0x00] [0x00, 0x00] [0x03, 0x00, 0x0e, 0x2b] [0x00, 0xbb]
      rfl rfl rfl rfl hx h3
    have h1 := llcBlock_run f x _ _ [0x01, 0x00, 0x0c, 0xcc] [0xcc, 0xcc] [0x03, 0x00, 0x00, 0x0c] [0x20, 0x00]
      rfl rfl rfl rfl hx h2 a
    refine h1.trans ?_
    have hex : (∃ e ∈ bpfLlc, llcMatch f x e) ↔
        llcMatch f x (CDP_DST, CDP_ORG, CDP_PID) ∨ llcMatch f x ([0x00, 0x0e, 0x2b, 0, 0, 0], [0x00, 0x0e, 0x2b], EDP_PID)
        ∨ llcMatch f x (FDP_DST, FDP_ORG, FDP_PID) ∨ llcMatch f x (NDP_DST, NDP_ORG, NDP_PID) := by
      simp [bpfLlc]
    have m1 : llcMatch f x (CDP_DST, CDP_ORG, CDP_PID) ↔ at_ f 0 6 = [0x01, 0x00, 0x0c, 0xcc] ++ [0xcc, 0xcc] ∧
      at_ f (16 + x) 6 = [0x03, 0x00, 0x00, 0x0c] ++ [0x20, 0x00] := Iff.rfl
    have m2 : llcMatch f x ([0x00, 0x0e, 0x2b, 0, 0, 0], [0x00, 0x0e, 0x2b], EDP_PID) ↔
      at_ f 0 6 = [0x00, 0x0e, 0x2b, 0x00] ++ [0x00, 0x00] ∧
      at_ f (16 + x) 6 = [0x03, 0x00, 0x0e, 0x2b] ++ [0x00, 0xbb] := Iff.rfl
    have m3 : llcMatch f x (FDP_DST, FDP_ORG, FDP_PID) ↔ at_ f 0 6 = [0x01, 0xe0, 0x52, 0xcc] ++ [0xcc, 0xcc] ∧
      at_ f (16 + x) 6 = [0x03, 0x00, 0xe0, 0x52] ++ [0x20, 0x00] := Iff.rfl
    have m4 : llcMatch f x (NDP_DST, NDP_ORG, NDP_PID) ↔ at_ f 0 6 = [0x01, 0x00, 0x81, 0x00] ++ [0x01, 0x00] ∧
      at_ f (16 + x) 6 = [0x03, 0x00, 0x00, 0x81] ++ [0x01, 0xa2] := Iff.rfl
    simp only [hex, ← m1, ← m2, ← m3, ← m4]
    by_cases c1 : llcMatch f x (CDP_DST, CDP_ORG, CDP_PID)
    · simp [c1]
    · by_cases c2 : llcMatch f x ([0x00, 0x0e, 0x2b, 0, 0, 0], [0x00, 0x0e, 0x2b], EDP_PID)
      · simp [c2]
      · by_cases c3 : llcMatch f x (FDP_DST, FDP_ORG, FDP_PID)
        · simp [c3]
        · simp [c1, c2, c3]
  · unfold llcTail
    rw [llcBlock_short _ _ _ _ _ _ _ hx (llcBlock_short _ _ _ _ _ _ _ hx (llcBlock_short _ _ _ _ _ _ _ hx
      (llcBlock_short _ _ _ _ _ _ _ hx (fun a => bpf_ret f 0 [] a x)))), if_neg]
    rintro ⟨e, he, hm⟩
    have hl := congrArg List.length hm.2
    have ho : ∀ e ∈ bpfLlc, e.2.1.length = 3 := by decide
    have ho := ho e he
    simp [at_, be16, ho] at hl
    omega

/-- The whole filter, for frames of any length. -/
theorem protoFilter_run (f : Bytes) : bpfFilter protoFilter f =
    if (at_ f 0 6 = LLDP_DST ∧ at_ f (12 + tagOff f) 2 = [0x88, 0xcc]) ∨
       (at_ f (14 + tagOff f) 2 = [0xaa, 0xaa] ∧ ∃ e ∈ bpfLlc, llcMatch f (tagOff f) e)
    then .ok BPF_ACCEPT else .ok 0 := by
  have hsplit : protoFilter = [.ldAbs 2 12, .jeq 0x8100 0 1, .ldxImm 4, .ldAbs 4 0, .jeq 0x0180C200 0 5, .ldAbs 2 4,
    .jeq 0x0000000E 0 3, .ldInd 2 12, .jeq 0x88cc 0 1, .ret BPF_ACCEPT, .ldInd 2 14, .jeq 0xAAAA 1 0, .ret 0] ++
    llcTail := rfl
  have h14 : ∀ x : Nat, at_ f (12 + x) 2 = [0x88, 0xcc] → 14 + x ≤ f.length := by
    intro x h
    have := congrArg List.length h
    simp [at_] at this; omega
  have h16 : ∀ x : Nat, at_ f (14 + x) 2 = [0xaa, 0xaa] → 16 + x ≤ f.length := by
    intro x h
    have := congrArg List.length h
    simp [at_] at this; omega
  have hldx : ∀ r a x, bpfRun f (.ldxImm 4 :: r) a x = bpfRun f r a 4 := by intro r a x; rw [bpfRun]
  -- the part after the VLAN test
  have main : ∀ x a, 14 ≤ f.length → bpfRun f ([.ldAbs 4 0, .jeq 0x0180C200 0 5, .ldAbs 2 4,
      .jeq 0x0000000E 0 3, .ldInd 2 12, .jeq 0x88cc 0 1, .ret BPF_ACCEPT, .ldInd 2 14, .jeq 0xAAAA 1 0, .ret 0] ++
      llcTail) a x = if (at_ f 0 6 = LLDP_DST ∧ at_ f (12 + x) 2 = [0x88, 0xcc]) ∨
       (at_ f (14 + x) 2 = [0xaa, 0xaa] ∧ ∃ e ∈ bpfLlc, llcMatch f x e) then .ok BPF_ACCEPT else .ok 0 := by
    intro x a hl
    have k1 : at_ f 0 6 = LLDP_DST ↔ at_ f 0 4 = [0x01, 0x80, 0xc2, 0x00] ∧ at_ f 4 2 = [0x00, 0x0e] := by
      rw [show 6 = 4 + 2 from rfl, at_append2, show LLDP_DST = [0x01, 0x80, 0xc2, 0x00] ++ [0x00, 0x0e] from rfl]
      exact ⟨fun h => List.append_inj h (by rw [at_length (by omega)]; rfl), fun h => by rw [← h.1, ← h.2]⟩
    have l1 : beNat (at_ f 0 4) = 0x0180C200 ↔ at_ f 0 4 = [0x01, 0x80, 0xc2, 0x00] :=
      beNat_inj4 (b := [0x01, 0x80, 0xc2, 0x00]) (at_length (f := f) (p := 0) (n := 4) (by omega)) rfl
    have l2 : beNat (at_ f 4 2) = 0x0000000E ↔ at_ f 4 2 = [0x00, 0x0e] :=
      beNat_inj2 (b := [0x00, 0x0e]) (at_length (f := f) (p := 4) (n := 2) (by omega)) rfl
    simp only [List.cons_append, List.nil_append, bpf_ldAbs, bpf_jeq, bpf_ldInd, bpf_ret, List.drop_zero,
      List.drop_succ_cons, llcTail_run, l1, l2, show 0 + 4 ≤ f.length by omega, show 4 + 2 ≤ f.length by omega, if_true,
      k1]
    by_cases h1 : 14 + x ≤ f.length
    · have l3 : beNat (at_ f (12 + x) 2) = 0x88cc ↔ at_ f (12 + x) 2 = [0x88, 0xcc] :=
        beNat_inj2 (b := [0x88, 0xcc]) (at_length (f := f) (by omega)) rfl
      simp only [show 12 + x + 2 ≤ f.length by omega, if_true, l3]
      by_cases h2 : 16 + x ≤ f.length
      · have l4 : beNat (at_ f (14 + x) 2) = 0xaaaa ↔ at_ f (14 + x) 2 = [0xaa, 0xaa] :=
          beNat_inj2 (b := [0xaa, 0xaa]) (at_length (f := f) (by omega)) rfl
        obtain ⟨Q, hQ⟩ : ∃ Q : Bool, (Q = true ↔ ∃ e ∈ bpfLlc, llcMatch f x e) := ⟨decide (∃ e ∈ bpfLlc, llcMatch f x e), decide_eq_true_iff⟩
        simp only [show 14 + x + 2 ≤ f.length by omega, if_true, l4, ← hQ]
        by_cases b1 : at_ f 0 4 = [0x01, 0x80, 0xc2, 0x00] <;> by_cases b2 : at_ f 4 2 = [0x00, 0x0e] <;>
          by_cases b3 : at_ f (12 + x) 2 = [0x88, 0xcc] <;> by_cases b4 : at_ f (14 + x) 2 = [0xaa, 0xaa] <;>
          simp [b1, b2, b3, b4]
      · have b4 : ¬ at_ f (14 + x) 2 = [0xaa, 0xaa] := fun h => h2 (h16 x h)
        simp only [show ¬ 14 + x + 2 ≤ f.length by omega, if_false, b4, false_and, or_false]
        by_cases b1 : at_ f 0 4 = [0x01, 0x80, 0xc2, 0x00] <;> by_cases b2 : at_ f 4 2 = [0x00, 0x0e] <;>
          by_cases b3 : at_ f (12 + x) 2 = [0x88, 0xcc] <;> simp [b1, b2, b3]
    · have b3 : ¬ at_ f (12 + x) 2 = [0x88, 0xcc] := fun h => h1 (h14 x h)
      have b4 : ¬ at_ f (14 + x) 2 = [0xaa, 0xaa] := fun h => h1 (by have := h16 x h; omega)
      simp only [show ¬ 14 + x + 2 ≤ f.length by omega, show ¬ 12 + x + 2 ≤ f.length by omega, if_false, b3, b4,
        false_and, and_false, or_false]
      repeat' split
      all_goals rfl
  unfold bpfFilter
  rw [hsplit]
  by_cases hl : 14 ≤ f.length
  · have l0 : beNat (at_ f 12 2) = 0x8100 ↔ at_ f 12 2 = [0x81, 0x00] :=
      beNat_inj2 (b := [0x81, 0x00]) (at_length (f := f) (by omega)) rfl
    rw [List.cons_append, bpf_ldAbs, if_pos (by omega), List.cons_append, bpf_jeq]
    simp only [l0]
    by_cases ht : at_ f 12 2 = [0x81, 0x00]
    · have htag : tagOff f = 4 := by unfold tagOff; rw [if_pos ht]
      rw [if_pos ht, List.drop_zero, List.cons_append, hldx, htag]
      exact main 4 _ hl
    · have htag : tagOff f = 0 := by unfold tagOff; rw [if_neg ht]
      rw [if_neg ht, htag]
      exact main 0 _ hl
  · rw [List.cons_append, bpf_ldAbs, if_neg (by omega), if_neg]
    rintro (⟨_, h⟩ | ⟨h, _⟩)
    · have := h14 _ h; omega
    · have := h16 _ h; omega

/-- Service access points and the rest of the SNAP header. -/
theorem snap_split (f : Bytes) (x : Nat) (e : Bytes × Bytes × Nat) :
    at_ f (14 + x) 2 = [0xaa, 0xaa] ∧ llcMatch f x e ↔
      at_ f 0 6 = e.1 ∧ at_ f (14 + x) 8 = [0xaa, 0xaa, 0x03] ++ e.2.1 ++ be16 e.2.2 := by
  have h8 : at_ f (14 + x) 8 = at_ f (14 + x) 2 ++ at_ f (16 + x) 6 := by
    rw [show 8 = 2 + 6 from rfl, at_append2, show 14 + x + 2 = 16 + x by omega]
  have e8 : [0xaa, 0xaa, 0x03] ++ e.2.1 ++ be16 e.2.2 = [0xaa, 0xaa] ++ ([0x03] ++ e.2.1 ++ be16 e.2.2) := rfl
  unfold llcMatch
  rw [h8, e8]
  constructor
  · rintro ⟨h1, h2, h3⟩
    exact ⟨h2, by rw [h1, h3]⟩
  · rintro ⟨h2, h3⟩
    have hl : (at_ f (14 + x) 2).length = 2 := by
      have := congrArg List.length h3
      simp [at_, be16] at this ⊢
      omega
    have := List.append_inj h3 (by rw [hl]; rfl)
    exact ⟨this.1, h2, this.2⟩

end Ladvd
