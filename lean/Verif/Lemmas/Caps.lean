import Verif.Lemmas.Sizes
/-!
# System information after a refresh
-/

namespace Ladvd

open Spec

/-- The Ethernet interfaces: their kinds, and whether they are up. -/
def ethers (k : Kernel) (addrs : List IfAddr) : List (Int × Bool) := addrs.filterMap (fun ia =>
  match ia.addr with
  | .link true i _ => some (netifType (k.probe i ia.name), k.up ia.name)
  | _ => none)

theorem fetchStep_sys (k : Kernel) (m : Mgmt) (a : FetchAcc) (ia : IfAddr) :
    (fetchStep k m a ia).sys = (ethers k [ia]).foldl (fun s e => typeCaps e.1 e.2 s) a.sys := by
  obtain ⟨name, addr⟩ := ia
  unfold fetchStep ethers
  cases addr with
  | link ether index hw =>
    cases ether with
    | false => rfl
    | true =>
      dsimp only [List.filterMap_cons, List.filterMap_nil, List.foldl_cons, List.foldl_nil]
      split
      · rfl
      · split <;> rfl
  | _ => rfl

theorem fetch_fold_sys (k : Kernel) (m : Mgmt) (addrs : List IfAddr) : ∀ (a : FetchAcc),
    (addrs.foldl (fetchStep k m) a).sys = (ethers k addrs).foldl (fun s e => typeCaps e.1 e.2 s) a.sys := by
  induction addrs with
  | nil => intro a; rfl
  | cons ia addrs ih =>
    intro a
    have hsplit : ethers k (ia :: addrs) = ethers k [ia] ++ ethers k addrs := by
      unfold ethers
      rw [← List.filterMap_append]
      rfl
    rw [List.foldl_cons, ih, fetchStep_sys, hsplit, List.foldl_append]

/-- The system information after a refresh. -/
theorem fetch_sys (o : Opts) (names : List Bytes) (m : Mgmt) (k : Kernel) (s : Ifs) {addrs : List IfAddr}
    (ha : k.ifaddrs = some addrs) : ∃ hw, (hw = s.sys.hwaddr ∨ ∃ n ∈ (netifFetch o names m k s).1.netifs, hw = n.hwaddr) ∧
      (netifFetch o names m k s).1.sys = { (ethers k addrs).foldl (fun s e => typeCaps e.1 e.2 s)
        { s.sys with cap := s.sys.cap &&& 12, capActive := s.sys.capActive &&& 12, physifCount := 0 } with hwaddr := hw } := by
  have hhw : ∀ (es : List (Int × Bool)) (s : SysInfo), (es.foldl (fun s e => typeCaps e.1 e.2 s) s).hwaddr = s.hwaddr := by
    intro es
    induction es with
    | nil => intro s; rfl
    | cons e es ih =>
      intro s
      rw [List.foldl_cons, ih]
      unfold typeCaps
      split
      · rfl
      · split
        · rfl
        · split <;> rfl
  unfold netifFetch
  rw [ha]
  dsimp only
  have hf := fetch_fold_sys k m addrs ⟨s.netifs.map (fun n => { n with type := NETIF_OLD }),
    { s.sys with cap := s.sys.cap &&& 12, capActive := s.sys.capActive &&& 12, physifCount := 0 }, s.mnetif, 0⟩
  generalize addrs.foldl (fetchStep k m) ⟨s.netifs.map (fun n => { n with type := NETIF_OLD }),
    { s.sys with cap := s.sys.cap &&& 12, capActive := s.sys.capActive &&& 12, physifCount := 0 }, s.mnetif, 0⟩ = a at hf ⊢
  dsimp only at hf
  generalize a.netifs.filter (fun n => n.type != NETIF_OLD) = L
  generalize (if (a.netifs.filter (fun n => n.type == NETIF_OLD)).any (fun n => a.mnetif == some n.index) then none
      else a.mnetif) = mn
  generalize (L.map (·.index)).foldl (detectOne k) L = D
  generalize netifAddrs o m addrs D mn = A
  have hsys : ∃ hw, (hw = s.sys.hwaddr ∨ ∃ n ∈ A.1, hw = n.hwaddr) ∧
      (match A.1 with | [] => a.sys | n :: _ => { a.sys with hwaddr := n.hwaddr }) =
        { (ethers k addrs).foldl (fun s e => typeCaps e.1 e.2 s)
          { s.sys with cap := s.sys.cap &&& 12, capActive := s.sys.capActive &&& 12, physifCount := 0 } with hwaddr := hw } := by
    cases A.1 with
    | nil =>
      refine ⟨s.sys.hwaddr, Or.inl rfl, ?_⟩
      dsimp only
      rw [hf]
      have := hhw (ethers k addrs) { s.sys with cap := s.sys.cap &&& 12, capActive := s.sys.capActive &&& 12, physifCount := 0 }
      generalize (ethers k addrs).foldl (fun s e => typeCaps e.1 e.2 s)
          { s.sys with cap := s.sys.cap &&& 12, capActive := s.sys.capActive &&& 12, physifCount := 0 } = x at this
      dsimp only at this
      rw [← this]
    | cons n l => exact ⟨n.hwaddr, Or.inr ⟨n, List.mem_cons_self, rfl⟩, by dsimp only; rw [hf]⟩
  obtain ⟨hw, hor, heq⟩ := hsys
  refine ⟨hw, ?_, ?_⟩
  · rcases hor with h | ⟨n, hn, h⟩
    · exact Or.inl h
    · by_cases hnm : names = []
      · rw [if_pos hnm]; exact Or.inr ⟨n, hn, h⟩
      · rw [if_neg hnm]
        right
        have hmark : ∀ (names : List Bytes) (s : List Netif × Nat),
            (names.foldl (fun s name =>
              match netifByName s.1 name with
              | none => s
              | some n => if n.type = NETIF_VLAN then s
                          else (setNetif s.1 n.index (fun n => { n with argv := 1 }), s.2 + 1)) s).1.map (·.hwaddr) = s.1.map (·.hwaddr) := by
          intro names
          induction names with
          | nil => intro s; rfl
          | cons a names ih =>
            intro s
            rw [List.foldl_cons, ih]
            split
            · rfl
            · split
              · rfl
              · exact setNetif_map (·.hwaddr) _ _ _ (by intro n; rfl)
        have hm : n.hwaddr ∈ A.1.map (·.hwaddr) := List.mem_map_of_mem hn
        rw [← hmark names (A.1, 0)] at hm
        obtain ⟨x, hx, hxe⟩ := List.mem_map.mp hm
        exact ⟨x, hx, h.trans hxe.symm⟩
  · exact heq

/-- The effect of the interfaces on the capabilities. -/
theorem caps_fold (es : List (Int × Bool)) : ∀ (s : SysInfo) (b : Nat),
    let r := es.foldl (fun s e => typeCaps e.1 e.2 s) s
    (r.cap.testBit b = true ↔ s.cap.testBit b = true ∨ (b = 5 ∧ ∃ e ∈ es, e.1 = 1) ∨ (b = 1 ∧ ∃ e ∈ es, e.1 = 13)) ∧
    (r.capActive.testBit b = true ↔ s.capActive.testBit b = true ∨ (b = 5 ∧ (1, true) ∈ es) ∨ (b = 1 ∧ (13, true) ∈ es)) ∧
    r = { s with cap := r.cap, capActive := r.capActive, physifCount := r.physifCount } := by
  induction es with
  | nil => intro s b; simp
  | cons e es ih =>
    intro s b
    obtain ⟨t, up⟩ := e
    dsimp only [List.foldl_cons]
    have h32 : ∀ b, Nat.testBit 32 b = decide (b = 5) := by
      intro b
      rw [show (32 : Nat) = 2 ^ 5 from rfl, Nat.testBit_two_pow]
      exact decide_eq_decide.mpr ⟨Eq.symm, Eq.symm⟩
    have h2 : ∀ b, Nat.testBit 2 b = decide (b = 1) := by
      intro b
      rw [show (2 : Nat) = 2 ^ 1 from rfl, Nat.testBit_two_pow]
      exact decide_eq_decide.mpr ⟨Eq.symm, Eq.symm⟩
    obtain ⟨h1, h2', h3⟩ := ih (typeCaps t up s) b
    refine ⟨?_, ?_, ?_⟩
    · rw [h1]
      unfold typeCaps NETIF_REGULAR NETIF_WIRELESS NETIF_BRIDGE
      by_cases t0 : t = 0
      · subst t0; simp
      · rw [if_neg t0]
        by_cases t1 : t = 1
        · subst t1
          simp only [if_pos, Nat.testBit_or, h32, Bool.or_eq_true, decide_eq_true_eq]
          simp
          grind
        · rw [if_neg t1]
          by_cases t13 : t = 13
          · subst t13
            simp only [if_pos, Nat.testBit_or, h2, Bool.or_eq_true, decide_eq_true_eq]
            simp
            grind
          · rw [if_neg t13]; simp [t1, t13]
    · rw [h2']
      unfold typeCaps NETIF_REGULAR NETIF_WIRELESS NETIF_BRIDGE
      by_cases t0 : t = 0
      · subst t0; simp
      · rw [if_neg t0]
        by_cases t1 : t = 1
        · subst t1
          cases up with
          | true =>
            simp only [if_pos, Nat.testBit_or, h32, Bool.or_eq_true, decide_eq_true_eq]
            simp
            grind
          | false => simp
        · rw [if_neg t1]
          by_cases t13 : t = 13
          · subst t13
            cases up with
            | true =>
              simp only [if_pos, Nat.testBit_or, h2, Bool.or_eq_true, decide_eq_true_eq]
              simp
              grind
            | false => simp
          · rw [if_neg t13]
            have e1 : ¬ ((1 : Int), true) = (t, up) := by simp [Ne.symm t1]
            have e2 : ¬ ((13 : Int), true) = (t, up) := by simp [Ne.symm t13]
            simp only [List.mem_cons, e1, e2, false_or]
    · have ht : ∀ r : SysInfo, r = { typeCaps t up s with cap := r.cap, capActive := r.capActive, physifCount := r.physifCount } →
          r = { s with cap := r.cap, capActive := r.capActive, physifCount := r.physifCount } := by
        intro r hr
        rw [hr]
        unfold typeCaps
        split
        · rfl
        · split
          · rfl
          · split <;> rfl
      exact ht _ h3

theorem and12_testBit (x b : Nat) : (x &&& 12).testBit b = true ↔ x.testBit b = true ∧ (b = 2 ∨ b = 3) := by
  rw [Nat.testBit_and, Bool.and_eq_true]
  have : Nat.testBit 12 b = true ↔ (b = 2 ∨ b = 3) := by
    by_cases hb : b < 4
    · have h4 : b = 0 ∨ b = 1 ∨ b = 2 ∨ b = 3 := by omega
      rcases h4 with h | h | h | h <;> subst h <;> decide
    · constructor
      · intro h
        have := Nat.testBit_lt_two_pow (x := 12) (i := b) (Nat.lt_of_lt_of_le (show 12 < 2 ^ 4 by decide) (Nat.pow_le_pow_right (by decide) (by omega)))
        rw [this] at h
        cases h
      · omega
  rw [this]

theorem lt_of_bits {x n : Nat} (h : ∀ b, x.testBit b = true → b < n) : x < 2 ^ n := by
  apply Nat.lt_pow_two_of_testBit
  intro i hi
  cases hx : x.testBit i with
  | false => rfl
  | true => have := h i hx; omega

/-- The capabilities after a refresh, in terms of the Ethernet interfaces. -/
theorem fetch_caps (o : Opts) (names : List Bytes) (m : Mgmt) (k : Kernel) (s : Ifs) {addrs : List IfAddr}
    (ha : k.ifaddrs = some addrs) (b : Nat) :
    ((netifFetch o names m k s).1.sys.cap.testBit b = true ↔
      (s.sys.cap.testBit b = true ∧ (b = 2 ∨ b = 3)) ∨ (b = 5 ∧ ∃ e ∈ ethers k addrs, e.1 = 1) ∨ (b = 1 ∧ ∃ e ∈ ethers k addrs, e.1 = 13)) ∧
    ((netifFetch o names m k s).1.sys.capActive.testBit b = true ↔
      (s.sys.capActive.testBit b = true ∧ (b = 2 ∨ b = 3)) ∨ (b = 5 ∧ (1, true) ∈ ethers k addrs) ∨ (b = 1 ∧ (13, true) ∈ ethers k addrs)) := by
  obtain ⟨hw, -, h⟩ := fetch_sys o names m k s ha
  rw [h]
  obtain ⟨h1, h2, -⟩ := caps_fold (ethers k addrs) { s.sys with cap := s.sys.cap &&& 12, capActive := s.sys.capActive &&& 12, physifCount := 0 } b
  dsimp only at h1 h2 ⊢
  rw [h1, h2, and12_testBit, and12_testBit]
  exact ⟨Iff.rfl, Iff.rfl⟩

/-- Everything else in the system information stays. -/
theorem fetch_sys_rest (o : Opts) (names : List Bytes) (m : Mgmt) (k : Kernel) (s : Ifs) {addrs : List IfAddr}
    (ha : k.ifaddrs = some addrs) :
    let r := (netifFetch o names m k s).1.sys
    r = { s.sys with cap := r.cap, capActive := r.capActive, physifCount := r.physifCount, hwaddr := r.hwaddr } ∧
    (r.hwaddr = s.sys.hwaddr ∨ ∃ n ∈ (netifFetch o names m k s).1.netifs, r.hwaddr = n.hwaddr) := by
  obtain ⟨hw, hor, h⟩ := fetch_sys o names m k s ha
  obtain ⟨-, -, h3⟩ := caps_fold (ethers k addrs) { s.sys with cap := s.sys.cap &&& 12, capActive := s.sys.capActive &&& 12, physifCount := 0 } 0
  dsimp only at h3 ⊢
  generalize (ethers k addrs).foldl (fun s e => typeCaps e.1 e.2 s)
    { s.sys with cap := s.sys.cap &&& 12, capActive := s.sys.capActive &&& 12, physifCount := 0 } = r at h3 h
  rw [h]
  refine ⟨?_, hor⟩
  rw [h3]

/-- A refresh keeps the system information well-formed. -/
theorem fetch_sysOk (o : Opts) (names : List Bytes) (m : Mgmt) (k : Kernel) (s : Ifs) {addrs : List IfAddr}
    (ha : k.ifaddrs = some addrs) (hl : ∀ n ∈ (netifFetch o names m k s).1.netifs, NetifOk n) (hs : SysOk s.sys) :
    SysOk (netifFetch o names m k s).1.sys := by
  obtain ⟨h, hhw⟩ := fetch_sys_rest o names m k s ha
  have hc : (netifFetch o names m k s).1.sys.cap < 2 ^ 16 := lt_of_bits fun b hb => by
    have := (fetch_caps o names m k s ha b).1.mp hb
    omega
  have hca : (netifFetch o names m k s).1.sys.capActive < 2 ^ 16 := lt_of_bits fun b hb => by
    have := (fetch_caps o names m k s ha b).2.mp hb
    omega
  have hw6 : (netifFetch o names m k s).1.sys.hwaddr.length = 6 := by
    rcases hhw with e | ⟨n, hn, e⟩
    · rw [e]; exact hs.2.2.2.2.2.2.1
    · rw [e]; exact (hl n hn).2.2.2.2.2.1
  generalize (netifFetch o names m k s).1.sys = r at h hc hca hw6
  obtain ⟨a1, a2, a3, a4, a5, a6, -, -, -, a7, a8⟩ := hs
  rw [h]
  exact ⟨a1, a2, a3, a4, a5, a6, hw6, hc, hca, a7, a8⟩

/-- A refresh never marks a capability active that is not available. -/
theorem fetch_capsOk (o : Opts) (names : List Bytes) (m : Mgmt) (k : Kernel) (s : Ifs) {addrs : List IfAddr}
    (ha : k.ifaddrs = some addrs) (hs : CapsOk s.sys) : CapsOk (netifFetch o names m k s).1.sys := by
  intro b hb hbit
  rw [(fetch_caps o names m k s ha b).1]
  rcases (fetch_caps o names m k s ha b).2.mp hbit with ⟨h1, h2⟩ | ⟨h1, h2⟩ | ⟨h1, h2⟩
  · exact Or.inl ⟨hs b hb h1, h2⟩
  · exact Or.inr (Or.inl ⟨h1, _, h2, rfl⟩)
  · exact Or.inr (Or.inr ⟨h1, _, h2, rfl⟩)

end Ladvd
