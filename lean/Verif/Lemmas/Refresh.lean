import Verif.Lemmas.Fetched
/-!
# The result of a refresh of the interface list
-/

namespace Ladvd

open Spec

/-! ## Fields the settings loop leaves alone -/

/-- The addresses of an interface and its command line mark. -/
def adr (n : Netif) : Bytes × Bytes × Bytes × Nat := (n.ipaddr4, n.ipaddr6, n.hwaddr, n.argv)

theorem linkPorts_adr {parent : Nat} {ps : List PortSpec} (hp : ∀ p ∈ ps, ∀ n, adr (p.2 n) = adr n) (l : List Netif)
    (cur : Nat) : (linkPorts parent ps l cur).map adr = l.map adr := by
  induction ps generalizing l cur with
  | nil => rfl
  | cons p ps ih =>
    obtain ⟨look, f⟩ := p
    unfold linkPorts
    have ih' := ih (fun q hq => hp q (List.mem_cons_of_mem _ hq))
    split
    · split
      · rw [ih']
        unfold linkPort
        exact (setNetif_map adr _ _ _ (by intro n; rfl)).trans
          (setNetif_map adr (fun n => { f n with parent := some parent }) _ _ (fun n => hp (look, f) List.mem_cons_self n))
      · exact ih' _ _
    · exact ih' _ _

theorem detectOne_adr (k : Kernel) (l : List Netif) (i : Nat) : (detectOne k l i).map adr = l.map adr := by
  unfold detectOne
  split
  · rfl
  · rename_i n hn
    split
    · unfold netifTeam
      split
      · rfl
      · dsimp only
        rename_i t _
        have h1 : ∀ l : List Netif, (teamActive t l).map adr = l.map adr := by
          intro l
          unfold teamActive
          split
          · split
            · exact setNetif_map adr _ _ _ (by intro n; rfl)
            · rfl
          · rfl
        rw [h1]
        refine (linkPorts_adr ?_ _ _).trans (setNetif_map adr _ _ _ (by intro n; rfl))
        intro p hp n
        obtain ⟨i, _, rfl⟩ := List.mem_map.mp hp
        rfl
    · split
      · unfold netifBond
        split
        · rfl
        · dsimp only
          refine (linkPorts_adr ?_ _ _).trans (setNetif_map adr _ _ _ (by intro n; rfl))
          intro p hp n
          obtain ⟨⟨s, i⟩, _, he⟩ := List.mem_filterMap.mp hp
          cases s with
          | none => cases he
          | some s =>
            simp only [Option.map_some, Option.some.injEq] at he
            subst he
            rfl
      · split
        · unfold netifBridge
          split
          · rfl
          · refine linkPorts_adr ?_ _ _
            intro p hp n
            obtain ⟨i, _, rfl⟩ := List.mem_map.mp hp
            rfl
        · split
          · unfold netifVlan
            split
            · rfl
            · split
              · rfl
              · exact setNetif_map adr _ _ _ (by intro n; rfl)
          · split
            · unfold netifDeviceId
              split
              · rfl
              · exact setNetif_map adr _ _ _ (by intro n; rfl)
            · rfl

theorem detect_fold_adr (k : Kernel) (is : List Nat) (l : List Netif) :
    (is.foldl (detectOne k) l).map adr = l.map adr := by
  induction is generalizing l with
  | nil => rfl
  | cons i is ih => rw [List.foldl_cons, ih, detectOne_adr]

theorem map_forall {α : Type} {g : Netif → α} {P : α → Prop} {l l' : List Netif} (h : l'.map g = l.map g)
    (hl : ∀ n ∈ l, P (g n)) : ∀ n ∈ l', P (g n) := by
  intro n hn
  have : g n ∈ l.map g := h ▸ List.mem_map.mpr ⟨n, hn, rfl⟩
  obtain ⟨m, hm, he⟩ := List.mem_map.mp this
  exact he ▸ hl m hm

/-! ## Interfaces of the command line -/

/-- The mark of the command line. -/
def argMark (names : List Bytes) (n : Netif) : Netif :=
  if n.name ∈ names ∧ n.type ≠ NETIF_VLAN then { n with argv := 1 } else n

/-- A name of the command line that can be used. -/
def valid (l : List Netif) (name : Bytes) : Bool := (netifByName l name).any (fun n => n.type ≠ NETIF_VLAN)

theorem argMark_core (names : List Bytes) (n : Netif) : core (argMark names n) = core n := by
  unfold argMark; split <;> rfl

theorem valid_core {l l' : List Netif} (h : l'.map core = l.map core) (name : Bytes) : valid l' name = valid l name := by
  have := byName_core h name
  unfold valid
  cases e : netifByName l name with
  | none =>
    cases e' : netifByName l' name with
    | none => rfl
    | some a => rw [e, e'] at this; cases this
  | some b =>
    cases e' : netifByName l' name with
    | none => rw [e, e'] at this; cases this
    | some a =>
      rw [e, e'] at this
      simp only [Option.map_some, Option.some.injEq] at this
      simp only [Option.any_some, core_type this]

theorem markArgs_eq (names : List Bytes) (l : List Netif) (hi : (l.map (·.index)).Nodup) (hn : (l.map (·.name)).Nodup) :
    markArgs names l = (l.map (argMark names), names.countP (valid l)) := by
  have key : ∀ (names done : List Bytes) (c : Nat),
      names.foldl (fun s name =>
        match netifByName s.1 name with
        | none => s
        | some n => if n.type = NETIF_VLAN then s
                    else (setNetif s.1 n.index (fun n => { n with argv := 1 }), s.2 + 1)) (l.map (argMark done), c) =
      (l.map (argMark (done ++ names)), c + names.countP (valid l)) := by
    intro names
    induction names with
    | nil => intro done c; simp
    | cons name names ih =>
      intro done c
      rw [List.foldl_cons]
      have hc : (l.map (argMark done)).map core = l.map core := by
        rw [List.map_map]; exact List.map_congr_left (fun n _ => argMark_core done n)
      have hi' : ((l.map (argMark done)).map (·.index)).Nodup := by rw [map_index_of_core hc]; exact hi
      have hn' : ((l.map (argMark done)).map (·.name)).Nodup := by rw [map_name_of_core hc]; exact hn
      have hv := valid_core hc name
      have hsame : (∀ n ∈ l, n.name = name → n.type = NETIF_VLAN) →
          l.map (argMark (done ++ [name])) = l.map (argMark done) := by
        intro h
        apply List.map_congr_left
        intro n hn
        unfold argMark
        by_cases hd : n.name ∈ done ∧ n.type ≠ NETIF_VLAN
        · rw [if_pos hd, if_pos ⟨List.mem_append_left _ hd.1, hd.2⟩]
        · rw [if_neg hd, if_neg]
          rintro ⟨h1, h2⟩
          rcases List.mem_append.mp h1 with h3 | h3
          · exact hd ⟨h3, h2⟩
          · exact h2 (h n hn (by simpa using h3))
      have hmem : ∀ n ∈ l, argMark done n ∈ l.map (argMark done) := fun n hn => List.mem_map.mpr ⟨n, hn, rfl⟩
      cases e : netifByName (l.map (argMark done)) name with
      | none =>
        dsimp only
        have hv' : valid l name = false := by rw [← hv]; unfold valid; rw [e]; rfl
        have : l.map (argMark done) = l.map (argMark (done ++ [name])) := (hsame (by
          intro n hn hnn
          have := List.find?_eq_none.mp e (argMark done n) (hmem n hn)
          rw [core_name (argMark_core done n)] at this
          simp [hnn] at this)).symm
        rw [this, ih (done ++ [name]) c, List.countP_cons_of_neg (by rw [hv']; decide), List.append_assoc]
        rfl
      | some n =>
        dsimp only
        have hnn := byName_name e
        by_cases ht : n.type = NETIF_VLAN
        · rw [if_pos ht]
          have hv' : valid l name = false := by
            rw [← hv]; unfold valid; rw [e]; simp [ht]
          have : l.map (argMark done) = l.map (argMark (done ++ [name])) := (hsame (by
            intro x hx hxn
            have h1 := core_name (argMark_core done x)
            have : argMark done x = n := name_unique hn' (hmem x hx) (byName_mem e) (by rw [h1, hxn, hnn])
            rw [← core_type (argMark_core done x), this]; exact ht)).symm
          rw [this, ih (done ++ [name]) c, List.countP_cons_of_neg (by rw [hv']; decide), List.append_assoc]
          rfl
        · rw [if_neg ht]
          have hv' : valid l name = true := by
            rw [← hv]; unfold valid; rw [e]; simp [ht]
          have : setNetif (l.map (argMark done)) n.index (fun n => { n with argv := 1 }) =
              l.map (argMark (done ++ [name])) := by
            rw [set_byName hi' hn' e, List.map_map]
            apply List.map_congr_left
            intro x hx
            have h1 := core_name (argMark_core done x)
            rw [Function.comp_apply, h1]
            by_cases hxn : name = x.name
            · rw [if_pos hxn]
              have hxe : argMark done x = n := name_unique hn' (hmem x hx) (byName_mem e) (by rw [h1, ← hxn, hnn])
              have htx : x.type ≠ NETIF_VLAN := by
                rw [← core_type (argMark_core done x), hxe]; exact ht
              have e2 : argMark (done ++ [name]) x = { x with argv := 1 } := by
                unfold argMark
                rw [if_pos ⟨List.mem_append_right _ (by rw [hxn]; exact List.mem_singleton.mpr rfl), htx⟩]
              rw [e2]
              unfold argMark
              split <;> rfl
            · rw [if_neg hxn]
              unfold argMark
              by_cases hd : x.name ∈ done ∧ x.type ≠ NETIF_VLAN
              · rw [if_pos hd, if_pos ⟨List.mem_append_left _ hd.1, hd.2⟩]
              · rw [if_neg hd, if_neg]
                rintro ⟨h3, h4⟩
                rcases List.mem_append.mp h3 with h5 | h5
                · exact hd ⟨h5, h4⟩
                · exact hxn (List.mem_singleton.mp h5).symm
          rw [this, ih (done ++ [name]) (c + 1), List.countP_cons_of_pos hv', List.append_assoc]
          refine Prod.ext rfl ?_
          dsimp only
          omega
  unfold markArgs
  have h0 : l.map (argMark []) = l := map_id_of (fun n _ => by unfold argMark; rw [if_neg (by simp)])
  have := key names [] 0
  rw [h0, List.nil_append, Nat.zero_add] at this
  exact this

/-! ## The management interface -/

theorem addrStep_mn_some (m : Mgmt) (l : List Netif) (i : Nat) (ia : IfAddr) : (addrStep m (l, some i) ia).2 = some i := by
  unfold addrStep
  split
  · rfl
  · split
    · rfl
    · split
      · split
        · rfl
        · dsimp only
          rw [if_pos (by rfl)]
      · split
        · rfl
        · split
          · rfl
          · dsimp only
            rw [if_pos (by rfl)]
      · rfl
      · rfl

theorem addr_fold_mn_some (m : Mgmt) (addrs : List IfAddr) (l : List Netif) (i : Nat) :
    (addrs.foldl (addrStep m) (l, some i)).2 = some i := by
  induction addrs generalizing l with
  | nil => rfl
  | cons ia addrs ih =>
    rw [List.foldl_cons]
    have : addrStep m (l, some i) ia = ((addrStep m (l, some i) ia).1, some i) :=
      Prod.ext rfl (addrStep_mn_some m l i ia)
    rw [this]
    exact ih _

/-- Sizes of the address fields. -/
def AdrOk (n : Netif) : Prop := n.ipaddr4.length = 4 ∧ n.ipaddr6.length = 16 ∧ n.hwaddr.length = 6

theorem addrNetif_adrOk {ia : IfAddr} {n : Netif} (hia : AddrsOk [ia]) (h : AdrOk n) : AdrOk (addrNetif ia n) := by
  have := addrs_own [ia] hia n h.1 h.2.1 h.2.2
  exact ⟨this.2.2.2.2.2.1, this.2.2.2.2.2.2.1, this.2.2.2.2.2.2.2⟩

/-- The interface has the selected management address. -/
def hasMaddr (m : Mgmt) (n : Netif) : Prop :=
  (configured m.maddr4 ∧ n.ipaddr4 = m.maddr4) ∨ (configured m.maddr6 ∧ n.ipaddr6 = m.maddr6)

/-- Final state of one interface. -/
abbrev addrsNetif (addrs : List IfAddr) (n : Netif) : Netif := addrs.foldl (fun n ia => addrNetif ia n) n

theorem mgmt_zero4 {m : Mgmt} (h : m.maddr4.length = 4) : (m.maddr4 == [0, 0, 0, 0]) = decide (¬ configured m.maddr4) := by
  have h1 := not_configured_iff m.maddr4
  rw [h] at h1
  have h2 : List.replicate 4 (0 : UInt8) = [0, 0, 0, 0] := rfl
  rw [h2] at h1
  by_cases hc : configured m.maddr4
  · rw [decide_eq_false (by simpa using hc), beq_eq_false_iff_ne]
    exact fun e => (h1.mpr e) hc
  · rw [decide_eq_true hc, beq_iff_eq]
    exact h1.mp hc

theorem mgmt_zero6 {m : Mgmt} (h : m.maddr6.length = 16) :
    (m.maddr6 == [0, 0, 0, 0, 0, 0, 0, 0, 0, 0, 0, 0, 0, 0, 0, 0]) = decide (¬ configured m.maddr6) := by
  have h1 := not_configured_iff m.maddr6
  rw [h] at h1
  have h2 : List.replicate 16 (0 : UInt8) = [0, 0, 0, 0, 0, 0, 0, 0, 0, 0, 0, 0, 0, 0, 0, 0] := rfl
  rw [h2] at h1
  by_cases hc : configured m.maddr6
  · rw [decide_eq_false (by simpa using hc), beq_eq_false_iff_ne]
    exact fun e => (h1.mpr e) hc
  · rw [decide_eq_true hc, beq_iff_eq]
    exact h1.mp hc

/-- What one address entry does to the choice of the management interface. -/
theorem addrStep_mn {m : Mgmt} (hm4 : m.maddr4.length = 4) (hm6 : m.maddr6.length = 16) {l : List Netif} {ia : IfAddr}
    (hn : (l.map (·.name)).Nodup) (hl : ∀ n ∈ l, AdrOk n) :
    (∀ i, (addrStep m (l, none) ia).2 = some i →
      ∃ n ∈ l, n.index = i ∧
        ((configured m.maddr4 ∧ (addrNetif ia n).ipaddr4 = m.maddr4) ∨
         (configured m.maddr6 ∧ (addrNetif ia n).ipaddr6 = m.maddr6))) ∧
    ((addrStep m (l, none) ia).2 = none →
      ∀ n ∈ l, (¬ configured n.ipaddr4 → configured m.maddr4 → (addrNetif ia n).ipaddr4 ≠ m.maddr4) ∧
               (¬ configured n.ipaddr6 → configured m.maddr6 → (addrNetif ia n).ipaddr6 ≠ m.maddr6)) := by
  have hne4 : ∀ n : Netif, ¬ configured n.ipaddr4 → configured m.maddr4 → n.ipaddr4 ≠ m.maddr4 := by
    intro n h1 h2 e; rw [e] at h1; exact h1 h2
  have hne6 : ∀ n : Netif, ¬ configured n.ipaddr6 → configured m.maddr6 → n.ipaddr6 ≠ m.maddr6 := by
    intro n h1 h2 e; rw [e] at h1; exact h1 h2
  have hother : ∀ n : Netif, ia.name ≠ n.name → addrNetif ia n = n := by
    intro n h; unfold addrNetif; rw [if_neg h]
  cases e : netifByName l ia.name with
  | none =>
    have hs : addrStep m (l, none) ia = (l, none) := by
      unfold addrStep
      split
      · rfl
      · dsimp only; rw [e]
    rw [hs]
    refine ⟨fun i h => (by cases h), fun _ n hnl => ?_⟩
    rw [hother n (by
      intro h
      have := List.find?_eq_none.mp e n hnl
      simp [h] at this)]
    exact ⟨hne4 n, hne6 n⟩
  | some n =>
    have hnn := byName_name e
    have hnl := byName_mem e
    obtain ⟨h4, h6, -⟩ := hl n hnl
    have honly : ∀ x ∈ l, x ≠ n → ia.name ≠ x.name := by
      intro x hx hne h
      exact hne (name_unique hn hx hnl (by rw [hnn, ← h]))
    -- enough to look at the interface itself
    have hfin : (¬ configured n.ipaddr4 → configured m.maddr4 → (addrNetif ia n).ipaddr4 ≠ m.maddr4) ∧
                (¬ configured n.ipaddr6 → configured m.maddr6 → (addrNetif ia n).ipaddr6 ≠ m.maddr6) →
        ∀ x ∈ l, (¬ configured x.ipaddr4 → configured m.maddr4 → (addrNetif ia x).ipaddr4 ≠ m.maddr4) ∧
                 (¬ configured x.ipaddr6 → configured m.maddr6 → (addrNetif ia x).ipaddr6 ≠ m.maddr6) := by
      intro h x hx
      by_cases hxn : x = n
      · subst hxn; exact h
      · rw [hother x (honly x hx hxn)]; exact ⟨hne4 x, hne6 x⟩
    cases ha : ia.addr with
    | absent =>
      have hs : addrStep m (l, none) ia = (l, none) := by unfold addrStep; rw [if_pos ha]
      have hx : addrNetif ia n = n := by unfold addrNetif; rw [if_pos hnn.symm, ha]
      rw [hs]
      refine ⟨fun i h => (by cases h), fun _ => hfin ?_⟩
      rw [hx]; exact ⟨hne4 n, hne6 n⟩
    | other =>
      have hs : addrStep m (l, none) ia = (l, none) := by
        unfold addrStep; rw [if_neg (by rw [ha]; exact fun h => nomatch h)]; dsimp only; rw [e]; dsimp only; rw [ha]
      have hx : addrNetif ia n = n := by unfold addrNetif; rw [if_pos hnn.symm, ha]
      rw [hs]
      refine ⟨fun i h => (by cases h), fun _ => hfin ?_⟩
      rw [hx]; exact ⟨hne4 n, hne6 n⟩
    | link et idx hw =>
      have hs : (addrStep m (l, none) ia).2 = none := by
        unfold addrStep; rw [if_neg (by rw [ha]; exact fun h => nomatch h)]; dsimp only; rw [e]; dsimp only; rw [ha]
      have hx : addrNetif ia n = { n with hwaddr := hw.take 6 } := by unfold addrNetif; rw [if_pos hnn.symm, ha]
      rw [hs]
      refine ⟨fun i h => (by cases h), fun _ => hfin ?_⟩
      rw [hx]; exact ⟨hne4 n, hne6 n⟩
    | inet a =>
      by_cases hc : configured n.ipaddr4
      · have hs : addrStep m (l, none) ia = (l, none) := by
          unfold addrStep; rw [if_neg (by rw [ha]; exact fun h => nomatch h)]; dsimp only; rw [e]; dsimp only; rw [ha]
          dsimp only; rw [has4_iff h4, if_pos (decide_eq_true hc)]
        have hx : addrNetif ia n = n := by
          unfold addrNetif; rw [if_pos hnn.symm, ha]; dsimp only; rw [has4_iff h4, if_pos (decide_eq_true hc)]
        rw [hs]
        refine ⟨fun i h => (by cases h), fun _ => hfin ?_⟩
        rw [hx]; exact ⟨hne4 n, hne6 n⟩
      · have hx : addrNetif ia n = { n with ipaddr4 := a } := by
          unfold addrNetif; rw [if_pos hnn.symm, ha]; dsimp only
          rw [has4_iff h4, if_neg (by rw [decide_eq_true_eq]; exact hc)]
        have hs : (addrStep m (l, none) ia).2 =
            if configured m.maddr4 ∧ m.maddr4 = a then some n.index else none := by
          unfold addrStep; rw [if_neg (by rw [ha]; exact fun h => nomatch h)]; dsimp only; rw [e]; dsimp only; rw [ha]
          dsimp only; rw [has4_iff h4, if_neg (by rw [decide_eq_true_eq]; exact hc), mgmt_zero4 hm4]
          by_cases hcm : configured m.maddr4
          · rw [if_neg (by simp [hcm])]
            by_cases hma : m.maddr4 = a
            · rw [if_pos hma, if_pos ⟨hcm, hma⟩]
            · rw [if_neg hma, if_neg (fun h => hma h.2)]
          · rw [if_pos (by simp [hcm]), if_neg (fun h => hcm h.1)]
        rw [hs]
        by_cases hcm : configured m.maddr4 ∧ m.maddr4 = a
        · rw [if_pos hcm]
          refine ⟨fun i h => ⟨n, hnl, Option.some.inj h, .inl ⟨hcm.1, ?_⟩⟩, fun h => (by cases h)⟩
          rw [hx]; exact hcm.2.symm
        · rw [if_neg hcm]
          refine ⟨fun i h => (by cases h), fun _ => hfin ?_⟩
          rw [hx]
          exact ⟨fun _ h h' => hcm ⟨h, h'.symm⟩, hne6 n⟩
    | inet6 a =>
      by_cases hc : configured n.ipaddr6
      · have hs : addrStep m (l, none) ia = (l, none) := by
          unfold addrStep; rw [if_neg (by rw [ha]; exact fun h => nomatch h)]; dsimp only; rw [e]; dsimp only; rw [ha]
          dsimp only; rw [has6_iff h6, if_pos (decide_eq_true hc)]
        have hx : addrNetif ia n = n := by
          unfold addrNetif; rw [if_pos hnn.symm, ha]; dsimp only
          rw [has6_iff h6, decide_eq_true hc, Bool.true_or, if_pos rfl]
        rw [hs]
        refine ⟨fun i h => (by cases h), fun _ => hfin ?_⟩
        rw [hx]; exact ⟨hne4 n, hne6 n⟩
      · by_cases hll : isLinkLocal a = true
        · have hs : addrStep m (l, none) ia = (l, none) := by
            unfold addrStep; rw [if_neg (by rw [ha]; exact fun h => nomatch h)]; dsimp only; rw [e]; dsimp only; rw [ha]
            dsimp only; rw [has6_iff h6, if_neg (by rw [decide_eq_true_eq]; exact hc), if_pos hll]
          have hx : addrNetif ia n = n := by
            unfold addrNetif; rw [if_pos hnn.symm, ha]; dsimp only
            rw [hll, Bool.or_true, if_pos rfl]
          rw [hs]
          refine ⟨fun i h => (by cases h), fun _ => hfin ?_⟩
          rw [hx]; exact ⟨hne4 n, hne6 n⟩
        · have hx : addrNetif ia n = { n with ipaddr6 := a } := by
            unfold addrNetif; rw [if_pos hnn.symm, ha]; dsimp only
            rw [has6_iff h6, decide_eq_false hc, Bool.false_or, if_neg hll]
          have hs : (addrStep m (l, none) ia).2 =
              if configured m.maddr6 ∧ m.maddr6 = a then some n.index else none := by
            unfold addrStep; rw [if_neg (by rw [ha]; exact fun h => nomatch h)]; dsimp only; rw [e]; dsimp only; rw [ha]
            dsimp only
            rw [has6_iff h6, if_neg (by rw [decide_eq_true_eq]; exact hc), if_neg hll, mgmt_zero6 hm6]
            by_cases hcm : configured m.maddr6
            · rw [if_neg (by simp [hcm])]
              by_cases hma : m.maddr6 = a
              · rw [if_pos hma, if_pos ⟨hcm, hma⟩]
              · rw [if_neg hma, if_neg (fun h => hma h.2)]
            · rw [if_pos (by simp [hcm]), if_neg (fun h => hcm h.1)]
          rw [hs]
          by_cases hcm : configured m.maddr6 ∧ m.maddr6 = a
          · rw [if_pos hcm]
            refine ⟨fun i h => ⟨n, hnl, Option.some.inj h, .inr ⟨hcm.1, ?_⟩⟩, fun h => (by cases h)⟩
            rw [hx]; exact hcm.2.symm
          · rw [if_neg hcm]
            refine ⟨fun i h => (by cases h), fun _ => hfin ?_⟩
            rw [hx]
            exact ⟨hne4 n, fun _ h h' => hcm ⟨h, h'.symm⟩⟩

/-- The interface chosen by address is one whose own address is the selected one; if there is one, one is chosen. -/
theorem addr_fold_mn {m : Mgmt} (hm4 : m.maddr4.length = 4) (hm6 : m.maddr6.length = 16) (addrs : List IfAddr)
    (hok : AddrsOk addrs) {l : List Netif}
    (hi : (l.map (·.index)).Nodup) (hn : (l.map (·.name)).Nodup) (hl : ∀ n ∈ l, AdrOk n) :
    (∀ i, (addrs.foldl (addrStep m) (l, none)).2 = some i → ∃ n ∈ l, n.index = i ∧ hasMaddr m (addrsNetif addrs n)) ∧
    ((addrs.foldl (addrStep m) (l, none)).2 = none → ∀ n ∈ l,
      (¬ configured n.ipaddr4 → configured m.maddr4 → (addrsNetif addrs n).ipaddr4 ≠ m.maddr4) ∧
      (¬ configured n.ipaddr6 → configured m.maddr6 → (addrsNetif addrs n).ipaddr6 ≠ m.maddr6)) := by
  induction addrs generalizing l with
  | nil =>
    refine ⟨fun i h => (by cases h), fun _ n hnl => ⟨?_, ?_⟩⟩
    · intro h1 h2 e; exact h1 (e ▸ h2)
    · intro h1 h2 e; exact h1 (e ▸ h2)
  | cons ia addrs ih =>
    have hok' : AddrsOk addrs := fun x hx => hok x (List.mem_cons_of_mem _ hx)
    have hia : AddrsOk [ia] := fun x hx => hok x (by rw [List.mem_singleton.mp hx]; exact List.mem_cons_self)
    obtain ⟨hs, hnone⟩ := addrStep_mn hm4 hm6 hn hl (ia := ia)
    have hstep : (addrStep m (l, none) ia).1 = l.map (addrNetif ia) := addrStep_map (s := (l, none)) hi hn
    have hc := addrStep_core m (l, none) ia
    rw [hstep] at hc
    have hi' : ((l.map (addrNetif ia)).map (·.index)).Nodup := by rw [map_index_of_core hc]; exact hi
    have hn' : ((l.map (addrNetif ia)).map (·.name)).Nodup := by rw [map_name_of_core hc]; exact hn
    have hl' : ∀ n ∈ l.map (addrNetif ia), AdrOk n := by
      intro n hn
      obtain ⟨x, hx, rfl⟩ := List.mem_map.mp hn
      exact addrNetif_adrOk hia (hl x hx)
    have hkeep : ∀ n ∈ l, (configured (addrNetif ia n).ipaddr4 →
          (addrsNetif addrs (addrNetif ia n)).ipaddr4 = (addrNetif ia n).ipaddr4) ∧
        (configured (addrNetif ia n).ipaddr6 →
          (addrsNetif addrs (addrNetif ia n)).ipaddr6 = (addrNetif ia n).ipaddr6) := by
      intro n hnl
      have ha := addrNetif_adrOk hia (hl n hnl)
      obtain ⟨-, -, a3, a4, -⟩ := addrs_own addrs hok' _ ha.1 ha.2.1 ha.2.2
      refine ⟨fun h => ?_, fun h => ?_⟩
      · rw [if_pos h] at a3; exact a3
      · rw [if_pos h] at a4; exact a4
    rw [List.foldl_cons]
    cases e : (addrStep m (l, none) ia).2 with
    | some j =>
      have : addrStep m (l, none) ia = ((addrStep m (l, none) ia).1, some j) := Prod.ext rfl e
      rw [this, addr_fold_mn_some]
      refine ⟨fun i h => ?_, fun h => (by cases h)⟩
      obtain ⟨n, hnl, hni, hm⟩ := hs j e
      refine ⟨n, hnl, by rw [hni]; exact Option.some.inj h, ?_⟩
      rcases hm with ⟨h1, h2⟩ | ⟨h1, h2⟩
      · exact .inl ⟨h1, ((hkeep n hnl).1 (h2 ▸ h1)).trans h2⟩
      · exact .inr ⟨h1, ((hkeep n hnl).2 (h2 ▸ h1)).trans h2⟩
    | none =>
      have : addrStep m (l, none) ia = (l.map (addrNetif ia), none) := Prod.ext hstep e
      rw [this]
      obtain ⟨ih1, ih2⟩ := ih hok' hi' hn' hl'
      refine ⟨fun i h => ?_, fun h n hnl => ?_⟩
      · obtain ⟨x, hx, hxi, hxm⟩ := ih1 i h
        obtain ⟨n, hnl, rfl⟩ := List.mem_map.mp hx
        exact ⟨n, hnl, by rw [← hxi]; exact (core_index (addrNetif_core ia n)).symm, hxm⟩
      · have h1 := ih2 h (addrNetif ia n) (List.mem_map.mpr ⟨n, hnl, rfl⟩)
        have h2 := hnone e n hnl
        refine ⟨fun hc hm => ?_, fun hc hm => ?_⟩
        · by_cases hcc : configured (addrNetif ia n).ipaddr4
          · show (addrsNetif addrs (addrNetif ia n)).ipaddr4 ≠ _
            rw [(hkeep n hnl).1 hcc]
            exact h2.1 hc hm
          · exact h1.1 hcc hm
        · by_cases hcc : configured (addrNetif ia n).ipaddr6
          · show (addrsNetif addrs (addrNetif ia n)).ipaddr6 ≠ _
            rw [(hkeep n hnl).2 hcc]
            exact h2.2 hc hm
          · exact h1.2 hcc hm

/-! ## The whole refresh -/

/-- The list after the settings loop. -/
def detected (k : Kernel) (olds : List Netif) (us : List Link) : List Netif :=
  ((listed k olds us).map (·.index)).foldl (detectOne k) (listed k olds us)

theorem detected_core (k : Kernel) (olds : List Netif) (us : List Link) :
    (detected k olds us).map core = (listed k olds us).map core := detect_fold_core k _ _

/-- `sysinfo->mnetif` before the addresses are looked at. -/
def mnetifNamed (m : Mgmt) (s : Ifs) (us : List Link) : Option Nat :=
  let mn := us.foldl (fun mn e => if m.mifname = some (e.name.take 15) then some e.index else mn) s.mnetif
  if ((s.netifs.map (·.index)).filter (fun i => !(us.map (·.index)).contains i)).any (fun i => mn == some i) then none
  else mn

theorem take_inj {us : List Link} (hn : (us.map (·.name)).Nodup) (hs : ∀ e ∈ us, e.name.length ≤ 15) :
    (us.map (fun e => e.name.take 15)).Nodup := by
  have : us.map (fun e => e.name.take 15) = us.map (·.name) :=
    List.map_congr_left (fun e he => List.take_of_length_le (hs e he))
  rw [this]; exact hn

theorem any_map_index (l : List Netif) (mn : Option Nat) :
    l.any (fun n => mn == some n.index) = (l.map (·.index)).any (fun i => mn == some i) := by
  rw [List.any_map]; rfl

/-- The result of a refresh. -/
theorem netifFetch_eq (o : Opts) (names : List Bytes) (m : Mgmt) (k : Kernel) (s : Ifs) {addrs : List IfAddr}
    (h : k.ifaddrs = some addrs) (hok : ListOk k addrs) (hs : (s.netifs.map (·.index)).Nodup) :
    let us := usables k addrs
    let D := detected k s.netifs us
    let A := D.map (addrsNetif addrs)
    let mn := (addrs.foldl (addrStep m) (D, mnetifNamed m s us)).2
    let B := if o.has OPT_MADDR then
        match mn.bind (netifByIndex A) with
        | none => A
        | some x => A.map (fun n => { n with ipaddr4 := x.ipaddr4, ipaddr6 := x.ipaddr6 })
      else A
    let r := netifFetch o names m k s
    r.1.netifs = (if names = [] then B else B.map (argMark names)) ∧
    r.1.mnetif = mn ∧
    r.1.closed = s.closed ++ (s.netifs.map (·.index)).filter (fun i => !(us.map (·.index)).contains i) ∧
    r.2 = (if names = [] then us.length else if names.all (valid D) then names.length else 0) % 65536 := by
  intro us D A mn B r
  have hk : ∀ e ∈ us, e.kind ≠ NETIF_OLD := by
    intro e he
    have := usables_kind he
    unfold NETIF_OLD
    omega
  have hfold := fetch_fold k m addrs ⟨s.netifs.map (fun n => { n with type := NETIF_OLD }),
    { s.sys with cap := s.sys.cap &&& 12, capActive := s.sys.capActive &&& 12, physifCount := 0 }, s.mnetif, 0⟩
  obtain ⟨f1, f2, f3⟩ := hfold
  dsimp only at f1 f2 f3
  have hus : addrs.filterMap (usable k) = us := rfl
  rw [hus] at f1 f2 f3
  have hal : us.foldl (addLive k) (s.netifs.map (fun n => { n with type := NETIF_OLD })) = afterLoop k s.netifs us := by
    have := addLive_fold k s.netifs us [] hs (by rw [List.nil_append]; exact hok.index)
    rw [afterLoop_nil, List.nil_append] at this
    exact this
  rw [hal] at f1
  have hlist := afterLoop_filter k s.netifs us hk
  have hold := afterLoop_old k s.netifs us hk
  have hDc : D.map core = (listed k s.netifs us).map core := detect_fold_core k _ _
  have hDi : (D.map (·.index)).Nodup := by
    rw [map_index_of_core hDc]; exact listed_index_nodup k hs hok.index
  have hDn : (D.map (·.name)).Nodup := by
    rw [map_name_of_core hDc]; exact listed_name_nodup k hs hok.index (take_inj hok.name hok.short)
  -- core of the later lists
  have hAc : A.map core = D.map core := by
    show (D.map (addrsNetif addrs)).map core = _
    rw [← addr_fold (m := m) addrs (s := (D, none)) hDi hDn]
    have : ∀ (addrs : List IfAddr) (x : List Netif × Option Nat), (addrs.foldl (addrStep m) x).1.map core = x.1.map core := by
      intro addrs
      induction addrs with
      | nil => intro x; rfl
      | cons ia addrs ih => intro x; rw [List.foldl_cons, ih, addrStep_core]
    exact this addrs (D, none)
  have hBc : B.map core = D.map core := by
    show List.map core (if o.has OPT_MADDR then _ else _) = _
    split
    · split
      · exact hAc
      · rw [List.map_map, ← hAc]; rfl
    · exact hAc
  have hBi : (B.map (·.index)).Nodup := by rw [map_index_of_core hBc]; exact hDi
  have hBn : (B.map (·.name)).Nodup := by rw [map_name_of_core hBc]; exact hDn
  have hmn0 : (if ((afterLoop k s.netifs us).filter (fun n => n.type == NETIF_OLD)).any
      (fun n => us.foldl (fun mn e => if m.mifname = some (e.name.take 15) then some e.index else mn) s.mnetif ==
        some n.index) then none
      else us.foldl (fun mn e => if m.mifname = some (e.name.take 15) then some e.index else mn) s.mnetif) =
      mnetifNamed m s us := by
    unfold mnetifNamed
    dsimp only
    rw [any_map_index, hold]
  have hD' : (((afterLoop k s.netifs us).filter (fun n => n.type != NETIF_OLD)).map (·.index)).foldl (detectOne k)
      ((afterLoop k s.netifs us).filter (fun n => n.type != NETIF_OLD)) = D := by
    rw [hlist]; rfl
  have hAf := addr_fold (m := m) addrs (s := (D, mnetifNamed m s us)) hDi hDn
  have hNA : netifAddrs o m addrs D (mnetifNamed m s us) = (B, mn) := by
    unfold netifAddrs
    have e1 : addrs.foldl (addrStep m) (D, mnetifNamed m s us) = (A, mn) := Prod.ext hAf rfl
    rw [e1]
    dsimp only
    by_cases ho : o.has OPT_MADDR = true
    · rw [if_neg (by rw [ho]; decide)]
      have : B = (match mn.bind (netifByIndex A) with
        | none => A
        | some x => A.map (fun n => { n with ipaddr4 := x.ipaddr4, ipaddr6 := x.ipaddr6 })) := if_pos ho
      rw [this]
      cases mn.bind (netifByIndex A) <;> rfl
    · have hf : o.has OPT_MADDR = false := by simpa using ho
      rw [if_pos (by rw [hf]; rfl)]
      have : B = A := if_neg ho
      rw [this]
  have hr : r = netifFetch o names m k s := rfl
  clear_value r B mn A D
  unfold netifFetch at hr
  rw [h] at hr
  dsimp only at hr
  rw [f1, f2, f3, hmn0, hD', hNA] at hr
  dsimp only at hr
  rw [hr]
  refine ⟨?_, rfl, ?_, ?_⟩
  · by_cases hnm : names = []
    · rw [if_pos hnm, if_pos hnm]
    · rw [if_neg hnm, if_neg hnm, markArgs_eq names B hBi hBn]
  · rw [hold]
  · by_cases hnm : names = []
    · rw [if_pos hnm, if_pos hnm]; dsimp only; rw [Nat.zero_add]
    · rw [if_neg hnm, if_neg hnm, markArgs_eq names B hBi hBn]
      dsimp only
      have hv : names.countP (valid B) = names.countP (valid D) := by
        apply List.countP_congr
        intro x _
        rw [valid_core hBc]
      rw [hv]
      by_cases hall : names.all (valid D) = true
      · have : names.countP (valid D) = names.length := List.countP_eq_length.mpr (fun a ha => List.all_eq_true.mp hall a ha)
        rw [if_pos hall, if_pos this, this]
      · have : names.countP (valid D) ≠ names.length := by
          intro h
          exact hall (List.all_eq_true.mpr (fun a ha => List.countP_eq_length.mp h a ha))
        rw [if_neg hall, if_neg this]

/-- Identity and links of an interface together. -/
def ident (n : Netif) : (Nat × Bytes × Int × Nat × Nat × Bytes) × (Option Nat × Option Nat × Nat) := (core n, links n)

theorem addrsNetif_ident (addrs : List IfAddr) (n : Netif) : ident (addrsNetif addrs n) = ident n := by
  induction addrs generalizing n with
  | nil => rfl
  | cons ia addrs ih =>
    show ident (addrsNetif addrs (addrNetif ia n)) = _
    rw [ih]
    exact Prod.ext (addrNetif_core ia n) (addrNetif_links ia n)

theorem argMark_ident (names : List Bytes) (n : Netif) : ident (argMark names n) = ident n := by
  unfold argMark; split <;> rfl

/-- A refresh changes identity and links only in the detection and settings loops. -/
theorem netifFetch_ident (o : Opts) (names : List Bytes) (m : Mgmt) (k : Kernel) (s : Ifs) {addrs : List IfAddr}
    (h : k.ifaddrs = some addrs) (hok : ListOk k addrs) (hs : (s.netifs.map (·.index)).Nodup) :
    (netifFetch o names m k s).1.netifs.map ident = (detected k s.netifs (usables k addrs)).map ident := by
  obtain ⟨e, -⟩ := netifFetch_eq o names m k s h hok hs
  rw [e]
  have hA : ((detected k s.netifs (usables k addrs)).map (addrsNetif addrs)).map ident =
      (detected k s.netifs (usables k addrs)).map ident := by
    rw [List.map_map]; exact List.map_congr_left (fun n _ => addrsNetif_ident addrs n)
  generalize (detected k s.netifs (usables k addrs)).map (addrsNetif addrs) = A at hA ⊢
  generalize (addrs.foldl (addrStep m) (detected k s.netifs (usables k addrs), mnetifNamed m s (usables k addrs))).2 = mn
  have hB : (if o.has OPT_MADDR = true then
        match mn.bind (netifByIndex A) with
        | none => A
        | some x => A.map (fun n => { n with ipaddr4 := x.ipaddr4, ipaddr6 := x.ipaddr6 })
      else A).map ident = A.map ident := by
    split
    · split
      · rfl
      · rw [List.map_map]; rfl
    · rfl
  generalize (if o.has OPT_MADDR = true then
        match mn.bind (netifByIndex A) with
        | none => A
        | some x => A.map (fun n => { n with ipaddr4 := x.ipaddr4, ipaddr6 := x.ipaddr6 })
      else A) = B at hB ⊢
  split
  · rw [hB, hA]
  · rw [List.map_map]
    have : B.map (ident ∘ argMark names) = B.map ident := List.map_congr_left (fun n _ => argMark_ident names n)
    rw [this, hB, hA]

theorem core_of_ident {l l' : List Netif} (h : l'.map ident = l.map ident) : l'.map core = l.map core := by
  have := congrArg (List.map Prod.fst) h
  rw [List.map_map, List.map_map] at this
  exact this

theorem byIndex_ident {l l' : List Netif} (h : l'.map ident = l.map ident) (i : Nat) :
    (netifByIndex l' i).map ident = (netifByIndex l i).map ident := by
  have e : ∀ l : List Netif, (netifByIndex l i).map ident = (l.map ident).find? (fun c => c.1.1 == i) := by
    intro l; unfold netifByIndex; rw [List.find?_map]; rfl
  rw [e, e, h]

theorem linksOf_ident {l l' : List Netif} (h : l'.map ident = l.map ident) (i : Nat) : linksOf l' i = linksOf l i := by
  have := congrArg (Option.map Prod.snd) (byIndex_ident h i)
  rw [Option.map_map, Option.map_map] at this
  exact this

theorem mem_of_ident {l l' : List Netif} (h : l'.map ident = l.map ident) {n : Netif} (hn : n ∈ l') :
    ∃ n0 ∈ l, ident n0 = ident n := by
  have : ident n ∈ l.map ident := h ▸ List.mem_map.mpr ⟨n, hn, rfl⟩
  obtain ⟨m, hm, he⟩ := List.mem_map.mp this
  exact ⟨m, hm, he⟩

theorem mem_of_core {l l' : List Netif} (h : l'.map core = l.map core) {n : Netif} (hn : n ∈ l') :
    ∃ n0 ∈ l, core n0 = core n := by
  have : core n ∈ l.map core := h ▸ List.mem_map.mpr ⟨n, hn, rfl⟩
  obtain ⟨m, hm, he⟩ := List.mem_map.mp this
  exact ⟨m, hm, he⟩

theorem kernelOk_core {k : Kernel} {l l' : List Netif} (h : l'.map core = l.map core) (hi : (l'.map (·.index)).Nodup)
    (hk : KernelOk k l) : KernelOk k l' := by
  refine ⟨?_, ?_, ?_⟩
  · intro n hn
    obtain ⟨n0, h0, e⟩ := mem_of_core h hn
    rw [portsOf_core k h e.symm]
    exact hk.nodup n0 h0
  · intro n hn n' hn' m hm hm'
    obtain ⟨n0, h0, e⟩ := mem_of_core h hn
    obtain ⟨n1, h1, e1⟩ := mem_of_core h hn'
    rw [portsOf_core k h e.symm] at hm
    rw [portsOf_core k h e1.symm] at hm'
    have := hk.once n0 h0 n1 h1 m hm hm'
    subst this
    exact index_unique hi hn hn' (core_index (e.symm.trans e1))
  · intro n hn
    obtain ⟨n0, h0, e⟩ := mem_of_core h hn
    exact teamOk_core h e.symm (hk.team n0 h0)

/-! ## Ports of an interface -/

theorem length_le_of_nodup_subset {l m : List Nat} (hl : l.Nodup) (h : ∀ a ∈ l, a ∈ m) : l.length ≤ m.length := by
  induction l generalizing m with
  | nil => exact Nat.zero_le _
  | cons a l ih =>
    rw [List.nodup_cons] at hl
    have ha : a ∈ m := h a List.mem_cons_self
    have h2 : ∀ b ∈ l, b ∈ m.erase a := by
      intro b hb
      have hne : b ≠ a := fun e => hl.1 (e ▸ hb)
      exact (List.mem_erase_of_ne hne).mpr (h b (List.mem_cons_of_mem _ hb))
    have h3 := ih hl.2 h2
    rw [List.length_erase_of_mem ha] at h3
    have h4 : 0 < m.length := List.length_pos_of_mem ha
    rw [List.length_cons]
    omega

/-- Following the chain from a port. -/
theorem subifLoop_chain {l : List Netif} {netif : Netif} {ms : List Nat} (hnot : netif.index ∉ ms)
    (hin : ∀ m ∈ ms, m ∈ l.map (·.index)) (fuel : Nat) (hf : ms.length < fuel) {s : Netif}
    (hs : netifByIndex l s.index = some s) (hne : s.index ≠ netif.index) (hc : Chain (subOf l) s.index ms) :
    subifLoop l netif fuel (some s) = .ok (ms.filterMap (netifByIndex l)) := by
  induction ms generalizing s fuel with
  | nil =>
    cases fuel with
    | zero => omega
    | succ f =>
      unfold subifLoop subifIter
      dsimp only
      have : s.subif = none := by
        have h : subOf l s.index = none := hc
        unfold subOf at h
        rw [hs] at h
        exact h
      rw [if_neg hne, this]
      rfl
  | cons m ms ih =>
    cases fuel with
    | zero => omega
    | succ f =>
      obtain ⟨h1, h2⟩ := hc
      obtain ⟨x, hx⟩ := byIndex_exists (hin m List.mem_cons_self)
      have hxi := byIndex_index hx
      have hsub : s.subif = some m := by
        unfold subOf at h1
        rw [hs] at h1
        exact h1
      have e1 : subifIter l (some s) netif = some x := by
        unfold subifIter
        dsimp only
        rw [if_neg hne, hsub]
        exact hx
      unfold subifLoop
      rw [e1]
      dsimp only
      subst hxi
      rw [ih (fun h => hnot (List.mem_cons_of_mem _ h)) (fun m hm => hin m (List.mem_cons_of_mem _ hm)) f
        (by rw [List.length_cons] at hf; omega) hx (fun h => hnot (h ▸ List.mem_cons_self)) h2,
        List.filterMap_cons_some hx]
      rfl

/-- The ports of an aggregate with a chain. -/
theorem ports_chain {l : List Netif} (hi : (l.map (·.index)).Nodup) {n : Netif} (hn : n ∈ l) (ht : n.type > 10)
    {ms : List Nat} (hms : ms.Nodup) (hnot : n.index ∉ ms) (hin : ∀ m ∈ ms, m ∈ l.map (·.index))
    (hc : Chain (subOf l) n.index ms) : ports l n = .ok (ms.filterMap (netifByIndex l)) := by
  have hnl := byIndex_of_mem hi hn
  have hlen : ms.length ≤ l.length := by
    have := length_le_of_nodup_subset hms hin
    rwa [List.length_map] at this
  unfold ports
  unfold subifLoop subifIter
  dsimp only
  rw [if_pos (by unfold NETIF_PARENT; exact ht)]
  cases ms with
  | nil =>
    have : n.subif = none := by
      have h : subOf l n.index = none := hc
      unfold subOf at h
      rw [hnl] at h
      exact h
    rw [this]
    rfl
  | cons m ms =>
    obtain ⟨h1, h2⟩ := hc
    obtain ⟨x, hx⟩ := byIndex_exists (hin m List.mem_cons_self)
    have hxi := byIndex_index hx
    have hsub : n.subif = some m := by
      unfold subOf at h1
      rw [hnl] at h1
      exact h1
    subst hxi
    have e1 : n.subif.bind (netifByIndex l) = some x := by rw [hsub]; exact hx
    rw [e1]
    dsimp only
    rw [subifLoop_chain (fun h => hnot (List.mem_cons_of_mem _ h)) (fun m hm => hin m (List.mem_cons_of_mem _ hm)) _
      (by rw [List.length_cons] at hlen; omega) hx (fun h => hnot (h ▸ List.mem_cons_self)) h2,
      List.filterMap_cons_some hx]
    rfl

theorem ports_plain (l : List Netif) {n : Netif} (h0 : 0 ≤ n.type) (h10 : n.type < 10) : ports l n = .ok [n] := by
  unfold ports subifLoop subifIter
  dsimp only
  rw [if_neg (by unfold NETIF_PARENT; omega), if_neg (by unfold NETIF_REGULAR; omega)]
  dsimp only
  unfold subifLoop subifIter
  dsimp only
  rw [if_pos rfl]
  rfl

theorem ports_vlan (l : List Netif) {n : Netif} (h0 : n.type < 0) : ports l n = .ok [] := by
  unfold ports subifLoop subifIter
  dsimp only
  rw [if_neg (by unfold NETIF_PARENT; omega), if_pos (by unfold NETIF_REGULAR; omega)]

theorem filterMap_byIndex {l : List Netif} {ms : List Nat} (hin : ∀ m ∈ ms, m ∈ l.map (·.index)) :
    (ms.filterMap (netifByIndex l)).map (·.index) = ms := by
  induction ms with
  | nil => rfl
  | cons m ms ih =>
    obtain ⟨x, hx⟩ := byIndex_exists (hin m List.mem_cons_self)
    rw [List.filterMap_cons_some hx, List.map_cons, byIndex_index hx, ih (fun m hm => hin m (List.mem_cons_of_mem _ hm))]

theorem recordOf_type {k : Kernel} {addrs : List IfAddr} {olds : List Netif} (ho : (olds.map (·.index)).Nodup) {n : Netif}
    (h : n ∈ listed k olds (usables k addrs)) : TypeOk n ∧ n.subif = none ∧ n.parent = none ∧ n.child = 0 ∧
      adr n = ([0, 0, 0, 0], [0, 0, 0, 0, 0, 0, 0, 0, 0, 0, 0, 0, 0, 0, 0, 0], [0, 0, 0, 0, 0, 0], 0) := by
  obtain ⟨e, he, rfl⟩ := listed_record ho h
  refine ⟨?_, rfl, rfl, rfl, rfl⟩
  have := usables_kind he
  show e.kind < 10 ∨ e.kind = 11 ∨ e.kind = 12 ∨ e.kind = 13
  omega

/-- Links of the list after a refresh. -/
structure Linked (k : Kernel) (l : List Netif) : Prop where
  nodup : (l.map (·.index)).Nodup
  type : ∀ n ∈ l, TypeOk n
  chain : ∀ n ∈ l, n.type > 10 → Chain (subOf l) n.index (portsOf k l n)
  member : ∀ n ∈ l, ∀ m ∈ portsOf k l n, ∃ s ∈ l, s.index = m ∧ s.parent = some n.index ∧ s.child ≠ 0
  free : ∀ s ∈ l, (∀ n ∈ l, s.index ∉ portsOf k l n) → s.parent = none ∧ s.child = 0

theorem detected_linked {k : Kernel} {olds : List Netif} {addrs : List IfAddr} (ho : (olds.map (·.index)).Nodup)
    (hok : ListOk k addrs) {l : List Netif} (hl : l.map ident = (detected k olds (usables k addrs)).map ident)
    (hk : KernelOk k l) : Linked k l := by
  have hc0 : (detected k olds (usables k addrs)).map core = (listed k olds (usables k addrs)).map core :=
    detect_fold_core k _ _
  have hi0 := listed_index_nodup k ho hok.index
  have hc : l.map core = (listed k olds (usables k addrs)).map core := (core_of_ident hl).trans hc0
  have hi : (l.map (·.index)).Nodup := by rw [map_index_of_core hc]; exact hi0
  have hk0 : KernelOk k (listed k olds (usables k addrs)) := kernelOk_core hc.symm hi0 hk
  have hD := detect_all hi0 (fun n hn => (recordOf_type ho hn).1) hk0 (fun n hn => (recordOf_type ho hn).2.1)
  change DetectInv k (listed k olds (usables k addrs)) _ (detected k olds (usables k addrs)) at hD
  have hlk : ∀ j, linksOf l j = linksOf (detected k olds (usables k addrs)) j := linksOf_ident hl
  have hsub : subOf l = subOf (detected k olds (usables k addrs)) := by
    funext j; exact links_subOf (hlk j)
  have hins : ∀ n0 ∈ listed k olds (usables k addrs), n0.index ∈ (listed k olds (usables k addrs)).map (·.index) :=
    fun n0 h0 => List.mem_map.mpr ⟨n0, h0, rfl⟩
  refine ⟨hi, ?_, ?_, ?_, ?_⟩
  · intro n hn
    obtain ⟨n0, h0, e⟩ := mem_of_core hc hn
    have := (recordOf_type ho h0).1
    unfold TypeOk at this ⊢
    rw [core_type e] at this
    exact this
  · intro n hn ht
    obtain ⟨n0, h0, e⟩ := mem_of_core hc hn
    have := hD.chain n0 h0 (hins n0 h0) (by rw [core_type e]; exact ht)
    rw [core_index e] at this
    rw [hsub, portsOf_core k hc e.symm]
    exact this
  · intro n hn m hm
    obtain ⟨n0, h0, e⟩ := mem_of_core hc hn
    rw [portsOf_core k hc e.symm] at hm
    obtain ⟨o, c, h1, h2⟩ := hD.port n0 h0 (hins n0 h0) m hm
    rw [← hlk m] at h1
    unfold linksOf at h1
    obtain ⟨x, hx, hxe⟩ := Option.map_eq_some_iff.mp h1
    refine ⟨x, byIndex_mem hx, byIndex_index hx, ?_, ?_⟩
    · have := congrArg (fun y => y.2.1) hxe
      dsimp only [links] at this
      rw [this, core_index e]
    · have := congrArg (fun y => y.2.2) hxe
      dsimp only [links] at this
      rw [this]; exact h2
  · intro x hx hfree
    have h1 := hD.own x.index (fun n0 h0 _ hm => by
      obtain ⟨n, hn, e⟩ := mem_of_core hc.symm h0
      exact hfree n hn (by rw [portsOf_core k hc e]; exact hm))
    rw [← hlk x.index] at h1
    unfold linksOf at h1
    rw [byIndex_of_mem hi hx] at h1
    obtain ⟨x0, h0, e⟩ := mem_of_core hc hx
    rw [← core_index e, byIndex_of_mem hi0 h0] at h1
    have hr := recordOf_type ho h0
    simp only [Option.map_some, Option.some.injEq, links, hr.2.2.1, hr.2.2.2.1, Prod.mk.injEq] at h1
    exact h1

end Ladvd
