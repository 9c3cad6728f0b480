import Verif.Lemmas.Detect
import Verif.Lemmas.Packet
/-!
# Interface detection: addresses, command line interfaces, the whole refresh
-/

namespace Ladvd

open Spec

/-! ## Addresses -/

theorem addrStep_core (m : Mgmt) (s : List Netif × Option Nat) (ia : IfAddr) :
    (addrStep m s ia).1.map core = s.1.map core := by
  unfold addrStep
  split
  · rfl
  · split
    · rfl
    · split
      · split
        · rfl
        · dsimp only
          split
          · exact setNetif_map core _ _ _ (by intro n; rfl)
          · split <;> exact setNetif_map core _ _ _ (by intro n; rfl)
      · split
        · rfl
        · split
          · rfl
          · dsimp only
            split
            · exact setNetif_map core _ _ _ (by intro n; rfl)
            · split <;> exact setNetif_map core _ _ _ (by intro n; rfl)
      · exact setNetif_map core _ _ _ (by intro n; rfl)
      · rfl

/-- What one address entry does to one interface. -/
def addrNetif (ia : IfAddr) (n : Netif) : Netif :=
  if ia.name = n.name then
    match ia.addr with
    | .inet a => if n.has4 then n else { n with ipaddr4 := a }
    | .inet6 a => if n.has6 || isLinkLocal a then n else { n with ipaddr6 := a }
    | .link _ _ hw => { n with hwaddr := hw.take 6 }
    | _ => n
  else n

theorem addrNetif_core (ia : IfAddr) (n : Netif) : core (addrNetif ia n) = core n := by
  unfold addrNetif
  split
  · split
    · split <;> rfl
    · split <;> rfl
    · rfl
    · rfl
  · rfl

theorem addrNetif_links (ia : IfAddr) (n : Netif) : links (addrNetif ia n) = links n := by
  unfold addrNetif
  split
  · split
    · split <;> rfl
    · split <;> rfl
    · rfl
    · rfl
  · rfl

theorem name_unique {l : List Netif} (hnd : (l.map (·.name)).Nodup) {a b : Netif} (ha : a ∈ l) (hb : b ∈ l)
    (hab : a.name = b.name) : a = b := by
  induction l with
  | nil => cases ha
  | cons c l ih =>
    rw [List.map_cons, List.nodup_cons] at hnd
    rcases List.mem_cons.mp ha with rfl | ha'
    · rcases List.mem_cons.mp hb with rfl | hb'
      · rfl
      · exact absurd (List.mem_map.mpr ⟨b, hb', hab.symm⟩) hnd.1
    · rcases List.mem_cons.mp hb with rfl | hb'
      · exact absurd (List.mem_map.mpr ⟨a, ha', hab⟩) hnd.1
      · exact ih hnd.2 ha' hb'

theorem index_unique {l : List Netif} (hnd : (l.map (·.index)).Nodup) {a b : Netif} (ha : a ∈ l) (hb : b ∈ l)
    (hab : a.index = b.index) : a = b := by
  have h1 := byIndex_of_mem hnd ha
  rw [hab, byIndex_of_mem hnd hb] at h1
  exact (Option.some.inj h1).symm

/-- Assignment to the one interface with a name. -/
theorem set_byName {l : List Netif} (hi : (l.map (·.index)).Nodup) (hn : (l.map (·.name)).Nodup) {s : Bytes} {n : Netif}
    (h : netifByName l s = some n) (f : Netif → Netif) :
    setNetif l n.index f = l.map (fun x => if s = x.name then f x else x) := by
  unfold setNetif
  apply List.map_congr_left
  intro x hx
  have hns := byName_name h
  have hnl := byName_mem h
  by_cases e : x.index = n.index
  · have : x = n := by
      have h1 := byIndex_of_mem hi hx
      have h2 := byIndex_of_mem hi hnl
      rw [e, h2] at h1
      exact (Option.some.inj h1).symm
    subst this
    rw [if_pos rfl, if_pos hns.symm]
  · rw [if_neg e, if_neg]
    intro hs
    apply e
    -- equal names, one interface
    have : x = n := by
      exact name_unique hn hx hnl (by rw [hns, ← hs])
    rw [this]

theorem map_id_of {l : List Netif} {f : Netif → Netif} (h : ∀ n ∈ l, f n = n) : l.map f = l := by
  have : l.map f = l.map id := List.map_congr_left h
  rw [this, List.map_id]

theorem addrStep_map {m : Mgmt} {s : List Netif × Option Nat} {ia : IfAddr} (hi : (s.1.map (·.index)).Nodup)
    (hn : (s.1.map (·.name)).Nodup) : (addrStep m s ia).1 = s.1.map (addrNetif ia) := by
  have hnone : netifByName s.1 ia.name = none → s.1 = s.1.map (addrNetif ia) := by
    intro h
    refine (map_id_of (fun n hm => ?_)).symm
    unfold addrNetif
    rw [if_neg]
    intro e
    have := List.find?_eq_none.mp h n hm
    simp [e] at this
  unfold addrStep
  split
  · rename_i he
    refine (map_id_of (fun n hm => ?_)).symm
    unfold addrNetif
    rw [he]
    split <;> rfl
  · split
    · rename_i h; exact hnone h
    · rename_i n h
      have hns := byName_name h
      -- a change to an interface with the name
      have hset : ∀ f : Netif → Netif, (∀ x ∈ s.1, ia.name = x.name → f x = addrNetif ia x) →
          setNetif s.1 n.index f = s.1.map (addrNetif ia) := by
        intro f hf
        rw [set_byName hi hn h f]
        apply List.map_congr_left
        intro x hx
        by_cases e : ia.name = x.name
        · rw [if_pos e, hf x hx e]
        · rw [if_neg e]; unfold addrNetif; rw [if_neg e]
      -- only the interface itself has this name
      have honly : ∀ x ∈ s.1, ia.name = x.name → x = n := by
        intro x hx e
        exact name_unique hn hx (byName_mem h) (by rw [hns, ← e])
      have hsame : (∀ x ∈ s.1, ia.name = x.name → x = addrNetif ia x) → s.1 = s.1.map (addrNetif ia) := by
        intro hf
        refine (map_id_of (fun x hx => ?_)).symm
        by_cases e : ia.name = x.name
        · exact (hf x hx e).symm
        · unfold addrNetif; rw [if_neg e]
      cases ha : ia.addr with
      | inet a =>
        dsimp only
        by_cases h4 : n.has4 = true
        · rw [if_pos h4]
          refine hsame (fun x hx e => ?_)
          rw [honly x hx e]
          unfold addrNetif
          rw [if_pos (by rw [hns]), ha]
          dsimp only
          rw [if_pos h4]
        · rw [if_neg h4]
          have hb := hset (fun n => { n with ipaddr4 := a }) (fun x hx e => by
            have := honly x hx e; subst this
            unfold addrNetif; rw [if_pos e, ha]; dsimp only; rw [if_neg h4])
          split
          · exact hb
          · split <;> exact hb
      | inet6 a =>
        dsimp only
        by_cases h6 : n.has6 = true
        · rw [if_pos h6]
          refine hsame (fun x hx e => ?_)
          rw [honly x hx e]
          unfold addrNetif
          rw [if_pos (by rw [hns]), ha]
          dsimp only
          rw [if_pos (by rw [h6]; rfl)]
        · rw [if_neg h6]
          by_cases hll : isLinkLocal a = true
          · rw [if_pos hll]
            refine hsame (fun x hx e => ?_)
            rw [honly x hx e]
            unfold addrNetif
            rw [if_pos (by rw [hns]), ha]
            dsimp only
            rw [if_pos (by rw [hll, Bool.or_true])]
          · rw [if_neg hll]
            have hb := hset (fun n => { n with ipaddr6 := a }) (fun x hx e => by
              have := honly x hx e; subst this
              unfold addrNetif; rw [if_pos e, ha]; dsimp only; rw [if_neg (by simp [h6, hll])])
            split
            · exact hb
            · split <;> exact hb
      | link e i hw =>
        dsimp only
        refine hset _ (fun x hx e => ?_)
        unfold addrNetif; rw [if_pos e, ha]
      | absent =>
        refine hsame (fun x hx e => ?_)
        unfold addrNetif; rw [if_pos e, ha]
      | other =>
        refine hsame (fun x hx e => ?_)
        unfold addrNetif; rw [if_pos e, ha]

theorem addr_fold {m : Mgmt} (addrs : List IfAddr) {s : List Netif × Option Nat} (hi : (s.1.map (·.index)).Nodup)
    (hn : (s.1.map (·.name)).Nodup) :
    (addrs.foldl (addrStep m) s).1 = s.1.map (fun n => addrs.foldl (fun n ia => addrNetif ia n) n) := by
  induction addrs generalizing s with
  | nil => simp
  | cons ia addrs ih =>
    have hc := addrStep_core m s ia
    have hi' : ((addrStep m s ia).1.map (·.index)).Nodup := by rw [map_index_of_core hc]; exact hi
    have hn' : ((addrStep m s ia).1.map (·.name)).Nodup := by rw [map_name_of_core hc]; exact hn
    rw [List.foldl_cons, ih hi' hn', addrStep_map hi hn, List.map_map]
    rfl

theorem isLinkLocal_iff (a : Bytes) : isLinkLocal a = true ↔ linkLocal a := by
  unfold isLinkLocal linkLocal
  generalize a.getD 0 0 = x
  generalize a.getD 1 0 = y
  have hx := x.toNat_lt
  have hy := y.toNat_lt
  have key0 : ∀ i : Fin 256, (UInt8.ofNat i.val &&& 0xc0 == 0x80) = decide (i.val / 64 = 2) := by decide +kernel
  have key : (y &&& 0xc0 == 0x80) = decide (y.toNat / 64 = 2) := by
    have := key0 ⟨y.toNat, y.toNat_lt⟩
    rwa [UInt8.ofNat_toNat] at this
  rw [Bool.and_eq_true, key, decide_eq_true_iff, beq_iff_eq]
  constructor
  · rintro ⟨rfl, h⟩
    have : (0xfe : UInt8).toNat = 254 := rfl
    omega
  · intro h
    have : x.toNat = 254 := by omega
    exact ⟨UInt8.toNat_inj.mp this, by omega⟩

/-- All addresses of one interface. -/
theorem addrs_own (addrs : List IfAddr) (hok : AddrsOk addrs) (n : Netif) (h4 : n.ipaddr4.length = 4)
    (h6 : n.ipaddr6.length = 16) (hh : n.hwaddr.length = 6) :
    let r := addrs.foldl (fun n ia => addrNetif ia n) n
    core r = core n ∧ links r = links n ∧
    r.ipaddr4 = (if configured n.ipaddr4 then n.ipaddr4 else own4 addrs n.name) ∧
    r.ipaddr6 = (if configured n.ipaddr6 then n.ipaddr6 else own6 addrs n.name) ∧
    r.hwaddr = (((hwOf addrs n.name).getLast?).map (·.take 6)).getD n.hwaddr ∧
    r.ipaddr4.length = 4 ∧ r.ipaddr6.length = 16 ∧ r.hwaddr.length = 6 := by
  have z4 : ¬ configured n.ipaddr4 → n.ipaddr4 = [0, 0, 0, 0] := by
    intro h; have := (not_configured_iff _).mp h; rw [h4] at this; exact this
  have z6 : ¬ configured n.ipaddr6 → n.ipaddr6 = [0, 0, 0, 0, 0, 0, 0, 0, 0, 0, 0, 0, 0, 0, 0, 0] := by
    intro h; have := (not_configured_iff _).mp h; rw [h6] at this; exact this
  induction addrs generalizing n with
  | nil =>
    dsimp only [List.foldl_nil]
    refine ⟨rfl, rfl, ?_, ?_, rfl, h4, h6, hh⟩
    · split
      · rfl
      · rename_i h; rw [z4 h]; rfl
    · split
      · rfl
      · rename_i h; rw [z6 h]; rfl
  | cons ia addrs ih =>
    have hok' : AddrsOk addrs := fun x hx => hok x (List.mem_cons_of_mem _ hx)
    have hia := hok ia List.mem_cons_self
    have hcore := addrNetif_core ia n
    have hlinks := addrNetif_links ia n
    have hname := core_name hcore
    dsimp only [List.foldl_cons]
    -- an entry of another interface, or without addresses
    have skip : addrNetif ia n = n → v4Of (ia :: addrs) n.name = v4Of addrs n.name →
        v6Of (ia :: addrs) n.name = v6Of addrs n.name → hwOf (ia :: addrs) n.name = hwOf addrs n.name →
        let r := addrs.foldl (fun n ia => addrNetif ia n) (addrNetif ia n)
        core r = core n ∧ links r = links n ∧
        r.ipaddr4 = (if configured n.ipaddr4 then n.ipaddr4 else own4 (ia :: addrs) n.name) ∧
        r.ipaddr6 = (if configured n.ipaddr6 then n.ipaddr6 else own6 (ia :: addrs) n.name) ∧
        r.hwaddr = (((hwOf (ia :: addrs) n.name).getLast?).map (·.take 6)).getD n.hwaddr ∧
        r.ipaddr4.length = 4 ∧ r.ipaddr6.length = 16 ∧ r.hwaddr.length = 6 := by
      intro e1 e2 e3 e4
      rw [e1]
      unfold own4 own6
      rw [e2, e3, e4]
      exact ih hok' n h4 h6 hh z4 z6
    by_cases hnm : ia.name = n.name
    · cases ha : ia.addr with
      | absent =>
        refine skip ?_ ?_ ?_ ?_
        · unfold addrNetif; rw [if_pos hnm, ha]
        · unfold v4Of; rw [List.filterMap_cons_none (by rw [ha])]
        · unfold v6Of; rw [List.filterMap_cons_none (by rw [ha])]
        · unfold hwOf; rw [List.filterMap_cons_none (by rw [ha])]
      | other =>
        refine skip ?_ ?_ ?_ ?_
        · unfold addrNetif; rw [if_pos hnm, ha]
        · unfold v4Of; rw [List.filterMap_cons_none (by rw [ha])]
        · unfold v6Of; rw [List.filterMap_cons_none (by rw [ha])]
        · unfold hwOf; rw [List.filterMap_cons_none (by rw [ha])]
      | link e i hw =>
        rw [ha] at hia
        have e1 : addrNetif ia n = { n with hwaddr := hw.take 6 } := by unfold addrNetif; rw [if_pos hnm, ha]
        have e2 : v4Of (ia :: addrs) n.name = v4Of addrs n.name := by
          unfold v4Of; rw [List.filterMap_cons_none (by rw [ha])]
        have e3 : v6Of (ia :: addrs) n.name = v6Of addrs n.name := by
          unfold v6Of; rw [List.filterMap_cons_none (by rw [ha])]
        have e4 : hwOf (ia :: addrs) n.name = hw :: hwOf addrs n.name := by
          unfold hwOf; rw [List.filterMap_cons_some (b := hw) (by rw [ha]; dsimp only; rw [if_pos hnm])]
        obtain ⟨a1, a2, a3, a4, a5, a6, a7, a8⟩ := ih hok' { n with hwaddr := hw.take 6 } h4 h6
          (by show (hw.take 6).length = 6; rw [List.length_take]; dsimp only at hia; omega) z4 z6
        rw [e1]
        unfold own4 own6
        rw [e2, e3, e4]
        refine ⟨a1, a2, a3, a4, ?_, a6, a7, a8⟩
        rw [a5]
        rw [List.getLast?_cons]
        cases (hwOf addrs n.name).getLast? <;> rfl
      | inet a =>
        rw [ha] at hia
        dsimp only at hia
        have e2 : v4Of (ia :: addrs) n.name = a :: v4Of addrs n.name := by
          unfold v4Of; rw [List.filterMap_cons_some (b := a) (by rw [ha]; dsimp only; rw [if_pos hnm])]
        have e3 : v6Of (ia :: addrs) n.name = v6Of addrs n.name := by
          unfold v6Of; rw [List.filterMap_cons_none (by rw [ha])]
        have e4 : hwOf (ia :: addrs) n.name = hwOf addrs n.name := by
          unfold hwOf; rw [List.filterMap_cons_none (by rw [ha])]
        unfold own4 own6
        rw [e2, e3, e4]
        by_cases hc : configured n.ipaddr4
        · have e1 : addrNetif ia n = n := by
            unfold addrNetif; rw [if_pos hnm, ha]; dsimp only; rw [has4_iff h4, if_pos (decide_eq_true hc)]
          rw [e1, if_pos hc]
          obtain ⟨a1, a2, a3, a4, a5, a6, a7, a8⟩ := ih hok' n h4 h6 hh z4 z6
          rw [if_pos hc] at a3
          exact ⟨a1, a2, a3, a4, a5, a6, a7, a8⟩
        · have e1 : addrNetif ia n = { n with ipaddr4 := a } := by
            unfold addrNetif; rw [if_pos hnm, ha]; dsimp only; rw [has4_iff h4, if_neg (by rw [decide_eq_true_eq]; exact hc)]
          rw [e1, if_neg hc]
          obtain ⟨a1, a2, a3, a4, a5, a6, a7, a8⟩ := ih hok' { n with ipaddr4 := a } hia h6 hh
            (by intro h; have := (not_configured_iff a).mp h; rw [hia] at this; exact this) z6
          refine ⟨a1, a2, ?_, a4, a5, a6, a7, a8⟩
          rw [a3]
          dsimp only
          by_cases hca : configured a
          · rw [if_pos hca, List.find?_cons_of_pos (by rw [decide_eq_true_eq]; exact hca)]; rfl
          · rw [if_neg hca, List.find?_cons_of_neg (by rw [decide_eq_true_eq]; exact hca)]; rfl
      | inet6 a =>
        rw [ha] at hia
        dsimp only at hia
        have e2 : v4Of (ia :: addrs) n.name = v4Of addrs n.name := by
          unfold v4Of; rw [List.filterMap_cons_none (by rw [ha])]
        have e3 : v6Of (ia :: addrs) n.name = a :: v6Of addrs n.name := by
          unfold v6Of; rw [List.filterMap_cons_some (b := a) (by rw [ha]; dsimp only; rw [if_pos hnm])]
        have e4 : hwOf (ia :: addrs) n.name = hwOf addrs n.name := by
          unfold hwOf; rw [List.filterMap_cons_none (by rw [ha])]
        unfold own4 own6
        rw [e2, e3, e4]
        by_cases hc : configured n.ipaddr6
        · have e1 : addrNetif ia n = n := by
            unfold addrNetif; rw [if_pos hnm, ha]; dsimp only; rw [has6_iff h6, decide_eq_true hc, Bool.true_or, if_pos rfl]
          rw [e1, if_pos hc]
          obtain ⟨a1, a2, a3, a4, a5, a6, a7, a8⟩ := ih hok' n h4 h6 hh z4 z6
          rw [if_pos hc] at a4
          exact ⟨a1, a2, a3, a4, a5, a6, a7, a8⟩
        · rw [if_neg hc]
          by_cases hll : linkLocal a
          · have e1 : addrNetif ia n = n := by
              unfold addrNetif; rw [if_pos hnm, ha]; dsimp only
              rw [(isLinkLocal_iff a).mpr hll, Bool.or_true, if_pos rfl]
            rw [e1, List.find?_cons_of_neg (by rw [decide_eq_true_eq]; exact fun h => h.2 hll)]
            obtain ⟨a1, a2, a3, a4, a5, a6, a7, a8⟩ := ih hok' n h4 h6 hh z4 z6
            rw [if_neg hc] at a4
            exact ⟨a1, a2, a3, a4, a5, a6, a7, a8⟩
          · have e1 : addrNetif ia n = { n with ipaddr6 := a } := by
              unfold addrNetif; rw [if_pos hnm, ha]; dsimp only
              rw [has6_iff h6, decide_eq_false hc, Bool.false_or,
                if_neg (by rw [isLinkLocal_iff]; exact hll)]
            rw [e1]
            obtain ⟨a1, a2, a3, a4, a5, a6, a7, a8⟩ := ih hok' { n with ipaddr6 := a } h4 hia hh z4
              (by intro h; have := (not_configured_iff a).mp h; rw [hia] at this; exact this)
            refine ⟨a1, a2, a3, ?_, a5, a6, a7, a8⟩
            rw [a4]
            dsimp only
            by_cases hca : configured a
            · rw [if_pos hca, List.find?_cons_of_pos (by rw [decide_eq_true_eq]; exact ⟨hca, hll⟩)]; rfl
            · rw [if_neg hca, List.find?_cons_of_neg (by rw [decide_eq_true_eq]; exact fun h => hca h.1)]; rfl
    · refine skip ?_ ?_ ?_ ?_
      · unfold addrNetif; rw [if_neg hnm]
      · unfold v4Of; rw [List.filterMap_cons_none (by split <;> simp [hnm])]
      · unfold v6Of; rw [List.filterMap_cons_none (by split <;> simp [hnm])]
      · unfold hwOf; rw [List.filterMap_cons_none (by split <;> simp [hnm])]

theorem inj_of_nodup_map {α β : Type} {f : α → β} {l : List α} (h : (l.map f).Nodup) {a b : α} (ha : a ∈ l) (hb : b ∈ l)
    (e : f a = f b) : a = b := by
  induction l with
  | nil => cases ha
  | cons x l ih =>
    rw [List.map_cons, List.nodup_cons] at h
    rcases List.mem_cons.mp ha with h1 | h1
    · rcases List.mem_cons.mp hb with h2 | h2
      · rw [h1, h2]
      · exact absurd (List.mem_map.mpr ⟨b, h2, by rw [← e, h1]⟩) h.1
    · rcases List.mem_cons.mp hb with h2 | h2
      · exact absurd (List.mem_map.mpr ⟨a, h1, by rw [e, h2]⟩) h.1
      · exact ih h.2 h1 h2

/-! ## The whole of netif_fetch -/

/-- The list after removal of the interfaces that were not reported. -/
def listed (k : Kernel) (olds : List Netif) (us : List Link) : List Netif :=
  olds.filterMap (fun o => (us.find? (fun e => e.index == o.index)).map (recordOf k (some o))) ++
    (us.filter (fun e => !(olds.map (·.index)).contains e.index)).map (recordOf k none)

theorem usables_kind {k : Kernel} {addrs : List IfAddr} {e : Link} (h : e ∈ usables k addrs) :
    e.kind = 1 ∨ e.kind = 0 ∨ e.kind = -1 ∨ e.kind = 12 ∨ e.kind = 11 ∨ e.kind = 13 ∨ e.kind = 2 := by
  obtain ⟨ia, _, hu⟩ := List.mem_filterMap.mp h
  unfold usable at hu
  split at hu
  · split at hu
    · obtain ⟨t, ht, rfl⟩ := Option.map_eq_some_iff.mp hu
      exact kindOf_cases ht
    · cases hu
  · cases hu

theorem afterLoop_filter (k : Kernel) (olds : List Netif) (us : List Link) (hk : ∀ e ∈ us, e.kind ≠ NETIF_OLD) :
    (afterLoop k olds us).filter (fun n => n.type != NETIF_OLD) = listed k olds us := by
  unfold afterLoop listed
  rw [List.filter_append]
  congr 1
  · induction olds with
    | nil => rfl
    | cons o olds ih =>
      rw [List.map_cons]
      cases hf : us.find? (fun e => e.index == o.index) with
      | none =>
        have e1 : afterOld k us o = { o with type := NETIF_OLD } := by unfold afterOld; rw [hf]
        rw [List.filterMap_cons_none (by rw [hf]; rfl), List.filter_cons_of_neg (by rw [e1]; exact Bool.false_ne_true)]
        exact ih
      | some e =>
        have e1 : afterOld k us o = recordOf k (some o) e := by unfold afterOld; rw [hf]
        rw [List.filterMap_cons_some (b := recordOf k (some o) e) (by rw [hf]; rfl), List.filter_cons_of_pos, e1, ih]
        rw [e1]
        have := hk e (List.mem_of_find?_eq_some hf)
        simpa [recordOf, freshNetif] using this
  · rw [List.filter_eq_self]
    intro n hn
    obtain ⟨e, he, rfl⟩ := List.mem_map.mp hn
    have := hk e (List.mem_filter.mp he).1
    simpa [recordOf, freshNetif] using this

theorem afterLoop_old (k : Kernel) (olds : List Netif) (us : List Link) (hk : ∀ e ∈ us, e.kind ≠ NETIF_OLD) :
    ((afterLoop k olds us).filter (fun n => n.type == NETIF_OLD)).map (·.index) =
      (olds.map (·.index)).filter (fun i => !(us.map (·.index)).contains i) := by
  unfold afterLoop
  rw [List.filter_append, List.map_append]
  have h2 : ((us.filter (fun e => !(olds.map (·.index)).contains e.index)).map (recordOf k none)).filter
      (fun n => n.type == NETIF_OLD) = [] := by
    rw [List.filter_eq_nil_iff]
    intro n hn
    obtain ⟨e, he, rfl⟩ := List.mem_map.mp hn
    have := hk e (List.mem_filter.mp he).1
    simpa [recordOf, freshNetif] using this
  rw [h2, List.map_nil, List.append_nil]
  clear h2
  induction olds with
  | nil => rfl
  | cons o olds ih =>
    rw [List.map_cons, List.map_cons]
    cases hf : us.find? (fun e => e.index == o.index) with
    | none =>
      have e1 : afterOld k us o = { o with type := NETIF_OLD } := by unfold afterOld; rw [hf]
      have hnm : (us.map (·.index)).contains o.index = false := by
        rw [List.find?_eq_none] at hf
        rw [List.contains_eq_mem, decide_eq_false_iff_not, List.mem_map]
        rintro ⟨e, he, hei⟩
        exact hf e he (by simpa using hei)
      rw [List.filter_cons_of_pos (by rw [e1]; exact beq_self_eq_true _), List.map_cons, ih,
        List.filter_cons_of_pos (a := o.index) (by rw [hnm]; rfl), e1]
    | some e =>
      have e1 : afterOld k us o = recordOf k (some o) e := by unfold afterOld; rw [hf]
      have hm := List.mem_of_find?_eq_some hf
      have hei : e.index = o.index := by simpa using List.find?_some hf
      have hnm : (us.map (·.index)).contains o.index = true := by
        rw [List.contains_eq_mem, decide_eq_true_iff]
        exact List.mem_map.mpr ⟨e, hm, hei⟩
      rw [List.filter_cons_of_neg, ih, List.filter_cons_of_neg (a := o.index) (by rw [hnm]; decide)]
      rw [e1]
      have := hk e hm
      simpa [recordOf, freshNetif] using this

theorem filterMap_index (k : Kernel) (olds : List Netif) (us : List Link) :
    (olds.filterMap (fun o => (us.find? (fun e => e.index == o.index)).map (recordOf k (some o)))).map (·.index) =
      (olds.map (·.index)).filter (fun i => (us.map (·.index)).contains i) := by
  induction olds with
  | nil => rfl
  | cons o olds ih =>
    rw [List.map_cons]
    cases hf : us.find? (fun e => e.index == o.index) with
    | none =>
      have hnm : (us.map (·.index)).contains o.index = false := by
        rw [List.find?_eq_none] at hf
        rw [List.contains_eq_mem, decide_eq_false_iff_not, List.mem_map]
        rintro ⟨e, he, hei⟩
        exact hf e he (by simpa using hei)
      rw [List.filterMap_cons_none (by rw [hf]; rfl), ih, List.filter_cons_of_neg (by rw [hnm]; decide)]
    | some e =>
      have hm := List.mem_of_find?_eq_some hf
      have hei : e.index = o.index := by simpa using List.find?_some hf
      have hnm : (us.map (·.index)).contains o.index = true := by
        rw [List.contains_eq_mem, decide_eq_true_iff]
        exact List.mem_map.mpr ⟨e, hm, hei⟩
      rw [List.filterMap_cons_some (b := recordOf k (some o) e) (by rw [hf]; rfl), List.map_cons, ih,
        List.filter_cons_of_pos hnm, recordOf_index, hei]

theorem listed_index (k : Kernel) (olds : List Netif) (us : List Link) :
    (listed k olds us).map (·.index) =
      (olds.map (·.index)).filter (fun i => (us.map (·.index)).contains i) ++
      (us.map (·.index)).filter (fun i => !(olds.map (·.index)).contains i) := by
  unfold listed
  rw [List.map_append, filterMap_index, List.map_map, List.filter_map (p := fun i => !(olds.map (·.index)).contains i)]
  rfl

theorem listed_index_nodup (k : Kernel) {olds : List Netif} {us : List Link} (ho : (olds.map (·.index)).Nodup)
    (hu : (us.map (·.index)).Nodup) : ((listed k olds us).map (·.index)).Nodup := by
  rw [listed_index, List.nodup_append]
  refine ⟨ho.filter _, hu.filter _, ?_⟩
  intro a ha b hb hab
  subst hab
  have h1 := (List.mem_filter.mp ha).1
  have h2 := (List.mem_filter.mp hb).2
  rw [List.contains_eq_mem, decide_eq_true h1] at h2
  cases h2

/-- Every record of the list comes from a reported interface. -/
theorem listed_record {k : Kernel} {olds : List Netif} {us : List Link} (ho : (olds.map (·.index)).Nodup) {n : Netif}
    (h : n ∈ listed k olds us) : ∃ e ∈ us, n = recordOf k (netifByIndex olds e.index) e := by
  unfold listed at h
  rw [List.mem_append] at h
  rcases h with h | h
  · obtain ⟨o, ho', he⟩ := List.mem_filterMap.mp h
    obtain ⟨e, hf, rfl⟩ := Option.map_eq_some_iff.mp he
    have hm := List.mem_of_find?_eq_some hf
    have hei : e.index = o.index := by simpa using List.find?_some hf
    refine ⟨e, hm, ?_⟩
    rw [hei, byIndex_of_mem ho ho']
  · obtain ⟨e, he, rfl⟩ := List.mem_map.mp h
    obtain ⟨hm, hc⟩ := List.mem_filter.mp he
    refine ⟨e, hm, ?_⟩
    have : netifByIndex olds e.index = none := byIndex_none.mpr (by
      intro hx
      rw [List.contains_eq_mem, decide_eq_true hx] at hc
      cases hc)
    rw [this]

/-- Distinct names give distinct names in the list. -/
theorem listed_name_nodup (k : Kernel) {olds : List Netif} {us : List Link} (ho : (olds.map (·.index)).Nodup)
    (hu : (us.map (·.index)).Nodup) (hn : (us.map (fun e => e.name.take 15)).Nodup) :
    ((listed k olds us).map (·.name)).Nodup := by
  have hi := listed_index_nodup k ho hu
  have hinj : ∀ a ∈ listed k olds us, ∀ b ∈ listed k olds us, a.name = b.name → a.index = b.index := by
    intro a ha b hb hab
    obtain ⟨e, he, rfl⟩ := listed_record ho ha
    obtain ⟨e', he', rfl⟩ := listed_record ho hb
    have : e.name.take 15 = e'.name.take 15 := hab
    have := inj_of_nodup_map hn he he' this
    rw [this]
  generalize listed k olds us = l at hi hinj
  induction l with
  | nil => exact List.nodup_nil
  | cons a l ih =>
    rw [List.map_cons, List.nodup_cons] at hi ⊢
    refine ⟨?_, ih hi.2 (fun x hx y hy => hinj x (List.mem_cons_of_mem _ hx) y (List.mem_cons_of_mem _ hy))⟩
    intro hx
    obtain ⟨b, hb, hba⟩ := List.mem_map.mp hx
    have := hinj b (List.mem_cons_of_mem _ hb) a List.mem_cons_self hba
    exact hi.1 (List.mem_map.mpr ⟨b, hb, this⟩)

end Ladvd
