import Verif.Lemmas.Auto
import Verif.Lemmas.Vis
/-!
# Field sizes after a refresh
-/

namespace Ladvd

open Spec

/-- All records satisfy `P`. -/
def AllN (P : Netif → Prop) (l : List Netif) : Prop := ∀ n ∈ l, P n

theorem AllN.set {P : Netif → Prop} {l : List Netif} (h : AllN P l) (i : Nat) {f : Netif → Netif} (hf : ∀ n, P n → P (f n)) :
    AllN P (setNetif l i f) := by
  intro n hn
  unfold setNetif at hn
  obtain ⟨x, hx, rfl⟩ := List.mem_map.mp hn
  split
  · exact hf x (h x hx)
  · exact h x hx

theorem linkPorts_all {P : Netif → Prop} (hsub : ∀ n i, P n → P { n with subif := i }) (hpar : ∀ n i, P n → P { n with parent := i })
    (parent : Nat) (ps : List PortSpec) (hp : ∀ p ∈ ps, ∀ n, P n → P (p.2 n)) : ∀ (l : List Netif) (cur : Nat), AllN P l →
    AllN P (linkPorts parent ps l cur) := by
  induction ps with
  | nil => intro l cur h; exact h
  | cons p ps ih =>
    intro l cur h
    obtain ⟨look, f⟩ := p
    have ih := ih (fun q hq => hp q (List.mem_cons_of_mem _ hq))
    rw [linkPorts]
    split
    · split
      · apply ih
        unfold linkPort
        refine AllN.set (AllN.set h _ ?_) _ ?_
        · intro n hn; exact hpar _ _ (hp (look, f) List.mem_cons_self n hn)
        · intro n hn; exact hsub _ _ hn
      · exact ih _ _ h
    · exact ih _ _ h

theorem netifOk_child {n : Netif} (h : NetifOk n) {x : Nat} : NetifOk { n with child := x } := h

theorem detectOne_ok (k : Kernel) (l : List Netif) (i : Nat) (h : AllN NetifOk l) : AllN NetifOk (detectOne k l i) := by
  unfold detectOne
  split
  · exact h
  · next n hn =>
    split
    · unfold netifTeam
      split
      · exact h
      · next t _ =>
        dsimp only
        have h1 : AllN NetifOk (linkPorts n.index (t.ports.map (fun i =>
            ((fun (l : List Netif) => netifByIndex l i),
             fun (n : Netif) => { n with child := if t.mode % 256 = 2 then 2 else 1 })))
            (setNetif l n.index (fun n => { n with bondingMode := t.mode % 256 })) n.index) := by
          refine linkPorts_all (fun n i h => h) (fun n i h => h) _ _ ?_ _ _ ?_
          · intro p hp x hx
            obtain ⟨i, _, rfl⟩ := List.mem_map.mp hp
            exact hx
          · exact h.set _ (fun n hn => hn)
        generalize linkPorts n.index (t.ports.map (fun i =>
            ((fun (l : List Netif) => netifByIndex l i),
             fun (n : Netif) => { n with child := if t.mode % 256 = 2 then 2 else 1 })))
            (setNetif l n.index (fun n => { n with bondingMode := t.mode % 256 })) n.index = l1 at h1
        unfold teamActive
        split
        · split
          · exact h1.set _ (fun n hn => hn)
          · exact h1
        · exact h1
    · split
      · unfold netifBond
        split
        · exact h
        · dsimp only
          refine linkPorts_all (fun n i h => h) (fun n i h => h) _ _ ?_ _ _ ?_
          · intro p hp x hx
            obtain ⟨⟨s, i⟩, _, hs⟩ := List.mem_filterMap.mp hp
            cases s with
            | none => cases hs
            | some s =>
              dsimp only [Option.map_some] at hs
              injection hs with hs
              subst hs
              exact hx
          · exact h.set _ (fun n hn => hn)
      · split
        · unfold netifBridge
          split
          · exact h
          · refine linkPorts_all (fun n i h => h) (fun n i h => h) _ _ ?_ _ _ h
            intro p hp x hx
            obtain ⟨i, _, rfl⟩ := List.mem_map.mp hp
            exact hx
        · split
          · unfold netifVlan
            split
            · exact h
            · next vid _ =>
              split
              · exact h
              · refine h.set _ ?_
                intro x hx
                unfold NetifOk at hx ⊢
                refine ⟨hx.1, hx.2.1, hx.2.2.1, hx.2.2.2.1, hx.2.2.2.2.1, hx.2.2.2.2.2.1, hx.2.2.2.2.2.2.1, hx.2.2.2.2.2.2.2.1,
                  hx.2.2.2.2.2.2.2.2.1, ?_⟩
                dsimp only
                cases vid with
                | none => exact hx.2.2.2.2.2.2.2.2.2
                | some v => exact Nat.mod_lt _ (by decide)
          · split
            · unfold netifDeviceId
              split
              · exact h
              · refine h.set _ ?_
                intro x hx
                unfold NetifOk at hx ⊢
                refine ⟨hx.1, hx.2.1, hx.2.2.1, hx.2.2.2.1, ?_, hx.2.2.2.2.2.1, hx.2.2.2.2.2.2.1, hx.2.2.2.2.2.2.2.1,
                  hx.2.2.2.2.2.2.2.2.1, hx.2.2.2.2.2.2.2.2.2⟩
                dsimp only
                cases k.deviceId x.index with
                | none => exact hx.2.2.2.2.1
                | some d =>
                  refine ⟨by rw [Option.map_some, Option.getD_some, List.length_take]; omega, ?_⟩
                  intro c hc
                  exact cstr_ne_zero _ c (List.mem_of_mem_take hc)
            · exact h


theorem fresh_ok (k : Kernel) {e : Link} (he : e.index < 4294967296 ∧ e.name ≠ [] ∧ ∀ c ∈ e.name, c ≠ 0) (old : Option Netif)
    (ho : ∀ o, old = some o → NetifOk o) : NetifOk (freshNetif k e.index e.name e.kind old) := by
  unfold freshNetif
  unfold NetifOk
  dsimp only
  refine ⟨he.1, ⟨by rw [List.length_take]; omega, fun c hc => he.2.2 c (List.mem_of_mem_take hc)⟩, ?_, ?_, ?_, rfl, rfl, rfl,
    by decide, by decide⟩
  · cases h : e.name with
    | nil => exact absurd h he.2.1
    | cons a as => exact List.cons_ne_nil _ _
  · cases k.alias e.index with
    | none => exact ⟨Nat.zero_le _, fun _ h => nomatch h⟩
    | some d =>
      refine ⟨by rw [Option.map_some, Option.getD_some, List.length_take]; omega, ?_⟩
      intro c hc
      exact cstr_ne_zero _ c (List.mem_of_mem_take hc)
  · cases old with
    | none => exact ⟨Nat.zero_le _, fun _ h => nomatch h⟩
    | some o => exact (ho o rfl).2.2.2.2.1

theorem addLive_ok {k : Kernel} {l : List Netif} (h : AllN NetifOk l) {e : Link}
    (he : e.index < 4294967296 ∧ e.name ≠ [] ∧ ∀ c ∈ e.name, c ≠ 0) : AllN NetifOk (addLive k l e) := by
  have hf := fresh_ok k he (netifByIndex l e.index) (fun o ho => h o (byIndex_mem ho))
  unfold addLive
  dsimp only
  split
  · exact h.set _ (fun _ _ => hf)
  · intro n hn
    rcases List.mem_append.mp hn with hn | hn
    · exact h n hn
    · rw [List.mem_singleton.mp hn]; exact hf

theorem addrStep_ok (m : Mgmt) {s : List Netif × Option Nat} (h : AllN NetifOk s.1) {ia : IfAddr} (ha : AddrsOk [ia]) :
    AllN NetifOk (addrStep m s ia).1 := by
  have ha := ha ia (List.mem_singleton.mpr rfl)
  unfold addrStep
  split
  · exact h
  · split
    · exact h
    · split
      · next a hadr =>
        rw [hadr] at ha
        dsimp only at ha
        split
        · exact h
        · dsimp only
          have h1 : ∀ i, AllN NetifOk (setNetif s.1 i (fun n => { n with ipaddr4 := a })) := fun i =>
            h.set i (fun n hn => ⟨hn.1, hn.2.1, hn.2.2.1, hn.2.2.2.1, hn.2.2.2.2.1, hn.2.2.2.2.2.1, ha, hn.2.2.2.2.2.2.2⟩)
          split
          · exact h1 _
          · split <;> exact h1 _
      · next a hadr =>
        rw [hadr] at ha
        dsimp only at ha
        split
        · exact h
        · split
          · exact h
          · dsimp only
            have h1 : ∀ i, AllN NetifOk (setNetif s.1 i (fun n => { n with ipaddr6 := a })) := fun i =>
              h.set i (fun n hn => ⟨hn.1, hn.2.1, hn.2.2.1, hn.2.2.2.1, hn.2.2.2.2.1, hn.2.2.2.2.2.1, hn.2.2.2.2.2.2.1, ha,
                hn.2.2.2.2.2.2.2.2⟩)
            split
            · exact h1 _
            · split <;> exact h1 _
      · next hadr =>
        rw [hadr] at ha
        dsimp only at ha
        exact h.set _ (fun n hn => ⟨hn.1, hn.2.1, hn.2.2.1, hn.2.2.2.1, hn.2.2.2.2.1,
          (by show (List.take 6 _).length = 6; rw [List.length_take]; omega), hn.2.2.2.2.2.2⟩)
      · exact h

theorem addr_fold_ok (m : Mgmt) (addrs : List IfAddr) (ha : AddrsOk addrs) : ∀ {s : List Netif × Option Nat},
    AllN NetifOk s.1 → AllN NetifOk (addrs.foldl (addrStep m) s).1 := by
  induction addrs with
  | nil => intro s h; exact h
  | cons ia addrs ih =>
    intro s h
    rw [List.foldl_cons]
    refine ih (fun x hx => ha x (List.mem_cons_of_mem _ hx)) (addrStep_ok m h ?_)
    intro x hx
    rw [List.mem_singleton.mp hx]
    exact ha ia List.mem_cons_self

theorem markArgs_ok (names : List Bytes) (l : List Netif) (h : AllN NetifOk l) : AllN NetifOk (markArgs names l).1 := by
  unfold markArgs
  have : ∀ (names : List Bytes) (s : List Netif × Nat), AllN NetifOk s.1 →
      AllN NetifOk (names.foldl (fun s name =>
        match netifByName s.1 name with
        | none => s
        | some n => if n.type = NETIF_VLAN then s
                    else (setNetif s.1 n.index (fun n => { n with argv := 1 }), s.2 + 1)) s).1 := by
    intro names
    induction names with
    | nil => intro s h; exact h
    | cons a names ih =>
      intro s h
      rw [List.foldl_cons]
      apply ih
      split
      · exact h
      · split
        · exact h
        · exact h.set _ (fun n hn => hn)
  exact this names (l, 0) h

/-- After a refresh all records fit their fields. -/
theorem fetch_ok (o : Opts) (names : List Bytes) (m : Mgmt) (k : Kernel) (s : Ifs)
    (hl : ∀ addrs, k.ifaddrs = some addrs → LinksOk k addrs ∧ AddrsOk addrs) (h : AllN NetifOk s.netifs) :
    AllN NetifOk (netifFetch o names m k s).1.netifs := by
  unfold netifFetch
  split
  · exact h
  · next addrs haddrs =>
    obtain ⟨hl, ha⟩ := hl addrs haddrs
    dsimp only
    obtain ⟨f1, -, -⟩ := fetch_fold k m addrs ⟨s.netifs.map (fun n => { n with type := NETIF_OLD }),
      { s.sys with cap := s.sys.cap &&& 12, capActive := s.sys.capActive &&& 12, physifCount := 0 }, s.mnetif, 0⟩
    generalize addrs.foldl (fetchStep k m) ⟨s.netifs.map (fun n => { n with type := NETIF_OLD }),
      { s.sys with cap := s.sys.cap &&& 12, capActive := s.sys.capActive &&& 12, physifCount := 0 }, s.mnetif, 0⟩ = a at f1 ⊢
    dsimp only at f1
    have h0 : AllN NetifOk (s.netifs.map (fun n => { n with type := NETIF_OLD })) := by
      intro n hn
      obtain ⟨x, hx, rfl⟩ := List.mem_map.mp hn
      exact h x hx
    have hfold : ∀ (us : List Link), (∀ e ∈ us, e.index < 4294967296 ∧ e.name ≠ [] ∧ ∀ c ∈ e.name, c ≠ 0) →
        ∀ l, AllN NetifOk l → AllN NetifOk (us.foldl (addLive k) l) := by
      intro us
      induction us with
      | nil => intro _ l h; exact h
      | cons e us ih =>
        intro hus l h
        rw [List.foldl_cons]
        exact ih (fun x hx => hus x (List.mem_cons_of_mem _ hx)) _ (addLive_ok h (hus e List.mem_cons_self))
    have h1 : AllN NetifOk (a.netifs.filter (fun n => n.type != NETIF_OLD)) := by
      intro n hn
      rw [f1] at hn
      exact hfold _ hl _ h0 n (List.mem_filter.mp hn).1
    generalize a.netifs.filter (fun n => n.type != NETIF_OLD) = L at h1
    generalize (if (a.netifs.filter (fun n => n.type == NETIF_OLD)).any (fun n => a.mnetif == some n.index) then none
        else a.mnetif) = mn
    have h2 : AllN NetifOk ((L.map (·.index)).foldl (detectOne k) L) := by
      have : ∀ (is : List Nat) (l : List Netif), AllN NetifOk l → AllN NetifOk (is.foldl (detectOne k) l) := by
        intro is
        induction is with
        | nil => intro l h; exact h
        | cons i is ih => intro l h; rw [List.foldl_cons]; exact ih _ (detectOne_ok k l i h)
      exact this _ _ h1
    generalize (L.map (·.index)).foldl (detectOne k) L = D at h2
    have h3 : AllN NetifOk (netifAddrs o m addrs D mn).1 := by
      unfold netifAddrs
      dsimp only
      have hA := addr_fold_ok m addrs ha (s := (D, mn)) h2
      generalize addrs.foldl (addrStep m) (D, mn) = A at hA
      split
      · exact hA
      · split
        · exact hA
        · next x hx =>
          have hx' : NetifOk x := by
            cases e : A.2 with
            | none => rw [e] at hx; cases hx
            | some i => rw [e] at hx; exact hA x (byIndex_mem hx)
          intro n hn
          dsimp only at hn
          obtain ⟨y, hy, rfl⟩ := List.mem_map.mp hn
          have hy := hA y hy
          exact ⟨hy.1, hy.2.1, hy.2.2.1, hy.2.2.2.1, hy.2.2.2.2.1, hy.2.2.2.2.2.1, hx'.2.2.2.2.2.2.1, hx'.2.2.2.2.2.2.2.1,
            hy.2.2.2.2.2.2.2.2⟩
    generalize netifAddrs o m addrs D mn = A at h3 ⊢
    by_cases hnm : names = []
    · rw [if_pos hnm]
      exact h3
    · rw [if_neg hnm]
      exact markArgs_ok names A.1 h3

end Ladvd
