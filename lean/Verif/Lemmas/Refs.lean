import Verif.Lemmas.Refresh
/-!
# References between interfaces, for arbitrary answers of the kernel
-/

namespace Ladvd

open Spec

/-- All references of the list lead to interfaces of the list. -/
structure Refs (s : Ifs) : Prop where
  nodup : (s.netifs.map (·.index)).Nodup
  parent : ∀ n ∈ s.netifs, ∀ i, n.parent = some i → i ∈ s.netifs.map (·.index)
  subif : ∀ n ∈ s.netifs, ∀ i, n.subif = some i → i ∈ s.netifs.map (·.index)
  mnetif : ∀ i, s.mnetif = some i → i ∈ s.netifs.map (·.index)

theorem addLive_index {k : Kernel} {l : List Netif} {e : Link} :
    ((addLive k l e).map (·.index) = l.map (·.index) ∧ e.index ∈ l.map (·.index)) ∨
    ((addLive k l e).map (·.index) = l.map (·.index) ++ [e.index] ∧ e.index ∉ l.map (·.index)) := by
  unfold addLive
  dsimp only
  cases h : netifByIndex l e.index with
  | none =>
    right
    dsimp only
    rw [List.map_append]
    exact ⟨rfl, byIndex_none.mp h⟩
  | some o =>
    left
    dsimp only
    refine ⟨?_, List.mem_map.mpr ⟨o, byIndex_mem h, byIndex_index h⟩⟩
    unfold setNetif
    rw [List.map_map]
    apply List.map_congr_left
    intro n _
    simp only [Function.comp_apply]
    split
    · rename_i hn; rw [hn]; rfl
    · rfl

/-- Invariant of the detection loop. -/
structure LoopInv (l : List Netif) (mn : Option Nat) : Prop where
  nodup : (l.map (·.index)).Nodup
  fresh : ∀ n ∈ l, n.type ≠ NETIF_OLD → n.parent = none ∧ n.subif = none
  mnetif : ∀ i, mn = some i → i ∈ l.map (·.index)

theorem addLive_inv {k : Kernel} {l : List Netif} {mn : Option Nat} (h : LoopInv l mn) (e : Link) (m : Mgmt) :
    LoopInv (addLive k l e) (if m.mifname = some (e.name.take 15) then some e.index else mn) := by
  have hi := addLive_index (k := k) (l := l) (e := e)
  have hsub : ∀ i, i ∈ l.map (·.index) ∨ i = e.index → i ∈ (addLive k l e).map (·.index) := by
    intro i hx
    rcases hi with ⟨h1, h2⟩ | ⟨h1, h2⟩
    · rw [h1]; rcases hx with hx | rfl
      · exact hx
      · exact h2
    · rw [h1]; rcases hx with hx | rfl
      · exact List.mem_append_left _ hx
      · exact List.mem_append_right _ (List.mem_singleton.mpr rfl)
  refine ⟨?_, ?_, ?_⟩
  · rcases hi with ⟨h1, h2⟩ | ⟨h1, h2⟩
    · rw [h1]; exact h.nodup
    · rw [h1, List.nodup_append]
      refine ⟨h.nodup, List.nodup_cons.mpr ⟨List.not_mem_nil, List.nodup_nil⟩, ?_⟩
      intro a ha b hb hab
      rw [List.mem_singleton.mp hb] at hab
      exact h2 (hab ▸ ha)
  · intro n hn ht
    unfold addLive at hn
    dsimp only at hn
    split at hn
    · unfold setNetif at hn
      obtain ⟨x, hx, rfl⟩ := List.mem_map.mp hn
      split at ht
      · rename_i hxe; rw [if_pos hxe]; exact ⟨rfl, rfl⟩
      · rename_i hxe; rw [if_neg hxe]; exact h.fresh x hx ht
    · rcases List.mem_append.mp hn with hn | hn
      · exact h.fresh n hn ht
      · rw [List.mem_singleton.mp hn]; exact ⟨rfl, rfl⟩
  · intro i hx
    split at hx
    · exact hsub i (.inr (Option.some.inj hx).symm)
    · exact hsub i (.inl (h.mnetif i hx))

theorem loop_inv {k : Kernel} {m : Mgmt} (us : List Link) {l : List Netif} {mn : Option Nat} (h : LoopInv l mn) :
    LoopInv (us.foldl (addLive k) l)
      (us.foldl (fun mn e => if m.mifname = some (e.name.take 15) then some e.index else mn) mn) := by
  induction us generalizing l mn with
  | nil => exact h
  | cons e us ih =>
    rw [List.foldl_cons, List.foldl_cons]
    exact ih (addLive_inv h e m)

/-- Links lead to the indexes `I`. -/
def LinksIn (I : List Nat) (l : List Netif) : Prop :=
  ∀ n ∈ l, (∀ i, n.parent = some i → i ∈ I) ∧ (∀ i, n.subif = some i → i ∈ I)

theorem linksIn_set {I : List Nat} {l : List Netif} (h : LinksIn I l) (i : Nat) (f : Netif → Netif)
    (hf : ∀ n, ((f n).parent = n.parent ∨ ∃ j ∈ I, (f n).parent = some j) ∧
               ((f n).subif = n.subif ∨ ∃ j ∈ I, (f n).subif = some j)) : LinksIn I (setNetif l i f) := by
  intro n hn
  unfold setNetif at hn
  obtain ⟨x, hx, rfl⟩ := List.mem_map.mp hn
  split
  · obtain ⟨hp, hs⟩ := hf x
    refine ⟨fun j hj => ?_, fun j hj => ?_⟩
    · rcases hp with hp | ⟨y, hy, hp⟩
      · exact (h x hx).1 j (hp ▸ hj)
      · rw [hp] at hj; rw [← Option.some.inj hj]; exact hy
    · rcases hs with hs | ⟨y, hy, hs⟩
      · exact (h x hx).2 j (hs ▸ hj)
      · rw [hs] at hj; rw [← Option.some.inj hj]; exact hy
  · exact h x hx

/-- Port specifications that leave the links alone. -/
def Keeps (ps : List PortSpec) : Prop := ∀ p ∈ ps, ∀ n, (p.2 n).parent = n.parent ∧ (p.2 n).subif = n.subif

theorem linkPorts_linksIn {parent : Nat} {ps : List PortSpec} (hg : GoodSpecs ps) (hkp : Keeps ps) {l : List Netif} {cur : Nat}
    {I : List Nat} (hI : l.map (·.index) = I) (hpar : parent ∈ I) (h : LinksIn I l) :
    LinksIn I (linkPorts parent ps l cur) := by
  induction ps generalizing l cur with
  | nil => exact h
  | cons p ps ih =>
    obtain ⟨look, f⟩ := p
    have hg' : GoodSpecs ps := ⟨fun q hq => hg.1 q (List.mem_cons_of_mem _ hq), fun q hq => hg.2 q (List.mem_cons_of_mem _ hq)⟩
    have hkp' : Keeps ps := fun q hq => hkp q (List.mem_cons_of_mem _ hq)
    have ih' := fun {l cur} => ih (l := l) (cur := cur) hg' hkp'
    unfold linkPorts
    split
    · rename_i s hs
      have hsl := hg.2 (look, f) List.mem_cons_self l s hs
      split
      · refine ih' ?_ ?_
        · rw [map_index_of_core (linkPort_core (hg.1 (look, f) List.mem_cons_self).2 l cur s.index)]; exact hI
        · unfold linkPort
          refine linksIn_set (linksIn_set h _ _ ?_) _ _ ?_
          · intro n
            exact ⟨.inr ⟨parent, hpar, rfl⟩, .inl (hkp (look, f) List.mem_cons_self n).2⟩
          · intro n
            exact ⟨.inl rfl, .inr ⟨s.index, hI ▸ List.mem_map.mpr ⟨s, hsl, rfl⟩, rfl⟩⟩
      · exact ih' hI h
    · exact ih' hI h

theorem set_index (l : List Netif) (i : Nat) (f : Netif → Netif) (hf : ∀ n, core (f n) = core n) :
    (setNetif l i f).map (·.index) = l.map (·.index) :=
  map_index_of_core (setNetif_map core f l i hf)

theorem detectOne_linksIn (k : Kernel) {l : List Netif} {i : Nat} {I : List Nat} (hI : l.map (·.index) = I)
    (h : LinksIn I l) : LinksIn I (detectOne k l i) := by
  have hid : ∀ (l : List Netif), LinksIn I l → ∀ (i : Nat) (f : Netif → Netif),
      (∀ n, (f n).parent = n.parent ∧ (f n).subif = n.subif) → LinksIn I (setNetif l i f) :=
    fun l h i f hf => linksIn_set h i f (fun n => ⟨.inl (hf n).1, .inl (hf n).2⟩)
  unfold detectOne
  split
  · exact h
  · rename_i n hn
    have hpar : n.index ∈ I := hI ▸ List.mem_map.mpr ⟨n, byIndex_mem hn, rfl⟩
    split
    · unfold netifTeam
      split
      · exact h
      · rename_i t _
        dsimp only
        have h1 : LinksIn I (setNetif l n.index (fun n => { n with bondingMode := t.mode % 256 })) :=
          hid l h _ _ (fun _ => ⟨rfl, rfl⟩)
        have h2 : LinksIn I (linkPorts n.index (teamSpecs t.mode t.ports)
            (setNetif l n.index (fun n => { n with bondingMode := t.mode % 256 })) n.index) := by
          refine linkPorts_linksIn (teamSpecs_good t.mode t.ports) ?_ ?_ hpar h1
          · intro p hp x
            obtain ⟨i, _, rfl⟩ := List.mem_map.mp hp
            exact ⟨rfl, rfl⟩
          · rw [← hI]; exact set_index l _ _ (by intro n; rfl)
        have h3 : ∀ l, LinksIn I l → LinksIn I (teamActive t l) := by
          intro l hl
          unfold teamActive
          split
          · split
            · exact hid l hl _ _ (fun _ => ⟨rfl, rfl⟩)
            · exact hl
          · exact hl
        exact h3 _ h2
    · split
      · unfold netifBond
        split
        · exact h
        · rename_i b _
          dsimp only
          refine linkPorts_linksIn (bondSpecs_good b.slaves) ?_ ?_ hpar (hid l h _ _ (fun _ => ⟨rfl, rfl⟩))
          · intro p hp x
            obtain ⟨⟨s, i⟩, _, he⟩ := List.mem_filterMap.mp hp
            cases s with
            | none => cases he
            | some s =>
              simp only [Option.map_some, Option.some.injEq] at he
              subst he
              exact ⟨rfl, rfl⟩
          · rw [← hI]; exact set_index l _ _ (by intro n; rfl)
      · split
        · unfold netifBridge
          split
          · exact h
          · rename_i is _
            refine linkPorts_linksIn (bridgeSpecs_good is) ?_ hI hpar h
            intro p hp x
            obtain ⟨i, _, rfl⟩ := List.mem_map.mp hp
            exact ⟨rfl, rfl⟩
        · split
          · unfold netifVlan
            split
            · exact h
            · split
              · exact h
              · exact hid l h _ _ (fun _ => ⟨rfl, rfl⟩)
          · split
            · unfold netifDeviceId
              split
              · exact h
              · exact hid l h _ _ (fun _ => ⟨rfl, rfl⟩)
            · exact h

theorem detect_fold_linksIn (k : Kernel) (is : List Nat) {l : List Netif} {I : List Nat} (hI : l.map (·.index) = I)
    (h : LinksIn I l) : LinksIn I (is.foldl (detectOne k) l) := by
  induction is generalizing l with
  | nil => exact h
  | cons i is ih =>
    rw [List.foldl_cons]
    exact ih ((map_index_of_core (detectOne_core k l i)).trans hI) (detectOne_linksIn k hI h)

theorem setNetif_ident (f : Netif → Netif) (hf : ∀ n, ident (f n) = ident n) (l : List Netif) (i : Nat) :
    (setNetif l i f).map ident = l.map ident := setNetif_map ident f l i hf

theorem addrStep_ident (m : Mgmt) (s : List Netif × Option Nat) (ia : IfAddr) :
    (addrStep m s ia).1.map ident = s.1.map ident := by
  unfold addrStep
  split
  · rfl
  · split
    · rfl
    · split
      · split
        · rfl
        · dsimp only
          split
          · exact setNetif_ident _ (by intro n; rfl) _ _
          · split <;> exact setNetif_ident _ (by intro n; rfl) _ _
      · split
        · rfl
        · split
          · rfl
          · dsimp only
            split
            · exact setNetif_ident _ (by intro n; rfl) _ _
            · split <;> exact setNetif_ident _ (by intro n; rfl) _ _
      · exact setNetif_ident _ (by intro n; rfl) _ _
      · rfl

theorem addrStep_mnIn (m : Mgmt) {s : List Netif × Option Nat} {I : List Nat} (hI : s.1.map (·.index) = I)
    (h : ∀ i, s.2 = some i → i ∈ I) (ia : IfAddr) : ∀ i, (addrStep m s ia).2 = some i → i ∈ I := by
  unfold addrStep
  split
  · exact h
  · split
    · exact h
    · rename_i n hn
      have hin : n.index ∈ I := hI ▸ List.mem_map.mpr ⟨n, byName_mem hn, rfl⟩
      have hs : ∀ i, some n.index = some i → i ∈ I := fun i e => Option.some.inj e ▸ hin
      split
      · split
        · exact h
        · dsimp only
          split
          · exact h
          · split
            · exact hs
            · exact h
      · split
        · exact h
        · split
          · exact h
          · dsimp only
            split
            · exact h
            · split
              · exact hs
              · exact h
      · exact h
      · exact h

theorem index_of_ident {l l' : List Netif} (h : l'.map ident = l.map ident) : l'.map (·.index) = l.map (·.index) :=
  map_index_of_core (core_of_ident h)

theorem linksIn_ident {I : List Nat} {l l' : List Netif} (h : l'.map ident = l.map ident) (hl : LinksIn I l) : LinksIn I l' := by
  intro n hn
  obtain ⟨n0, h0, e⟩ := mem_of_ident h hn
  have hlk : links n0 = links n := congrArg Prod.snd e
  have h1 : n0.parent = n.parent := congrArg (fun x => x.2.1) hlk
  have h2 : n0.subif = n.subif := congrArg (fun x => x.1) hlk
  rw [← h1, ← h2]
  exact hl n0 h0

theorem addr_fold_in (m : Mgmt) (addrs : List IfAddr) {s : List Netif × Option Nat} {I : List Nat} (hI : s.1.map (·.index) = I)
    (h : ∀ i, s.2 = some i → i ∈ I) :
    (addrs.foldl (addrStep m) s).1.map ident = s.1.map ident ∧ ∀ i, (addrs.foldl (addrStep m) s).2 = some i → i ∈ I := by
  induction addrs generalizing s with
  | nil => exact ⟨rfl, h⟩
  | cons ia addrs ih =>
    rw [List.foldl_cons]
    have h1 := addrStep_ident m s ia
    obtain ⟨a, b⟩ := ih (s := addrStep m s ia) ((index_of_ident h1).trans hI) (addrStep_mnIn m hI h ia)
    exact ⟨a.trans h1, b⟩

theorem netifAddrs_in (o : Opts) (m : Mgmt) (addrs : List IfAddr) (l : List Netif) (mn : Option Nat) {I : List Nat}
    (hI : l.map (·.index) = I) (h : ∀ i, mn = some i → i ∈ I) :
    (netifAddrs o m addrs l mn).1.map ident = l.map ident ∧ ∀ i, (netifAddrs o m addrs l mn).2 = some i → i ∈ I := by
  unfold netifAddrs
  obtain ⟨h1, h2⟩ := addr_fold_in m addrs (s := (l, mn)) hI h
  dsimp only
  split
  · exact ⟨h1, h2⟩
  · split
    · exact ⟨h1, h2⟩
    · refine ⟨?_, h2⟩
      dsimp only
      rw [List.map_map, ← h1]
      rfl

theorem markArgs_ident (names : List Bytes) (l : List Netif) : (markArgs names l).1.map ident = l.map ident := by
  unfold markArgs
  have : ∀ (names : List Bytes) (s : List Netif × Nat),
      (names.foldl (fun s name =>
        match netifByName s.1 name with
        | none => s
        | some n => if n.type = NETIF_VLAN then s
                    else (setNetif s.1 n.index (fun n => { n with argv := 1 }), s.2 + 1)) s).1.map ident = s.1.map ident := by
    intro names
    induction names with
    | nil => intro s; rfl
    | cons a names ih =>
      intro s
      rw [List.foldl_cons, ih]
      split
      · rfl
      · split
        · rfl
        · exact setNetif_ident _ (by intro n; rfl) _ _
  exact this names (l, 0)

/-- A refresh keeps all references valid, whatever the kernel answers. -/
theorem refs_fetch (o : Opts) (names : List Bytes) (m : Mgmt) (k : Kernel) {s : Ifs} (h : Refs s) :
    Refs (netifFetch o names m k s).1 := by
  unfold netifFetch
  split
  · exact h
  · rename_i addrs _
    dsimp only
    obtain ⟨f1, -, f3⟩ := fetch_fold k m addrs ⟨s.netifs.map (fun n => { n with type := NETIF_OLD }),
      { s.sys with cap := s.sys.cap &&& 12, capActive := s.sys.capActive &&& 12, physifCount := 0 }, s.mnetif, 0⟩
    generalize addrs.foldl (fetchStep k m) ⟨s.netifs.map (fun n => { n with type := NETIF_OLD }),
      { s.sys with cap := s.sys.cap &&& 12, capActive := s.sys.capActive &&& 12, physifCount := 0 }, s.mnetif, 0⟩ = a at f1 f3 ⊢
    dsimp only at f1 f3
    have h0 : LoopInv (s.netifs.map (fun n => { n with type := NETIF_OLD })) s.mnetif := by
      have e : (s.netifs.map (fun n => { n with type := NETIF_OLD })).map (·.index) = s.netifs.map (·.index) := by
        rw [List.map_map]; rfl
      refine ⟨by rw [e]; exact h.nodup, ?_, by rw [e]; exact h.mnetif⟩
      intro n hn ht
      obtain ⟨x, _, rfl⟩ := List.mem_map.mp hn
      exact absurd rfl ht
    have h1 := loop_inv (k := k) (m := m) (addrs.filterMap (usable k)) h0
    rw [← f1, ← f3] at h1
    -- removal of the old interfaces
    generalize hL : a.netifs.filter (fun n => n.type != NETIF_OLD) = L
    generalize hM : (if (a.netifs.filter (fun n => n.type == NETIF_OLD)).any (fun n => a.mnetif == some n.index) then none
      else a.mnetif) = mn
    have hLn : (L.map (·.index)).Nodup := by
      rw [← hL]
      exact (List.Sublist.map _ List.filter_sublist).nodup h1.nodup
    have hLl : LinksIn (L.map (·.index)) L := by
      intro n hn
      rw [← hL] at hn
      obtain ⟨hm, ht⟩ := List.mem_filter.mp hn
      have := h1.fresh n hm (by simpa using ht)
      rw [this.1, this.2]
      exact ⟨fun _ e => (nomatch e), fun _ e => (nomatch e)⟩
    have hmn : ∀ i, mn = some i → i ∈ L.map (·.index) := by
      intro i hi
      rw [← hM] at hi
      split at hi
      · cases hi
      · rename_i hany
        have := h1.mnetif i hi
        obtain ⟨n, hn, hni⟩ := List.mem_map.mp this
        refine List.mem_map.mpr ⟨n, ?_, hni⟩
        rw [← hL]
        refine List.mem_filter.mpr ⟨hn, ?_⟩
        rw [bne_iff_ne]
        intro ht
        apply hany
        rw [List.any_eq_true]
        exact ⟨n, List.mem_filter.mpr ⟨hn, by simpa using ht⟩, by rw [hi, hni]; exact beq_self_eq_true _⟩
    -- settings
    have hDi : ((L.map (·.index)).foldl (detectOne k) L).map (·.index) = L.map (·.index) :=
      map_index_of_core (detect_fold_core k _ L)
    have hDl := detect_fold_linksIn k (L.map (·.index)) (l := L) rfl hLl
    generalize (L.map (·.index)).foldl (detectOne k) L = D at hDi hDl
    -- addresses
    obtain ⟨hA, hAm⟩ := netifAddrs_in o m addrs D mn hDi hmn
    generalize netifAddrs o m addrs D mn = A at hA hAm ⊢
    -- marks
    have hfin : ∀ l' : List Netif, l'.map ident = D.map ident → ∀ sys cl, Refs ⟨l', sys, A.2, cl⟩ := by
      intro l' hl' sys cl
      have e : l'.map (·.index) = L.map (·.index) := (index_of_ident hl').trans hDi
      have hin := linksIn_ident hl' hDl
      rw [← e] at hin hAm
      exact ⟨by rw [e]; exact hLn, fun n hn => (hin n hn).1, fun n hn => (hin n hn).2, hAm⟩
    by_cases hnm : names = []
    · rw [if_pos hnm]
      exact hfin _ hA _ _
    · rw [if_neg hnm]
      exact hfin _ ((markArgs_ident names A.1).trans hA) _ _

end Ladvd
