import Verif.Lemmas.Keep
/-!
# The link event counter
-/

namespace Ladvd

open Spec

/-- The refresh keeps the counter of an interface that stays. -/
theorem linkOf_fetch (c : Conf) {k : Kernel} (h : Sane k) {addrs : List IfAddr} (ha : k.ifaddrs = some addrs) (d : Daemon)
    (hd : (d.child.netifs.map (·.index)).Nodup) {i : Nat} (hi : i ∈ (usables k addrs).map (·.index)) :
    linkOf (daemonFetch c k d).1 i = some ((linkOf d i).getD 0) := by
  obtain ⟨hM, hC⟩ := sane_consistent c h ha d hd
  obtain ⟨hok, -, -⟩ := sane_fetch h ha
  obtain ⟨e, he, hei⟩ := List.mem_map.mp hi
  obtain ⟨n, hn, hdes⟩ := hM.bwd e he
  obtain ⟨e', he', h1, -, -, -, -, h2⟩ :=
    Props.C40_record c.opts c.names c.mgmt k ⟨d.child.netifs, d.sys, d.mnetif, d.closed⟩ addrs ha hok hd n hn
  have hni : n.index = i := hdes.1.trans hei
  unfold linkOf
  rw [← hni, byIndex_of_mem hC.nodup hn, Option.map_some, h2, ← h1, withIndex_eq]

theorem linkOf_bare {d d' : Daemon} (h : d'.child.netifs.map bare = d.child.netifs.map bare) (i : Nat) : linkOf d' i = linkOf d i := by
  have : ∀ l : List Netif, (netifByIndex l i).map (·.linkEvent) = (netifByIndex (l.map bare) i).map (·.linkEvent) := by
    intro l
    rw [byIndex_map l bare (fun _ => rfl) i, Option.map_map]
    rfl
  unfold linkOf
  rw [this, this d.child.netifs, h]

/-- Counting visits. -/
theorem visits_round {c : Conf} {k : Kernel} {l : List Netif} (h : Consistent k l) (link : Option Nat) (i : Nat) :
    visits link (((netifTraverse c.opts l).map (·.index)).flatMap (visit c l)) i ≤ 2 := by
  unfold visits
  split
  · rw [Props.C29_traverse, visited_eq h _ (fun n hn => (List.mem_filter.mp hn).1)]
    exact visited_count h List.filter_sublist i
  · exact Nat.zero_le _

/-- Who is sent to was visited. -/
theorem visits_pos {c : Conf} {k : Kernel} {l : List Netif} (h : Consistent k l) {link : Option Nat} {i : Nat} {p : Proto}
    (hm : (i, p) ∈ ((netifTraverse c.opts l).map (·.index)).flatMap (planNetif c link l)) :
    0 < visits link (((netifTraverse c.opts l).map (·.index)).flatMap (visit c l)) i ∧ (link = none ∨ link = some i) := by
  rw [List.flatMap_map, List.mem_flatMap] at hm
  obtain ⟨n, hn, hx⟩ := hm
  have hnl : n ∈ l := by rw [Props.C29_traverse] at hn; exact (List.mem_filter.mp hn).1
  obtain ⟨hs, hj, hx⟩ := (planNetif_mem h hnl).mp hx
  have hlink := (planPort_mem.mp hx).2.1
  dsimp only at hlink hj
  refine ⟨?_, hlink⟩
  unfold visits
  rw [if_pos hlink, List.count_pos_iff, List.flatMap_map, List.mem_flatMap]
  refine ⟨n, hn, ?_⟩
  rw [visit_eq h hnl, if_neg (by rw [hs]; exact Bool.false_ne_true)]
  exact hj

/-- One event: the counter does not decrease, and an event that sends on `i` increases it from at most 3. -/
theorem flap_step {c : Conf} {d d' : Daemon} {e : Event} {i : Nat} (hg : Good d) (he : Steady i e) (h : daemonStep c d e = .ok d') :
    (linkOf d i).getD 0 ≤ (linkOf d' i).getD 0 ∧
    ((∃ t ∈ d'.tx.drop d.tx.length, t.index = i) → (linkOf d i).getD 0 ≤ 3 ∧ (linkOf d i).getD 0 < (linkOf d' i).getD 0) := by
  have hno : d'.tx = d.tx → ¬ ∃ t ∈ d'.tx.drop d.tx.length, t.index = i := by
    rintro h ⟨t, ht, -⟩
    rw [h, List.drop_length] at ht
    cases ht
  rcases step_bare h with ⟨k, m, now, d1, rfl, -⟩ | ⟨k, m, j, rfl, hr⟩ | ⟨-, -, hb, e⟩
  · exact he.elim
  · obtain ⟨hk, hin⟩ := he
    cases ha : k.ifaddrs with
    | none =>
      rcases sendRound_ok hr with ⟨rfl, -⟩ | ⟨rfl, -⟩ | ⟨hc, -⟩
      · exact ⟨Nat.le_refl _, fun h => absurd h (hno rfl)⟩
      · rw [daemonFetch_none c k d ha]
        rw [daemonFetch_none c k d ha] at hno
        exact ⟨Nat.le_refl _, fun h => absurd h (hno rfl)⟩
      · rw [daemonFetch_none c k d ha] at hc; exact absurd rfl hc
    | some addrs =>
      have hfetch := linkOf_fetch c hk ha d hg.nodup (hin addrs (by rw [ha]; exact List.mem_singleton.mpr rfl))
      obtain ⟨hM, hC⟩ := sane_consistent c hk ha d hg.nodup
      rcases sendRound_ok hr with ⟨rfl, -⟩ | ⟨rfl, -⟩ | ⟨-, hle, -, hsend⟩
      · exact ⟨Nat.le_refl _, fun h => absurd h (hno rfl)⟩
      · rw [hfetch]
        exact ⟨Nat.le_refl _, fun h => absurd h (hno rfl)⟩
      · obtain ⟨new, hs, hsub, -, -, hlink⟩ := sendNetifs_ok (mediaFun _) _ hsend
        have hv := visits_round (c := c) hC (some j) i
        rw [hlink i, hfetch, Option.map_some, Option.getD_some]
        generalize hvs : visits (some j) (((netifTraverse c.opts (daemonFetch c k d).1.child.netifs).map (·.index)).flatMap
          (visit c (daemonFetch c k d).1.child.netifs)) i = v at hv
        have hx : v ≠ 0 → (linkOf d i).getD 0 ≤ 3 := by
          intro hv0
          have hji : j = i := by
            unfold visits at hvs
            split at hvs
            · next hc =>
              rcases hc with hc | hc
              · cases hc
              · injection hc
            · exact absurd hvs.symm hv0
          subst hji
          cases hl : linkOf d j with
          | none => exact Nat.zero_le _
          | some x => exact hle j x rfl hl
        have hbump : bump (some j) v ((linkOf d i).getD 0) = (linkOf d i).getD 0 + v := by
          unfold bump
          by_cases hv0 : v = 0
          · rw [if_pos hv0, hv0, Nat.add_zero]
          · rw [if_neg hv0, if_neg (by intro h; cases h)]
            have := hx hv0
            omega
        rw [hbump]
        refine ⟨Nat.le_add_right _ _, ?_⟩
        rintro ⟨t, ht, hti⟩
        have htx : d'.tx = d.tx ++ new := hs.tx
        rw [htx, List.drop_left] at ht
        have hm : (i, t.proto) ∈ new.map key := List.mem_map.mpr ⟨t, ht, by rw [← hti]; rfl⟩
        have hpos := (visits_pos hC (hsub.subset hm)).1
        rw [hvs] at hpos
        exact ⟨hx (by omega), by omega⟩
  · rw [linkOf_bare hb i]
    exact ⟨Nat.le_refl _, fun h => absurd h (hno (by rw [e]))⟩

theorem steady_sane {i : Nat} {e : Event} (h : Steady i e) : SaneEvent e := by
  cases e with
  | timer => exact h.elim
  | link => exact h.1
  | _ => trivial

theorem bursts_le {c : Conf} {i : Nat} (es : List Event) : ∀ {d : Daemon}, Good d → (∀ e ∈ es, Steady i e) →
    bursts c i es d + min 4 ((linkOf d i).getD 0) ≤ 4 := by
  induction es with
  | nil => intro d _ _; rw [bursts]; omega
  | cons e es ih =>
    intro d hg hes
    rw [bursts]
    cases h : daemonStep c d e with
    | ok d' =>
      dsimp only
      have he := hes e List.mem_cons_self
      obtain ⟨h1, h2⟩ := flap_step hg he h
      have := ih (good_step hg (steady_sane he) h) (fun x hx => hes x (List.mem_cons_of_mem _ hx))
      split
      · next hb => have := h2 hb; omega
      · omega
    | fail => dsimp only; omega
    | oob => dsimp only; omega
    | abort => dsimp only; omega
    | stuck => dsimp only; omega

end Ladvd
