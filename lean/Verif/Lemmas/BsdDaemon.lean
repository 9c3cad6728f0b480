import Verif.Spec.BsdDaemon
import Verif.Lemmas.Bsd
import Verif.Lemmas.BsdLink
import Verif.Lemmas.Keep
/-!
# The daemon on FreeBSD as the daemon with translated answers
-/

namespace Ladvd

open Spec

theorem portsAt_asLinux {k : BsdKernel} {addrs : List BIfAddr} (hok : BsdOk k addrs) {e : Link} (he : e ∈ bsdUsables k addrs) :
    portsAt (asLinux k addrs) (bsdUsables k addrs) e = bsdPortsAt k (bsdUsables k addrs) e := by
  unfold portsAt bsdPortsAt
  dsimp only
  congr 2
  by_cases h11 : e.kind = 11
  · rw [if_pos h11, if_neg (by omega), if_neg (by omega)]
    rfl
  · rw [if_neg h11]
    by_cases h12 : e.kind = 12
    · rw [if_pos h12, if_pos h12]
      dsimp only [asLinux]
      cases k.lagg e.name with
      | none => rfl
      | some g =>
        rw [Option.map_some]
        dsimp only
        refine congrArg (List.filterMap id) ?_
        generalize g.ports.take 32 = ps
        induction ps with
        | nil => rfl
        | cons p ps ih =>
          rw [List.map_cons, List.filterMap_cons_some (f := id) (a := some (p.1, decide (p.2 &&& 4 = 0))) rfl, List.map_cons, ih]
          rfl
    · rw [if_neg h12, if_neg h12]
      by_cases h13 : e.kind = 13
      · rw [if_pos h13, if_pos h13]
        dsimp only [asLinux]
        cases hg : k.members e.name with
        | none => rfl
        | some ms =>
          rw [Option.map_some]
          dsimp only
          have hlen := hok.bridge e he ms (by rw [hg]; exact List.mem_singleton.mpr rfl)
          rw [List.take_of_length_le (Nat.le_trans (List.length_filterMap_le _ _) hlen), Option.getD_some]
          clear hlen hg
          induction ms with
          | nil => rfl
          | cons s ms ih =>
            cases hl : linkNamed (bsdUsables k addrs) s with
            | none =>
              rw [List.filterMap_cons_none (by rw [hl]; rfl), ih, List.map_cons, hl, List.filterMap_cons_none (f := id) (a := none) rfl]
            | some x =>
              have hx : x ∈ bsdUsables k addrs := by
                unfold linkNamed at hl
                exact (List.mem_filter.mp (List.mem_of_mem_head? hl)).1
              rw [List.filterMap_cons_some (b := x.index) (by rw [hl]; rfl), List.map_cons, List.map_cons, linkAt_of_mem hok.index hx, hl,
                List.filterMap_cons_some (f := id) (a := some x) rfl, List.filterMap_cons_some (f := id) (a := some x) rfl, ih]
      · rw [if_neg h13, if_neg h13]
        rfl

/-- The answers of a FreeBSD kernel, if it gives any, in the terms of the Linux model. -/
def asKernel (k : BsdKernel) : Kernel :=
  match k.ifaddrs with
  | none => { ifaddrs := none }
  | some addrs => asLinux k addrs

theorem sane_asKernel {k : BsdKernel} (h : BsdSane k) : Sane (asKernel k) := by
  unfold asKernel
  cases ha : k.ifaddrs with
  | none => intro addrs hm; cases hm
  | some addrs =>
    obtain ⟨hok, hl, hp⟩ := h addrs (by rw [ha]; exact List.mem_singleton.mpr rfl)
    intro addrs' hm
    rw [show (asLinux k addrs).ifaddrs = some (addrs.map asIfAddr) from rfl] at hm
    obtain rfl := List.mem_singleton.mp hm
    refine ⟨listOk_asLinux hok, ?_, ?_⟩
    · unfold LinksOk
      rw [usables_asLinux]
      exact hl
    · unfold AggregatesOk
      rw [usables_asLinux]
      intro e he
      refine ⟨?_, ?_, ?_⟩
      · rw [portsAt_asLinux hok he]; exact (hp e he).1
      · intro e' he' m
        rw [portsAt_asLinux hok he, portsAt_asLinux hok he']
        exact (hp e he).2 e' he' m
      · intro t ht; cases ht

/-- An event of the daemon on FreeBSD in the terms of the Linux model. -/
def asEvent : BsdEvent → Event
  | .timer k m now => .timer (asKernel k) { bsd := some m } now
  | .route k m got =>
      match routeLink got with
      | some i => .link (asKernel k) { bsd := some m } true true i
      | none => .link (asKernel k) { bsd := some m } false false 0
  | .recv now r => .recv now r
  | .accept => .accept
  | .write sid ws => .write sid ws

theorem sane_asEvent {e : BsdEvent} (h : BsdSaneEvent e) : SaneEvent (asEvent e) := by
  cases e with
  | timer k m now => exact sane_asKernel h
  | route k m got =>
    unfold asEvent
    dsimp only
    cases routeLink got <;> exact sane_asKernel h
  | recv now r => trivial
  | accept => trivial
  | write sid ws => trivial

theorem bsdDaemonFetch_eq (c : Conf) {k : BsdKernel} (hk : BsdSane k) {d : Daemon} (hd : (d.child.netifs.map (·.index)).Nodup) :
    bsdFetch c.opts c.names c.mgmt k ⟨d.child.netifs, d.sys, d.mnetif, d.closed⟩ =
      .ok (netifFetch c.opts c.names c.mgmt (asKernel k) ⟨d.child.netifs, d.sys, d.mnetif, d.closed⟩) ∧
    bsdDaemonFetch c k d = .ok (daemonFetch c (asKernel k) d) := by
  have key : bsdFetch c.opts c.names c.mgmt k ⟨d.child.netifs, d.sys, d.mnetif, d.closed⟩ =
      .ok (netifFetch c.opts c.names c.mgmt (asKernel k) ⟨d.child.netifs, d.sys, d.mnetif, d.closed⟩) := by
    unfold asKernel
    cases ha : k.ifaddrs with
    | none =>
      unfold bsdFetch netifFetch
      rw [ha]
    | some addrs =>
      exact bsdFetch_asLinux c.opts c.names c.mgmt k _ ha (hk addrs (by rw [ha]; exact List.mem_singleton.mpr rfl)).1 hd
  refine ⟨key, ?_⟩
  unfold bsdDaemonFetch daemonFetch
  rw [key]
  rfl

theorem bsdSendRound_eq (c : Conf) {k : BsdKernel} (hk : BsdSane k) (m : BsdMedia) (link : Option Nat) {d : Daemon} (hd : (d.child.netifs.map (·.index)).Nodup) :
    bsdSendRound c k m link d = sendRound c (asKernel k) { bsd := some m } link d := by
  unfold bsdSendRound sendRound
  rw [(bsdDaemonFetch_eq c hk hd).2]
  rfl

theorem bsdStep_eq (c : Conf) {d : Daemon} (hd : Good d) {e : BsdEvent} (he : BsdSaneEvent e) : bsdDaemonStep c d e = daemonStep c d (asEvent e) := by
  cases e with
  | timer k m now =>
    unfold bsdDaemonStep asEvent daemonStep
    dsimp only
    rw [bsdSendRound_eq c he m none hd.nodup]
  | route k m got =>
    unfold bsdDaemonStep asEvent
    dsimp only
    cases hl : routeLink got with
    | none => rfl
    | some i => exact bsdSendRound_eq c he m (some i) hd.nodup
  | recv now r => rfl
  | accept => rfl
  | write sid ws => rfl

theorem bsdRun_eq (c : Conf) (es : List BsdEvent) : ∀ {d : Daemon}, Good d → (∀ e ∈ es, BsdSaneEvent e) →
    bsdDaemonRun c es d = daemonRun c (es.map asEvent) d := by
  induction es with
  | nil => intro d _ _; rfl
  | cons e es ih =>
    intro d hd he
    have h1 := he e List.mem_cons_self
    rw [List.map_cons, bsdDaemonRun, daemonRun, bsdStep_eq c hd h1]
    cases hs : daemonStep c d (asEvent e) with
    | ok d1 => exact ih (good_step hd (sane_asEvent h1) hs) (fun x hx => he x (List.mem_cons_of_mem _ hx))
    | fail => rfl
    | oob => rfl
    | abort => rfl
    | stuck => rfl

theorem asKernel_some {k : BsdKernel} {addrs : List BIfAddr} (ha : k.ifaddrs = some addrs) : asKernel k = asLinux k addrs := by
  unfold asKernel
  rw [ha]

theorem chosen_asLinux (c : Conf) {k : BsdKernel} {addrs : List BIfAddr} (hok : BsdOk k addrs) (e : Link) :
    Chosen c (asLinux k addrs) (bsdUsables k addrs) e ↔ BsdChosen c k (bsdUsables k addrs) e := by
  unfold Chosen BsdChosen
  split
  · constructor
    · intro h a ha
      rw [← portsAt_asLinux hok ha]
      exact h a ha
    · intro h a ha
      rw [portsAt_asLinux hok ha]
      exact h a ha
  · exact Iff.rfl

theorem due_asLinux (c : Conf) {k : BsdKernel} {addrs : List BIfAddr} (hok : BsdOk k addrs) (known : Nat → Nat) (i : Nat) (p : Proto) :
    Due c (asLinux k addrs) (bsdUsables k addrs) known i p ↔ BsdDue c k (bsdUsables k addrs) known i p := by
  unfold Due BsdDue SendsOn
  constructor
  · rintro ⟨e, he, hc, ha, s, hs, hi, hsa, ho, hp⟩
    refine ⟨e, he, (chosen_asLinux c hok e).mp hc, ha, s, hs, hi, hsa, ?_, hp⟩
    rw [← portsAt_asLinux hok he]
    exact ho
  · rintro ⟨e, he, hc, ha, s, hs, hi, hsa, ho, hp⟩
    refine ⟨e, he, (chosen_asLinux c hok e).mpr hc, ha, s, hs, hi, hsa, ?_, hp⟩
    rw [portsAt_asLinux hok he]
    exact ho

theorem noOverlap_asLinux (c : Conf) {k : BsdKernel} {addrs : List BIfAddr} (hok : BsdOk k addrs) (h : BsdNoOverlap c k (bsdUsables k addrs)) :
    NoOverlap c (asLinux k addrs) (bsdUsables k addrs) := by
  intro e he hc a ha hca
  rw [portsAt_asLinux hok ha]
  exact h e he ((chosen_asLinux c hok e).mp hc) a ha ((chosen_asLinux c hok a).mp hca)

theorem bsdSteady_sane {i : Nat} {e : BsdEvent} (h : BsdSteady i e) : BsdSaneEvent e := by
  cases e with
  | timer k m now => exact h.elim
  | route k m got => exact h.1
  | recv now r => trivial
  | accept => trivial
  | write sid ws => trivial

theorem steady_asEvent {i : Nat} {e : BsdEvent} (h : BsdSteady i e) : Steady i (asEvent e) := by
  cases e with
  | timer k m now => exact h.elim
  | route k m got =>
    have key : Sane (asKernel k) ∧ ∀ addrs ∈ (asKernel k).ifaddrs.toList, i ∈ (usables (asKernel k) addrs).map (·.index) := by
      refine ⟨sane_asKernel h.1, ?_⟩
      intro addrs hm
      cases ha : k.ifaddrs with
      | none =>
        unfold asKernel at hm
        rw [ha] at hm
        cases hm
      | some l =>
        rw [asKernel_some ha] at hm ⊢
        obtain rfl := List.mem_singleton.mp (show addrs ∈ [l.map asIfAddr] from hm)
        rw [usables_asLinux]
        exact h.2 l (by rw [ha]; exact List.mem_singleton.mpr rfl)
    unfold asEvent
    dsimp only
    cases routeLink got <;> exact key
  | recv now r => trivial
  | accept => trivial
  | write sid ws => trivial

theorem bsdBursts_eq (c : Conf) (i : Nat) (es : List BsdEvent) : ∀ {d : Daemon}, Good d → (∀ e ∈ es, BsdSaneEvent e) →
    bsdBursts c i es d = bursts c i (es.map asEvent) d := by
  induction es with
  | nil => intro d _ _; rfl
  | cons e es ih =>
    intro d hd he
    have hse := he e (List.mem_cons_self)
    unfold bsdBursts
    rw [List.map_cons, bursts, bsdStep_eq c hd hse]
    cases hs : daemonStep c d (asEvent e) with
    | ok d' =>
      dsimp only
      rw [ih (good_step hd (sane_asEvent hse) hs) (fun x hx => he x (List.mem_cons_of_mem _ hx))]
    | fail => rfl
    | oob => rfl
    | abort => rfl
    | stuck => rfl

/-- A round in the terms of the Linux model. -/
theorem round_asEvent {k : BsdKernel} {m : BsdMedia} {ev : BsdEvent} (h : BsdRound k m ev) :
    (∃ now, asEvent ev = .timer (asKernel k) { bsd := some m } now) ∨ ∃ i, asEvent ev = .link (asKernel k) { bsd := some m } true true i := by
  rcases h with ⟨now, rfl⟩ | ⟨r, msg, hl, hu, rfl⟩
  · exact Or.inl ⟨now, rfl⟩
  · right
    refine ⟨r.index, ?_⟩
    unfold asEvent
    dsimp only
    rw [routeLink_laidOut hl, if_pos hu]

theorem round_sane {k : BsdKernel} {m : BsdMedia} {ev : BsdEvent} (h : BsdRound k m ev) (hk : BsdSane k) : BsdSaneEvent ev := by
  rcases h with ⟨now, rfl⟩ | ⟨r, msg, hl, hu, rfl⟩ <;> exact hk

theorem roleIn_of_bsd {k : BsdKernel} {addrs : List BIfAddr} (l : List Netif) (n : Netif) (j c x : Nat)
    (h : BsdRole k l n j c x) : RoleIn (asLinux k addrs) l n j c x := by
  rcases h with ⟨t1, g, p, hg, hx, hp, hi, rfl⟩ | ⟨t1, rfl, rfl⟩
  · right; left
    refine ⟨t1, _, x, (p.1, decide (p.2 &&& 4 = 0)), show (k.lagg n.name).map _ = some _ by rw [hg]; rfl, ?_, hi,
      (Nat.mod_eq_of_lt (by omega)).symm, ?_⟩
    · dsimp only
      rw [List.getElem?_map, List.getElem?_take, if_pos hx, hp]
      rfl
    · dsimp only
      by_cases hb : p.2.testBit 2 = true
      · rw [if_pos hb, if_neg]
        intro h
        have := (active_bit p.2).mp (of_decide_eq_true h)
        rw [hb] at this
        cases this
      · rw [if_neg hb, if_pos]
        exact decide_eq_true ((active_bit p.2).mpr (by simpa using hb))
  · exact .inr (.inr ⟨t1, rfl, rfl⟩)

theorem standby_asLinux {k : BsdKernel} {addrs : List BIfAddr} (l : List Netif) (n : Netif) (j : Nat) :
    Standby (asLinux k addrs) l n j ↔ BsdStandby k l n j := by
  unfold Standby BsdStandby
  rw [modeOf_asLinux]
  constructor
  · rintro ⟨h, x, hx⟩
    exact ⟨h, x, roleIn_asLinux l n j 2 x hx⟩
  · rintro ⟨h, x, hx⟩
    exact ⟨h, x, roleIn_of_bsd l n j 2 x hx⟩

end Ladvd
