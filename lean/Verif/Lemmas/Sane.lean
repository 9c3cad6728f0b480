import Verif.Lemmas.Plan
import Verif.Props.Fetch
/-!
# A sane kernel gives a consistent list
-/

namespace Ladvd

open Spec

/-- A record describes a usable interface. -/
def Describes (n : Netif) (e : Link) : Prop := n.index = e.index ∧ n.name = e.name ∧ n.type = e.kind

/-- The list and the usable interfaces correspond to each other. -/
structure Mirror (us : List Link) (l : List Netif) : Prop where
  index : (us.map (·.index)).Nodup
  name : (us.map (·.name)).Nodup
  fwd : ∀ n ∈ l, ∃ e ∈ us, Describes n e
  bwd : ∀ e ∈ us, ∃ n ∈ l, Describes n e

theorem nodup_map_inj {α β : Type} {f : α → β} {l : List α} (h : (l.map f).Nodup) {a b : α} (ha : a ∈ l) (hb : b ∈ l)
    (hf : f a = f b) : a = b := by
  induction l with
  | nil => cases ha
  | cons x l ih =>
    rw [List.map_cons, List.nodup_cons] at h
    rcases List.mem_cons.mp ha with rfl | ha'
    · rcases List.mem_cons.mp hb with rfl | hb'
      · rfl
      · exact absurd (List.mem_map.mpr ⟨b, hb', hf.symm⟩) h.1
    · rcases List.mem_cons.mp hb with rfl | hb'
      · exact absurd (List.mem_map.mpr ⟨a, ha', hf⟩) h.1
      · exact ih h.2 ha' hb'

/-- The index of a lookup result that can be a port. -/
def portNo (o : Option Netif) : Option Nat := o.bind (fun n => if n.type < 10 then some n.index else none)
def portNo' (o : Option Link) : Option Nat := o.bind (fun e => if e.kind < 10 then some e.index else none)

theorem portNo_filter (found : List (Option Netif)) :
    ((found.filterMap id).filter (fun s => canBePort s)).map (·.index) = found.filterMap portNo := by
  induction found with
  | nil => rfl
  | cons o found ih =>
    cases o with
    | none => rw [List.filterMap_cons_none rfl, List.filterMap_cons_none rfl]; exact ih
    | some n =>
      rw [List.filterMap_cons_some (f := id) (b := n) rfl]
      by_cases hn : n.type < 10
      · rw [List.filter_cons_of_pos (by exact decide_eq_true hn), List.map_cons, ih,
          List.filterMap_cons_some (b := n.index) (by unfold portNo; exact if_pos hn)]
      · rw [List.filter_cons_of_neg (by rw [decide_eq_true_eq]; exact hn), ih, List.filterMap_cons_none (by unfold portNo; exact if_neg hn)]

theorem portNo'_filter (found : List (Option Link)) :
    ((found.filterMap id).filter (fun s => s.kind < 10)).map (·.index) = found.filterMap portNo' := by
  induction found with
  | nil => rfl
  | cons o found ih =>
    cases o with
    | none => rw [List.filterMap_cons_none rfl, List.filterMap_cons_none rfl]; exact ih
    | some n =>
      rw [List.filterMap_cons_some (f := id) (b := n) rfl]
      by_cases hn : n.kind < 10
      · rw [List.filter_cons_of_pos (by exact decide_eq_true hn), List.map_cons, ih,
          List.filterMap_cons_some (b := n.index) (by unfold portNo'; exact if_pos hn)]
      · rw [List.filter_cons_of_neg (by rw [decide_eq_true_eq]; exact hn), ih, List.filterMap_cons_none (by unfold portNo'; exact if_neg hn)]

theorem head_filter_some {α : Type} {q : α → Bool} {l : List α} {x : α} (h : (l.filter q).head? = some x) : x ∈ l ∧ q x = true :=
  List.mem_filter.mp (List.mem_of_mem_head? h)

theorem head_filter_none {α : Type} {q : α → Bool} {l : List α} (h : (l.filter q).head? = none) : ∀ x ∈ l, q x = false := by
  rw [List.head?_eq_none_iff, List.filter_eq_nil_iff] at h
  intro x hx
  exact Bool.not_eq_true _ |>.mp (h x hx)

theorem Mirror.at {us : List Link} {l : List Netif} (h : Mirror us l) (i : Nat) :
    (withIndex l i = none ∧ linkAt us i = none) ∨ ∃ n e, withIndex l i = some n ∧ linkAt us i = some e ∧ Describes n e := by
  unfold withIndex linkAt
  cases hl : (l.filter (fun n => n.index = i)).head? with
  | none =>
    cases hu : (us.filter (fun e => e.index = i)).head? with
    | none => exact Or.inl ⟨rfl, rfl⟩
    | some e =>
      obtain ⟨he, hi⟩ := head_filter_some hu
      obtain ⟨n, hn, hd⟩ := h.bwd e he
      have := head_filter_none hl n hn
      rw [hd.1] at this
      rw [this] at hi
      cases hi
  | some n =>
    obtain ⟨hn, hi⟩ := head_filter_some hl
    obtain ⟨e, he, hd⟩ := h.fwd n hn
    cases hu : (us.filter (fun e => e.index = i)).head? with
    | none =>
      have := head_filter_none hu e he
      rw [← hd.1] at this
      rw [this] at hi
      cases hi
    | some e' =>
      obtain ⟨he', hi'⟩ := head_filter_some hu
      have : e = e' := nodup_map_inj h.index he he' (by
        rw [← hd.1]; exact (of_decide_eq_true hi).trans (of_decide_eq_true hi').symm)
      subst this
      exact Or.inr ⟨n, e, rfl, rfl, hd⟩

theorem Mirror.named {us : List Link} {l : List Netif} (h : Mirror us l) (s : Bytes) :
    (withName l s = none ∧ linkNamed us s = none) ∨ ∃ n e, withName l s = some n ∧ linkNamed us s = some e ∧ Describes n e := by
  unfold withName linkNamed
  cases hl : (l.filter (fun n => n.name = s)).head? with
  | none =>
    cases hu : (us.filter (fun e => e.name = s)).head? with
    | none => exact Or.inl ⟨rfl, rfl⟩
    | some e =>
      obtain ⟨he, hi⟩ := head_filter_some hu
      obtain ⟨n, hn, hd⟩ := h.bwd e he
      have := head_filter_none hl n hn
      rw [hd.2.1] at this
      rw [this] at hi
      cases hi
  | some n =>
    obtain ⟨hn, hi⟩ := head_filter_some hl
    obtain ⟨e, he, hd⟩ := h.fwd n hn
    cases hu : (us.filter (fun e => e.name = s)).head? with
    | none =>
      have := head_filter_none hu e he
      rw [← hd.2.1] at this
      rw [this] at hi
      cases hi
    | some e' =>
      obtain ⟨he', hi'⟩ := head_filter_some hu
      have : e = e' := nodup_map_inj h.name he he' (by
        rw [← hd.2.1]; exact (of_decide_eq_true hi).trans (of_decide_eq_true hi').symm)
      subst this
      exact Or.inr ⟨n, e, rfl, rfl, hd⟩

theorem portNo_describes {n : Netif} {e : Link} (h : Describes n e) : portNo (some n) = portNo' (some e) := by
  unfold portNo portNo'
  show (if n.type < 10 then some n.index else none) = (if e.kind < 10 then some e.index else none)
  rw [h.1, h.2.2]

theorem Mirror.at_no {us : List Link} {l : List Netif} (h : Mirror us l) (i : Nat) : portNo (withIndex l i) = portNo' (linkAt us i) := by
  rcases h.at i with ⟨a, b⟩ | ⟨n, e, a, b, hd⟩
  · rw [a, b]; rfl
  · rw [a, b]; exact portNo_describes hd

theorem Mirror.named_no {us : List Link} {l : List Netif} (h : Mirror us l) (s : Bytes) : portNo (withName l s) = portNo' (linkNamed us s) := by
  rcases h.named s with ⟨a, b⟩ | ⟨n, e, a, b, hd⟩
  · rw [a, b]; rfl
  · rw [a, b]; exact portNo_describes hd

theorem Mirror.ports {us : List Link} {l : List Netif} (h : Mirror us l) (k : Kernel) {n : Netif} {e : Link} (hd : Describes n e) :
    portsOf k l n = portsAt k us e := by
  unfold portsOf portsAt
  dsimp only
  rw [portNo_filter, portNo'_filter, hd.1, hd.2.1, hd.2.2]
  split
  · cases k.team e.index with
    | none => rfl
    | some t =>
      dsimp only
      rw [List.filterMap_map, List.filterMap_map]
      exact filterMap_congr' (fun i _ => h.at_no i)
  · split
    · cases k.bond e.name with
      | none => rfl
      | some b =>
        dsimp only
        rw [List.filterMap_map, List.filterMap_map]
        exact filterMap_congr' (fun s _ => h.named_no s.1)
    · split
      · cases k.bridge e.name with
        | none => rfl
        | some is =>
          dsimp only
          rw [List.filterMap_map, List.filterMap_map]
          exact filterMap_congr' (fun i _ => h.at_no i)
      · rfl

/-- The list after a refresh corresponds to the usable interfaces. -/
theorem fetch_mirror (o : Opts) (names : List Bytes) (m : Mgmt) (k : Kernel) (s : Ifs) (addrs : List IfAddr)
    (h : k.ifaddrs = some addrs) (hok : ListOk k addrs) (hs : (s.netifs.map (·.index)).Nodup) :
    Mirror (usables k addrs) (netifFetch o names m k s).1.netifs := by
  have hfwd : ∀ n ∈ (netifFetch o names m k s).1.netifs, ∃ e ∈ usables k addrs, Describes n e := by
    intro n hn
    obtain ⟨e, he, h1, h2, h3, -⟩ := Props.C40_record o names m k s addrs h hok hs n hn
    exact ⟨e, he, h1, h2, h3⟩
  refine ⟨hok.index, hok.name, hfwd, ?_⟩
  intro e he
  have hi := Props.C40_indexes o names m k s addrs h hok hs
  have hm : e.index ∈ (netifFetch o names m k s).1.netifs.map (·.index) := by
    rw [hi, List.mem_append, List.mem_filter, List.mem_filter]
    have he' : e.index ∈ (usables k addrs).map (·.index) := List.mem_map_of_mem he
    by_cases hold : e.index ∈ s.netifs.map (·.index)
    · exact Or.inl ⟨hold, List.contains_iff_mem.mpr he'⟩
    · exact Or.inr ⟨he', by simpa using hold⟩
  obtain ⟨n, hn, hni⟩ := List.mem_map.mp hm
  obtain ⟨e', he', hd⟩ := hfwd n hn
  have : e' = e := nodup_map_inj hok.index he' he (hd.1.symm.trans hni)
  subst this
  exact ⟨n, hn, hd⟩

/-- The indexes after a refresh are distinct. -/
theorem fetch_nodup (o : Opts) (names : List Bytes) (m : Mgmt) (k : Kernel) (s : Ifs) (addrs : List IfAddr)
    (h : k.ifaddrs = some addrs) (hok : ListOk k addrs) (hs : (s.netifs.map (·.index)).Nodup) :
    ((netifFetch o names m k s).1.netifs.map (·.index)).Nodup := by
  rw [Props.C40_indexes o names m k s addrs h hok hs]
  unfold List.Nodup
  rw [List.pairwise_append]
  refine ⟨List.Pairwise.filter _ hs, List.Pairwise.filter _ hok.index, ?_⟩
  intro a ha b hb e
  subst e
  have h1 := (List.mem_filter.mp ha).1
  have h2 := (List.mem_filter.mp hb).2
  simp only [Bool.not_eq_true', List.contains_eq_mem, decide_eq_false_iff_not] at h2
  exact h2 h1

theorem Mirror.kernelOk {k : Kernel} {us : List Link} {l : List Netif} (h : Mirror us l) (hnd : (l.map (·.index)).Nodup)
    (ha : AggregatesOk k us) : KernelOk k l := by
  refine ⟨?_, ?_, ?_⟩
  · intro n hn
    obtain ⟨e, he, hd⟩ := h.fwd n hn
    rw [h.ports k hd]
    exact (ha e he).1
  · intro n hn n' hn' m hm hm'
    obtain ⟨e, he, hd⟩ := h.fwd n hn
    obtain ⟨e', he', hd'⟩ := h.fwd n' hn'
    rw [h.ports k hd] at hm
    rw [h.ports k hd'] at hm'
    have := (ha e he).2.1 e' he' m hm hm'
    subst this
    exact index_unique hnd hn hn' (hd.1.trans hd'.1.symm)
  · intro n hn t h11 ht hmode hact
    obtain ⟨e, he, hd⟩ := h.fwd n hn
    rw [h.ports k hd]
    refine (ha e he).2.2 t ?_ (hd.2.2 ▸ h11) hmode ?_
    · rw [← hd.1, ht]; exact List.mem_singleton.mpr rfl
    · rcases h.at t.active with ⟨a, -⟩ | ⟨x, y, -, b, -⟩
      · rw [a] at hact; cases hact
      · rw [b]; rfl

theorem portIdx_of_ports {l : List Netif} {n : Netif} {ps : List Netif} (h : ports l n = .ok ps) : portIdx l n = .ok (ps.map (·.index)) := by
  unfold portIdx
  rw [h]
  rfl

/-- After a refresh with a sane kernel the list is consistent. -/
theorem fetch_consistent (o : Opts) (names : List Bytes) (m : Mgmt) (k : Kernel) (s : Ifs) (addrs : List IfAddr)
    (h : k.ifaddrs = some addrs) (hok : ListOk k addrs) (hs : (s.netifs.map (·.index)).Nodup)
    (hk : KernelOk k (netifFetch o names m k s).1.netifs) : Consistent k (netifFetch o names m k s).1.netifs := by
  have hL := detected_linked hs hok (netifFetch_ident o names m k s h hok hs) hk
  refine ⟨hL.nodup, hL.type, hk, ?_⟩
  intro n hn
  obtain ⟨ps, hps, -, -, hidx⟩ := Props.C29_ports_partial o names m k s addrs h hok hs hk n hn
  rw [portIdx_of_ports hps, hidx]
  rfl

/-! ## What is due -/

theorem allowed_eq {c : Conf} {n : Netif} {e : Link} (h : Describes n e) : mayUse c n ↔ linkAllowed c e := by
  unfold mayUse linkAllowed
  rw [h.2.1, h.2.2]

theorem Mirror.unique {us : List Link} {l : List Netif} (h : Mirror us l) {n : Netif} {e e' : Link} (he : e ∈ us) (he' : e' ∈ us)
    (hd : Describes n e) (hi : n.index = e'.index) : e = e' := nodup_map_inj h.index he he' (hd.1.symm.trans hi)

/-- What the refreshed list records. -/
structure Records (c : Conf) (k : Kernel) (l : List Netif) (known : Nat → Nat) : Prop where
  argv : ∀ n ∈ l, n.argv ≠ 0 ↔ n.name ∈ c.names ∧ n.type ≠ -1
  child : ∀ n ∈ l, n.child = 0 ↔ ∀ a ∈ l, n.index ∉ portsOf k l a
  protos : ∀ n ∈ l, n.protos = known n.index

theorem fetch_records (c : Conf) (k : Kernel) (s : Ifs) (addrs : List IfAddr)
    (h : k.ifaddrs = some addrs) (hok : ListOk k addrs) (hs : (s.netifs.map (·.index)).Nodup)
    (hk : KernelOk k (netifFetch c.opts c.names c.mgmt k s).1.netifs) :
    Records c k (netifFetch c.opts c.names c.mgmt k s).1.netifs (fun i => ((withIndex s.netifs i).map (·.protos)).getD 0) := by
  have hL := detected_linked hs hok (netifFetch_ident c.opts c.names c.mgmt k s h hok hs) hk
  refine ⟨Props.C40_argv c.opts c.names c.mgmt k s addrs h hok hs, ?_, ?_⟩
  · intro n hn
    constructor
    · intro h0 a ha hm
      obtain ⟨x, hx, hxi, -, hxc⟩ := hL.member a ha _ hm
      have := index_unique hL.nodup hx hn hxi
      subst this
      exact hxc h0
    · intro hf
      exact (hL.free n hn hf).2
  · intro n hn
    obtain ⟨e, he, h1, -, -, -, h2, -⟩ := Props.C40_record c.opts c.names c.mgmt k s addrs h hok hs n hn
    rw [h2, h1]

theorem chosen_of_selected {c : Conf} {k : Kernel} {us : List Link} {l : List Netif} {known : Nat → Nat} (hM : Mirror us l)
    (hR : Records c k l known) (hb : c.opts.testBit 5 = true ↔ c.names ≠ []) {n : Netif} (hn : n ∈ l) {e : Link}
    (hd : Describes n e) (hs : selected c.opts n) : Chosen c k us e := by
  unfold Chosen
  by_cases hnm : c.names = []
  · rw [if_pos hnm]
    have h5 : ¬ c.opts.testBit 5 = true := fun h => hb.mp h hnm
    have h1 := hs.1
    rw [if_neg h5] at h1
    intro a ha hm
    obtain ⟨x, hx, hxd⟩ := hM.bwd a ha
    rw [← hM.ports k hxd, ← hd.1] at hm
    exact (hR.child n hn).mp h1 x hx hm
  · rw [if_neg hnm]
    have h1 := hs.1
    rw [if_pos (hb.mpr hnm)] at h1
    rw [← hd.2.1]
    exact ((hR.argv n hn).mp h1).1

theorem selected_of_chosen {c : Conf} {k : Kernel} {us : List Link} {l : List Netif} {known : Nat → Nat} (hM : Mirror us l)
    (hR : Records c k l known) (hb : c.opts.testBit 5 = true ↔ c.names ≠ []) {n : Netif} (hn : n ∈ l) {e : Link}
    (hd : Describes n e) (hv : e.kind ≥ 0) (hc : Chosen c k us e) : if c.opts.testBit 5 then n.argv ≠ 0 else n.child = 0 := by
  unfold Chosen at hc
  by_cases hnm : c.names = []
  · rw [if_pos hnm] at hc
    have h5 : ¬ c.opts.testBit 5 = true := fun h => hb.mp h hnm
    rw [if_neg h5, hR.child n hn]
    intro a ha hm
    obtain ⟨x, hx, hxd⟩ := hM.fwd a ha
    rw [hM.ports k hxd, hd.1] at hm
    exact hc x hx hm
  · rw [if_neg hnm] at hc
    rw [if_pos (hb.mpr hnm), hR.argv n hn, hd.2.1, hd.2.2]
    exact ⟨hc, by omega⟩

theorem plan_due {c : Conf} {k : Kernel} {us : List Link} {l : List Netif} {known : Nat → Nat} (h : Consistent k l) (hM : Mirror us l)
    (hR : Records c k l known) (hb : c.opts.testBit 5 = true ↔ c.names ≠ []) (hu : ∀ n, sendSkip c n = false ↔ mayUse c n)
    (ho : c.opts.has OPT_SEND = true) (link : Option Nat) (i : Nat) (p : Proto) :
    (i, p) ∈ ((netifTraverse c.opts l).map (·.index)).flatMap (planNetif c link l) ↔ (link = none ∨ link = some i) ∧ Due c k us known i p := by
  rw [List.flatMap_map, List.mem_flatMap, Props.C29_traverse]
  have hw : ∀ n ∈ l, wanted c n p = true ↔ (c.enabled p = true ∨ (known n.index).testBit p.num = true) := by
    intro n hn; unfold wanted; rw [Bool.or_eq_true, hR.protos n hn]
  constructor
  · rintro ⟨n, hn, hx⟩
    obtain ⟨hnl, hsel⟩ := List.mem_filter.mp hn
    have hsel := of_decide_eq_true hsel
    obtain ⟨hs, hj, hx⟩ := (planNetif_mem h hnl).mp hx
    obtain ⟨-, hlink, -, hwn, s, hsi, hss⟩ := planPort_mem.mp hx
    dsimp only at hj hsi hwn hlink
    obtain ⟨s', hsl', hsi', ht, hsn⟩ := portsBy_mem h hnl hj
    have : s' = s := index_unique h.nodup hsl' (byIndex_mem hsi) (hsi'.trans (byIndex_index hsi).symm)
    subst this
    obtain ⟨e, he, hd⟩ := hM.fwd n hnl
    obtain ⟨es, hes, hds⟩ := hM.fwd s' hsl'
    refine ⟨hlink, e, he, chosen_of_selected hM hR hb hnl hd hsel, (allowed_eq hd).mp ((hu n).mp hs), es, hes, ?_, (allowed_eq hds).mp ((hu s').mp hss), ?_, ?_⟩
    · rw [← hds.1]; exact hsi'
    · unfold SendsOn
      by_cases ht : n.type > 10
      · rw [if_pos (by rw [← hd.2.2]; exact ht), ← hM.ports k hd, ← hds.1, hsi']
        unfold portsBy at hj
        rw [if_pos ht] at hj
        exact hj
      · rw [if_neg (by rw [← hd.2.2]; exact ht)]
        have h10 := h.type n hnl
        unfold TypeOk at h10
        have := hsn (by omega)
        subst this
        exact hM.unique hes he hds hd.1
    · rw [← hd.1]; exact (hw n hnl).mp hwn
  · rintro ⟨hlink, e, he, hch, hal, es, hes, hi, hals, hso, hp⟩
    obtain ⟨n, hnl, hd⟩ := hM.bwd e he
    obtain ⟨s, hsl, hds⟩ := hM.bwd es hes
    have hj : i ∈ portsBy k l n := by
      unfold SendsOn at hso
      unfold portsBy
      by_cases ht : n.type > 10
      · rw [if_pos ht, hM.ports k hd, ← hi]
        rw [if_pos (by rw [← hd.2.2]; exact ht)] at hso
        exact hso
      · rw [if_neg (by rw [← hd.2.2]; exact ht)] at hso
        subst hso
        rw [if_neg ht, if_neg (by rw [hd.2.2]; have := hal.1; omega), ← hi, hd.1]
        exact List.mem_singleton.mpr rfl
    refine ⟨n, List.mem_filter.mpr ⟨hnl, decide_eq_true ⟨selected_of_chosen hM hR hb hnl hd hal.1 hch, ?_⟩⟩,
      (planNetif_mem h hnl).mpr ⟨(hu n).mpr ((allowed_eq hd).mpr hal), hj, planPort_mem.mpr ⟨rfl, hlink, ho, (hw n hnl).mpr ?_,
        s, ?_, (hu s).mpr ((allowed_eq hds).mpr hals)⟩⟩⟩
    · intro ht hsub
      have h1 := noSub_ports l ht hsub
      rw [h.ports n hnl] at h1
      injection h1 with h1
      rw [h1] at hj
      cases hj
    · rw [hd.1]; exact hp
    · rw [← hi, ← hds.1]; exact byIndex_of_mem h.nodup hsl

theorem overlap_free {c : Conf} {k : Kernel} {us : List Link} {l : List Netif} {known : Nat → Nat} (hM : Mirror us l)
    (hR : Records c k l known) (hb : c.opts.testBit 5 = true ↔ c.names ≠ []) (hno : NoOverlap c k us) :
    ∀ n ∈ netifTraverse c.opts l, ∀ a ∈ netifTraverse c.opts l, n.index ∉ portsOf k l a := by
  rw [Props.C29_traverse]
  intro n hn a ha hm
  obtain ⟨hnl, hsn⟩ := List.mem_filter.mp hn
  obtain ⟨hal, hsa⟩ := List.mem_filter.mp ha
  obtain ⟨e, he, hd⟩ := hM.fwd n hnl
  obtain ⟨ea, hea, hda⟩ := hM.fwd a hal
  rw [hM.ports k hda, hd.1] at hm
  exact hno e he (chosen_of_selected hM hR hb hnl hd (of_decide_eq_true hsn)) ea hea
    (chosen_of_selected hM hR hb hal hda (of_decide_eq_true hsa)) hm

end Ladvd
