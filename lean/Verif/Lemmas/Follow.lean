import Verif.Lemmas.Keep
import Verif.Spec.Follow
/-!
# Automatically enabled protocols follow the table
-/

namespace Ladvd

open Spec

/-! ## Lists -/

/-- Frames received on the interfaces `J` of a list count for interface `i`. -/
structure Serves (o : Opts) (l : List Netif) (i : Nat) (J : List Nat) : Prop where
  nodup : (l.map (·.index)).Nodup
  named : ∀ n ∈ l, n.index = i → o.has OPT_ARGV = true → n.argv ≠ 0
  into : ∀ s ∈ l, s.index ∈ J → (parentOf l s).index = i
  only : ∀ s ∈ l, (parentOf l s).index = i → s.index ∈ J ∨ s.index = i
  ports : ∀ n ∈ l, n.index = i → ∃ ps, portIdx l n = .ok ps ∧ ∀ j, j ∈ ps ↔ j ∈ J
  there : ∀ j ∈ J, ∃ s ∈ l, s.index = j

/-- The protocols of interface `i` are those of the entries received on `J`. -/
def Exact (l : List Netif) (queue : List Entry) (i : Nat) (J : List Nat) : Prop :=
  ∀ n ∈ l, n.index = i → ∀ p < 8, n.protos.testBit p = true ↔ ∃ q ∈ queue, q.index ∈ J ∧ q.proto = p

theorem byIndex_map_shape (l : List Netif) (i : Nat) : netifByIndex (l.map shape) i = (netifByIndex l i).map shape := by
  unfold netifByIndex
  rw [List.find?_map]
  rfl

theorem byIndex_shape {l l' : List Netif} (h : l'.map shape = l.map shape) (i : Nat) :
    (netifByIndex l' i).map shape = (netifByIndex l i).map shape := by
  rw [← byIndex_map_shape, h, byIndex_map_shape]

theorem parentOf_shape {l l' : List Netif} (h : l'.map shape = l.map shape) {s s' : Netif} (hs : shape s' = shape s) :
    shape (parentOf l' s') = shape (parentOf l s) := by
  unfold parentOf
  rw [shape_parent hs]
  cases s.parent with
  | none => exact hs
  | some j =>
    dsimp only [Option.bind_some]
    have := byIndex_shape h j
    cases h1 : netifByIndex l' j with
    | none =>
      rw [h1] at this
      cases h2 : netifByIndex l j with
      | none => exact hs
      | some y => rw [h2] at this; cases this
    | some x =>
      rw [h1] at this
      cases h2 : netifByIndex l j with
      | none => rw [h2] at this; cases this
      | some y => rw [h2] at this; injection this

theorem shape_argv {a b : Netif} (h : shape a = shape b) : a.argv = b.argv :=
  show (shape a).argv = (shape b).argv by rw [h]

theorem Serves.shape {o : Opts} {l l' : List Netif} {i : Nat} {J : List Nat} (h : Serves o l i J) (hs : l'.map shape = l.map shape) :
    Serves o l' i J := by
  refine ⟨?_, ?_, ?_, ?_, ?_, ?_⟩
  · rw [index_of_shape hs]; exact h.nodup
  · intro n hn hi ho
    obtain ⟨x, hx, e⟩ := mem_shape hs hn
    rw [← shape_argv e]
    exact h.named x hx ((shape_index e).trans hi) ho
  · intro s hs' hj
    obtain ⟨x, hx, e⟩ := mem_shape hs hs'
    rw [shape_index (parentOf_shape hs e.symm)]
    exact h.into x hx (by rw [shape_index e]; exact hj)
  · intro s hs' hj
    obtain ⟨x, hx, e⟩ := mem_shape hs hs'
    rw [shape_index (parentOf_shape hs e.symm)] at hj
    rw [← shape_index e]
    exact h.only x hx hj
  · intro n hn hi
    obtain ⟨x, hx, e⟩ := mem_shape hs hn
    obtain ⟨ps, hp, hj⟩ := h.ports x hx ((shape_index e).trans hi)
    exact ⟨ps, by rw [← portIdx_shape, hs, ← e, portIdx_shape]; exact hp, hj⟩
  · intro j hj
    obtain ⟨s, hs', hi⟩ := h.there j hj
    obtain ⟨x, hx, e⟩ := mem_shape hs.symm hs'
    exact ⟨x, hx, (shape_index e).trans hi⟩

/-! ## The value computed from the table -/

theorem protos_inner_iff (i : Nat) (queue : List Entry) : ∀ (acc p : Nat),
    (queue.foldl (fun acc q => if i = q.index then acc ||| (1 <<< q.proto) else acc) acc).testBit p = true ↔
    acc.testBit p = true ∨ ∃ q ∈ queue, q.index = i ∧ q.proto = p := by
  induction queue with
  | nil => intro acc p; simp
  | cons q queue ih =>
    intro acc p
    rw [List.foldl_cons, ih]
    constructor
    · rintro (h | ⟨x, hx, h⟩)
      · split at h
        · next hi =>
          rw [testBit_or_shift, Bool.or_eq_true] at h
          rcases h with h | h
          · exact Or.inl h
          · exact Or.inr ⟨q, List.mem_cons_self, hi.symm, of_decide_eq_true h⟩
        · exact Or.inl h
      · exact Or.inr ⟨x, List.mem_cons_of_mem _ hx, h⟩
    · rintro (h | ⟨x, hx, hi, hp⟩)
      · left
        split
        · rw [testBit_or_shift, h]; rfl
        · exact h
      · rcases List.mem_cons.mp hx with rfl | hx
        · left
          rw [if_pos hi.symm, testBit_or_shift, Bool.or_eq_true]
          exact Or.inr (decide_eq_true hp)
        · exact Or.inr ⟨x, hx, hi, hp⟩

theorem protos_outer_iff (queue : List Entry) (ps : List Netif) : ∀ (acc p : Nat),
    (ps.foldl (fun acc s => queue.foldl (fun acc q => if s.index = q.index then acc ||| (1 <<< q.proto) else acc) acc) acc).testBit p = true ↔
    acc.testBit p = true ∨ ∃ q ∈ queue, q.index ∈ ps.map (·.index) ∧ q.proto = p := by
  induction ps with
  | nil => intro acc p; simp
  | cons s ps ih =>
    intro acc p
    rw [List.foldl_cons, ih, protos_inner_iff]
    simp only [List.map_cons, List.mem_cons]
    constructor
    · rintro ((h | ⟨q, hq, hi, hp⟩) | ⟨q, hq, hi, hp⟩)
      · exact Or.inl h
      · exact Or.inr ⟨q, hq, Or.inl hi, hp⟩
      · exact Or.inr ⟨q, hq, Or.inr hi, hp⟩
    · rintro (h | ⟨q, hq, hi | hi, hp⟩)
      · exact Or.inl (Or.inl h)
      · exact Or.inl (Or.inr ⟨q, hq, hi, hp⟩)
      · exact Or.inr ⟨q, hq, hi, hp⟩

theorem netifProtos_exact {o : Opts} {l : List Netif} {i : Nat} {J : List Nat} (hS : Serves o l i J) {n : Netif} (hn : n ∈ l)
    (hi : n.index = i) {queue : List Entry} {v : Nat} (h : netifProtos l n queue = .ok v) (p : Nat) (hp : p < 8) :
    v.testBit p = true ↔ ∃ q ∈ queue, q.index ∈ J ∧ q.proto = p := by
  obtain ⟨js, hjs, hJ⟩ := hS.ports n hn hi
  unfold netifProtos at h
  unfold portIdx at hjs
  simp only [Res.bind_eq, Res.pure_eq] at h
  cases e : ports l n with
  | ok ps =>
    rw [e] at h hjs
    injection h with h
    injection hjs with hjs
    subst h
    subst hjs
    rw [show (256 : Nat) = 2 ^ 8 from rfl, Nat.testBit_mod_two_pow, Bool.and_eq_true, protos_outer_iff]
    constructor
    · rintro ⟨-, h | ⟨q, hq, hi, hqp⟩⟩
      · rw [Nat.zero_testBit] at h; cases h
      · exact ⟨q, hq, (hJ _).mp hi, hqp⟩
    · rintro ⟨q, hq, hi, hqp⟩
      exact ⟨decide_eq_true hp, Or.inr ⟨q, hq, (hJ _).mpr hi, hqp⟩⟩
  | fail => rw [e] at h; cases h
  | oob => rw [e] at h; cases h
  | abort => rw [e] at h; cases h
  | stuck => rw [e] at h; cases h

/-! ## The update loop -/

theorem mem_set {l : List Netif} {i : Nat} {f : Netif → Netif} {n : Netif} (h : n ∈ setNetif l i f) :
    ∃ x ∈ l, n = if x.index = i then f x else x := by
  unfold setNetif at h
  obtain ⟨x, hx, rfl⟩ := List.mem_map.mp h
  exact ⟨x, hx, rfl⟩

theorem set_mem {l : List Netif} {i : Nat} {f : Netif → Netif} {x : Netif} (h : x ∈ l) :
    (if x.index = i then f x else x) ∈ setNetif l i f := by
  unfold setNetif
  exact List.mem_map_of_mem h

/-- Either the protocols are right, or one of the interfaces still to be visited is marked. -/
def Pending (l : List Netif) (queue : List Entry) (i : Nat) (J is : List Nat) : Prop :=
  Exact l queue i J ∨ ∃ x ∈ l, x.index ∈ is ∧ x.update ≠ 0 ∧ x.index ∈ J

theorem updateNetifs_exact {o : Opts} (ha : o.has OPT_AUTO = true) {i : Nat} {J : List Nat} (is : List Nat) :
    ∀ (st st' : Child), updateNetifs o is st = .ok st' → Serves o st.netifs i J → Pending st.netifs st.queue i J is →
      Exact st'.netifs st.queue i J := by
  induction is with
  | nil =>
    intro st st' h _ hp
    cases h
    rcases hp with hp | ⟨x, -, hx, -⟩
    · exact hp
    · cases hx
  | cons k is ih =>
    intro st st' h hS hp
    rw [updateNetifs] at h
    cases e : netifByIndex st.netifs k with
    | none =>
      rw [e] at h
      refine ih st st' h hS ?_
      rcases hp with hp | ⟨x, hx, hxi, hu, hj⟩
      · exact Or.inl hp
      · rcases List.mem_cons.mp hxi with hxk | hxi
        · rw [← hxk, byIndex_of_mem hS.nodup hx] at e; cases e
        · exact Or.inr ⟨x, hx, hxi, hu, hj⟩
    | some subif =>
      rw [e] at h
      dsimp only at h
      have hsub : subif ∈ st.netifs := byIndex_mem e
      have hsi : subif.index = k := byIndex_index e
      by_cases hu : subif.update = 0
      · rw [if_pos hu] at h
        refine ih st st' h hS ?_
        rcases hp with hp | ⟨x, hx, hxi, hxu, hj⟩
        · exact Or.inl hp
        · rcases List.mem_cons.mp hxi with hxk | hxi
          · rw [← hxk, byIndex_of_mem hS.nodup hx] at e
            injection e with e
            subst e
            exact absurd hu hxu
          · exact Or.inr ⟨x, hx, hxi, hxu, hj⟩
      · rw [if_neg hu] at h
        simp only [Res.bind_eq, Res.pure_eq] at h
        rw [if_pos ha] at h
        cases hv : netifProtos st.netifs (parentOf st.netifs subif) st.queue with
        | ok v =>
          rw [hv] at h
          simp only [Res.bind_ok] at h
          have hnet : (if o.has OPT_IFDESCR = true then
              ({ netifs := setNetif st.netifs (parentOf st.netifs subif).index (fun n => { n with protos := v }), queue := st.queue,
                 sessions := st.sessions, nextId := st.nextId,
                 out := st.out ++ (netifDescr o subif st.queue).toList, sent := st.sent } : Child)
              else { netifs := setNetif st.netifs (parentOf st.netifs subif).index (fun n => { n with protos := v }), queue := st.queue,
                     sessions := st.sessions, nextId := st.nextId, out := st.out, sent := st.sent }).netifs =
              setNetif st.netifs (parentOf st.netifs subif).index (fun n => { n with protos := v }) := by split <;> rfl
          have hque : (if o.has OPT_IFDESCR = true then
              ({ netifs := setNetif st.netifs (parentOf st.netifs subif).index (fun n => { n with protos := v }), queue := st.queue,
                 sessions := st.sessions, nextId := st.nextId,
                 out := st.out ++ (netifDescr o subif st.queue).toList, sent := st.sent } : Child)
              else { netifs := setNetif st.netifs (parentOf st.netifs subif).index (fun n => { n with protos := v }), queue := st.queue,
                     sessions := st.sessions, nextId := st.nextId, out := st.out, sent := st.sent }).queue = st.queue := by split <;> rfl
          have hfin := ih _ _ h
          dsimp only at hfin
          rw [hnet, hque] at hfin
          have hsh1 : (setNetif st.netifs (parentOf st.netifs subif).index (fun n => { n with protos := v })).map shape =
              st.netifs.map shape := setNetif_shape _ _ _ (fun _ => rfl)
          have hsh2 : (setNetif (setNetif st.netifs (parentOf st.netifs subif).index (fun n => { n with protos := v })) k
              (fun n => { n with update := 0 })).map shape = st.netifs.map shape :=
            (setNetif_shape _ k (fun n => { n with update := 0 }) (fun _ => rfl)).trans hsh1
          refine hfin (hS.shape hsh2) ?_
          have hpar := (parentOf_attached hsub).1
          have hfield : ∀ y : Netif, (if y.index = k then ({ y with update := 0 } : Netif) else y).protos = y.protos ∧
              (if y.index = k then ({ y with update := 0 } : Netif) else y).index = y.index := by
            intro y
            split <;> exact ⟨rfl, rfl⟩
          have hfield' : ∀ x : Netif, (if x.index = (parentOf st.netifs subif).index then ({ x with protos := v } : Netif) else x).index = x.index ∧
              (if x.index = (parentOf st.netifs subif).index then ({ x with protos := v } : Netif) else x).update = x.update := by
            intro y
            split <;> exact ⟨rfl, rfl⟩
          by_cases hpi : (parentOf st.netifs subif).index = i
          · left
            intro n hn hni p hp8
            obtain ⟨y, hy, rfl⟩ := mem_set hn
            obtain ⟨x, hx, hyx⟩ := mem_set hy
            rw [(hfield y).2, hyx, (hfield' x).1] at hni
            rw [(hfield y).1, hyx, if_pos (hni.trans hpi.symm)]
            exact netifProtos_exact hS hpar hpi hv p hp8
          · rcases hp with hp | ⟨x, hx, hxi, hxu, hj⟩
            · left
              intro n hn hni p hp8
              obtain ⟨y, hy, rfl⟩ := mem_set hn
              obtain ⟨x, hx, hyx⟩ := mem_set hy
              rw [(hfield y).2, hyx, (hfield' x).1] at hni
              rw [(hfield y).1, hyx, if_neg (fun h => hpi (h.symm.trans hni))]
              exact hp x hx hni p hp8
            · right
              have hne : x.index ≠ k := by
                intro hk
                rw [← hk, byIndex_of_mem hS.nodup hx] at e
                injection e with e
                subst e
                exact hpi (hS.into x hx hj)
              refine ⟨_, set_mem (set_mem hx), ?_, ?_, ?_⟩
              · rw [(hfield _).2, (hfield' x).1]
                rcases List.mem_cons.mp hxi with hxk | hxi
                · exact absurd hxk hne
                · exact hxi
              · rw [(hfield' x).1, if_neg hne, (hfield' x).2]
                exact hxu
              · rw [(hfield _).2, (hfield' x).1]
                exact hj
        | fail => rw [hv] at h; cases h
        | oob => rw [hv] at h; cases h
        | abort => rw [hv] at h; cases h
        | stuck => rw [hv] at h; cases h

/-- Expiry. -/
theorem childExpire_exact {o : Opts} (ha : o.has OPT_AUTO = true) {i : Nat} {J : List Nat} {now : Int} {st st' : Child}
    (h : childExpire o now st = .ok st') (hS : Serves o st.netifs i J)
    (hE : Exact st.netifs st.queue i J ∨ ∃ q ∈ st.queue, keeps now q = false ∧ q.index ∈ J) : Exact st'.netifs st'.queue i J := by
  have hq := (childExpire_frame h).1
  rw [hq]
  unfold childExpire at h
  dsimp only at h
  have hsh : (st.netifs.map (fun n => if (st.queue.filter (fun e => !keeps now e)).any
      (fun e => e.index == n.index) then { n with update := 1 } else n)).map shape = st.netifs.map shape := by
    rw [List.map_map]
    apply List.map_congr_left
    intro n _
    simp only [Function.comp_apply]
    split <;> rfl
  have := updateNetifs_exact ha _ _ _ h (hS.shape hsh)
  dsimp only at this
  refine this ?_
  by_cases hg : ∃ q ∈ st.queue, keeps now q = false ∧ q.index ∈ J
  · right
    obtain ⟨q, hq, hk, hj⟩ := hg
    obtain ⟨s, hs, hsi⟩ := hS.there _ hj
    have hany : (st.queue.filter (fun e => !keeps now e)).any (fun e => e.index == s.index) = true :=
      List.any_eq_true.mpr ⟨q, List.mem_filter.mpr ⟨hq, by rw [hk]; rfl⟩, by rw [hsi]; exact beq_self_eq_true _⟩
    have hm : ({ s with update := 1 } : Netif) ∈ st.netifs.map (fun n => if (st.queue.filter (fun e => !keeps now e)).any
      (fun e => e.index == n.index) then { n with update := 1 } else n) :=
      List.mem_map.mpr ⟨s, hs, by rw [if_pos hany]⟩
    exact ⟨_, hm, List.mem_map_of_mem hm, Nat.one_ne_zero, by show s.index ∈ J; rw [hsi]; exact hj⟩
  · left
    rcases hE with hE | hE
    · intro n hn hni p hp8
      obtain ⟨x, hx, rfl⟩ := List.mem_map.mp hn
      have hxi : x.index = i := by
        rw [← hni]; split <;> rfl
      have hb := hE x hx hxi p hp8
      have hb' : x.protos.testBit p = true ↔ ∃ q ∈ st.queue.filter (keeps now), q.index ∈ J ∧ q.proto = p := by
        rw [hb]
        constructor
        · rintro ⟨q, hq, hj, hqp⟩
          refine ⟨q, List.mem_filter.mpr ⟨hq, ?_⟩, hj, hqp⟩
          cases hk : keeps now q with
          | true => rfl
          | false => exact absurd ⟨q, hq, hk, hj⟩ hg
        · rintro ⟨q, hq, hj, hqp⟩
          exact ⟨q, (List.mem_filter.mp hq).1, hj, hqp⟩
      split <;> exact hb'
    · exact absurd hE hg

/-! ## Reception -/

theorem put_iff (J : List Nat) (Q : List Entry) (e : Entry) (p : Nat) :
    (∃ q ∈ queuePut Q e, q.index ∈ J ∧ q.proto = p) ↔
      (e.index ∈ J ∧ e.proto = p) ∨ ∃ q ∈ Q, q.index ∈ J ∧ q.proto = p := by
  rcases queuePut_cases Q e with ⟨l1, o, l2, h1, h2, _, h4⟩ | ⟨_, l1, l2, h1, h2, _, _⟩
  · have hi : o.index = e.index := congrArg Prod.fst h2
    have hpr : o.proto = e.proto := congrArg (fun x => x.2.1) h2
    rw [h4, h1]
    constructor
    · rintro ⟨q, hq, hj, hp⟩
      rcases List.mem_append.mp hq with hq | hq
      · exact Or.inr ⟨q, List.mem_append_left _ hq, hj, hp⟩
      · rcases List.mem_cons.mp hq with rfl | hq
        · exact Or.inl ⟨hj, hp⟩
        · exact Or.inr ⟨q, List.mem_append_right _ (List.mem_cons_of_mem _ hq), hj, hp⟩
    · rintro (⟨hj, hp⟩ | ⟨q, hq, hj, hp⟩)
      · exact ⟨_, List.mem_append_right _ List.mem_cons_self, hj, hp⟩
      · rcases List.mem_append.mp hq with hq | hq
        · exact ⟨q, List.mem_append_left _ hq, hj, hp⟩
        · rcases List.mem_cons.mp hq with rfl | hq
          · exact ⟨_, List.mem_append_right _ List.mem_cons_self, by rw [hi] at hj; exact hj, by rw [hpr] at hp; exact hp⟩
          · exact ⟨q, List.mem_append_right _ (List.mem_cons_of_mem _ hq), hj, hp⟩
  · rw [h2, h1]
    constructor
    · rintro ⟨q, hq, hj, hp⟩
      rcases List.mem_append.mp hq with hq | hq
      · exact Or.inr ⟨q, List.mem_append_left _ hq, hj, hp⟩
      · rcases List.mem_cons.mp hq with rfl | hq
        · exact Or.inl ⟨hj, hp⟩
        · exact Or.inr ⟨q, List.mem_append_right _ hq, hj, hp⟩
    · rintro (⟨hj, hp⟩ | ⟨q, hq, hj, hp⟩)
      · exact ⟨_, List.mem_append_right _ List.mem_cons_self, hj, hp⟩
      · rcases List.mem_append.mp hq with hq | hq
        · exact ⟨q, List.mem_append_left _ hq, hj, hp⟩
        · exact ⟨q, List.mem_append_right _ (List.mem_cons_of_mem _ hq), hj, hp⟩

theorem put_like (Q : List Entry) (e : Entry) : ∃ q ∈ queuePut Q e, ∃ j, q = { e with id := j } := by
  rcases queuePut_cases Q e with ⟨l1, o, l2, h1, h2, _, h4⟩ | ⟨_, l1, l2, h1, h2, _, _⟩
  · exact ⟨{ e with id := o.id }, by rw [h4]; exact List.mem_append_right _ List.mem_cons_self, o.id, rfl⟩
  · exact ⟨e, by rw [h2]; exact List.mem_append_right _ List.mem_cons_self, e.id, rfl⟩

theorem testBit_setBit_iff (a b p : Nat) (hp : p < 8) :
    ((a ||| 1 <<< b) % 256).testBit p = true ↔ a.testBit p = true ∨ b = p := by
  rw [show (256 : Nat) = 2 ^ 8 from rfl, Nat.testBit_mod_two_pow, Bool.and_eq_true, testBit_or_shift, Bool.or_eq_true, decide_eq_true_eq,
    decide_eq_true_eq]
  exact ⟨fun h => h.2, fun h => ⟨hp, h⟩⟩

theorem exact_put {l : List Netif} {Q : List Entry} {i : Nat} {J : List Nat} (e : Entry) (hE : Exact l Q i J)
    (hj : e.index ∈ J → ∀ n ∈ l, n.index = i → n.protos.testBit e.proto = true) : Exact l (queuePut Q e) i J := by
  intro n hn hi p hp
  rw [put_iff, hE n hn hi p hp]
  constructor
  · exact Or.inr
  · rintro (⟨h1, h2⟩ | h)
    · exact (hE n hn hi p hp).mp (h2 ▸ hj h1 n hn hi)
    · exact h

theorem queueStore_exact {o : Opts} (ha : o.has OPT_AUTO = true) {i : Nat} {J : List Nat} {t : Int} {subif : Netif} {e : Entry}
    {st st' : Child} (hs : subif ∈ st.netifs) (hi : subif.index = e.index) (h : queueStore o t subif e st = .ok st')
    (hS : Serves o st.netifs i J) (hself : e.index = i → i ∈ J)
    (hbye : e.ttl = 0 → ∀ j, keeps t { e with id := j } = false)
    (hE : Exact st.netifs st.queue i J) : Exact st'.netifs st'.queue i J := by
  have hq := (queueStore_frame h).1
  unfold queueStore at h
  dsimp only at h
  split at h
  · next ht =>
    refine childExpire_exact ha h hS ?_
    dsimp only
    by_cases hj : e.index ∈ J
    · right
      obtain ⟨q, hq, j, rfl⟩ := put_like st.queue e
      exact ⟨_, hq, hbye ht j, hj⟩
    · exact Or.inl (exact_put e hE (fun h => absurd h hj))
  · next ht =>
    rw [hq, if_neg ht]
    have hnet : (if o.has OPT_IFDESCR = true then
        ({ netifs := st.netifs, queue := queuePut st.queue e, sessions := st.sessions, nextId := st.nextId + 1,
           out := st.out ++ (netifDescr o subif (queuePut st.queue e)).toList, sent := st.sent } : Child)
        else { netifs := st.netifs, queue := queuePut st.queue e, sessions := st.sessions, nextId := st.nextId + 1,
               out := st.out, sent := st.sent }).netifs = st.netifs := by
      split <;> rfl
    have hpar := (parentOf_attached hs).1
    have hin : e.index ∈ J → (parentOf st.netifs subif).index = i := fun hj => hS.into subif hs (by rw [hi]; exact hj)
    have huniq : e.index ∈ J → ∀ n ∈ st.netifs, n.index = i → n = parentOf st.netifs subif := fun hj n hn hni =>
      index_unique hS.nodup hn hpar (hni.trans (hin hj).symm)
    split at h
    · next hb =>
      injection h with h
      subst h
      rw [hnet]
      refine exact_put e hE (fun hj n hn hni => ?_)
      rw [huniq hj n hn hni]
      rw [Bool.or_eq_true, ha] at hb
      rcases hb with hb | hb
      · cases hb
      · exact hb
    · split at h
      · next hargv =>
        injection h with h
        subst h
        rw [hnet]
        refine exact_put e hE (fun hj => ?_)
        simp only [Bool.and_eq_true, beq_iff_eq] at hargv
        exact absurd hargv.2 (hS.named _ hpar (hin hj) hargv.1.1)
      · injection h with h
        subst h
        dsimp only
        rw [hnet]
        intro n hn hni p hp
        obtain ⟨x, hx, rfl⟩ := mem_set hn
        have hxi : x.index = i := by rw [← hni]; split <;> rfl
        rw [put_iff]
        by_cases hpi : (parentOf st.netifs subif).index = i
        · have hj : e.index ∈ J := by
            rcases hS.only subif hs hpi with h | h
            · rw [← hi]; exact h
            · rw [← hi, h]; exact hself (hi.symm.trans h)
          rw [if_pos (hxi.trans hpi.symm)]
          show ((x.protos ||| 1 <<< e.proto) % 256).testBit p = true ↔ _
          rw [testBit_setBit_iff _ _ _ hp, hE x hx hxi p hp]
          constructor
          · rintro (h | h)
            · exact Or.inr h
            · exact Or.inl ⟨hj, h⟩
          · rintro (⟨-, h⟩ | h)
            · exact Or.inr h
            · exact Or.inl h
        · rw [if_neg (fun h => hpi (h.symm.trans hxi)), hE x hx hxi p hp]
          constructor
          · exact Or.inr
          · rintro (⟨h, -⟩ | h)
            · exact absurd (hin h) hpi
            · exact h

theorem childQueue_store {o : Opts} {now : Option Int} {r : RawMsg} {st st' : Child} (h : childQueue o now r st = .ok st') :
    st' = st ∨ ∃ (t : Int) (subif : Netif) (m : Msg), now = some t ∧ netifByIndex st.netifs r.index = some subif ∧
      queueStore o t subif (entryOf st t r subif m) st = .ok st' := by
  unfold childQueue at h
  split at h
  · cases h; exact Or.inl rfl
  cases now with
  | none => cases h; exact Or.inl rfl
  | some t =>
    simp only at h
    split at h
    · cases h
    split at h
    · cases h
    split at h
    · cases h; exact Or.inl rfl
    next subif hn =>
    split at h
    · cases h; exact Or.inl rfl
    split at h
    · cases h
    · cases h
    · cases h
    · cases h; exact Or.inl rfl
    · next m n hd =>
      split at h
      · cases h; exact Or.inl rfl
      · exact Or.inr ⟨t, subif, m, rfl, hn, h⟩

theorem childQueue_exact {o : Opts} (ha : o.has OPT_AUTO = true) {i : Nat} {J : List Nat} {now : Option Int} {r : RawMsg}
    {st st' : Child} (h : childQueue o now r st = .ok st') (hS : Serves o st.netifs i J) (hr : FromPorts i J (.recv now r))
    (hE : Exact st.netifs st.queue i J) : Exact st'.netifs st'.queue i J := by
  rcases childQueue_store h with rfl | ⟨t, subif, m, rfl, hb, hs⟩
  · exact hE
  · refine queueStore_exact ha (byIndex_mem hb) (byIndex_index hb) hs hS hr.2 ?_ hE
    intro ht j
    have h0 : m.ttl = 0 := ht
    have hlt : r.received < t := hr.1 t (List.mem_singleton.mpr rfl)
    unfold keeps entryOf
    simp only [h0]
    simp
    omega

/-! ## The list after a refresh -/

theorem portsOf_plain {k : Kernel} {l : List Netif} {n : Netif} (h : ¬ n.type > 10) : portsOf k l n = [] := by
  cases e : portsOf k l n with
  | nil => rfl
  | cons m ms =>
    have := (portsOf_mem (k := k) (l := l) (n := n) (m := m) (by rw [e]; exact List.mem_cons_self)).2
    omega

theorem serves_fetch (c : Conf) (hb : c.opts.testBit 5 = true ↔ c.names ≠ []) {k : Kernel} (h : Sane k) {addrs : List IfAddr}
    (haddr : k.ifaddrs = some addrs) {d : Daemon} (hd : (d.child.netifs.map (·.index)).Nodup) {i : Nat} {J : List Nat}
    (hp : HasPorts c i J k) :
    Serves c.opts (daemonFetch c k d).1.child.netifs i J ∧ ∃ n ∈ (daemonFetch c k d).1.child.netifs, n.index = i := by
  obtain ⟨hM, hC⟩ := sane_consistent c h haddr d hd
  obtain ⟨hok, -, -⟩ := sane_fetch h haddr
  have hL : Linked k (daemonFetch c k d).1.child.netifs :=
    detected_linked hd hok (netifFetch_ident c.opts c.names c.mgmt k ⟨d.child.netifs, d.sys, d.mnetif, d.closed⟩ haddr hok hd) hC.kernel
  have hR := fetch_records c k ⟨d.child.netifs, d.sys, d.mnetif, d.closed⟩ addrs haddr hok hd hC.kernel
  obtain ⟨e, he, hei, hname, hkind⟩ := hp addrs (by rw [haddr]; exact List.mem_singleton.mpr rfl)
  obtain ⟨n, hn, hdesc⟩ := hM.bwd e he
  have hni : n.index = i := hdesc.1.trans hei
  have hports := hM.ports k hdesc
  have huniq : ∀ x ∈ (daemonFetch c k d).1.child.netifs, x.index = i → x = n := fun x hx hxi =>
    index_unique hL.nodup hx hn (hxi.trans hni.symm)
  -- the two cases
  have hJ : ∀ j, j ∈ portsBy k (daemonFetch c k d).1.child.netifs n ↔ j ∈ J := by
    intro j
    unfold portsBy
    rw [hdesc.2.2, hports]
    by_cases hk : e.kind > 10
    · rw [if_pos hk] at hkind ⊢
      exact ⟨hkind.1 j, hkind.2 j⟩
    · rw [if_neg hk] at hkind ⊢
      rw [if_neg (by omega), hkind.2.1, hni]
  have hparent : ∀ s ∈ (daemonFetch c k d).1.child.netifs, ∀ a ∈ (daemonFetch c k d).1.child.netifs,
      s.index ∈ portsOf k (daemonFetch c k d).1.child.netifs a → s.parent = some a.index := by
    intro s hs a ha hm
    obtain ⟨x, hx, hxi, hxp, -⟩ := hL.member a ha _ hm
    rw [← index_unique hL.nodup hx hs hxi]
    exact hxp
  refine ⟨⟨hL.nodup, ?_, ?_, ?_, ?_, ?_⟩, n, hn, hni⟩
  · intro x hx hxi hargv
    rw [huniq x hx hxi]
    refine (hR.argv n hn).mpr ⟨?_, ?_⟩
    · rw [hdesc.2.1]
      exact hname (hb.mp hargv)
    · rw [hdesc.2.2]
      by_cases hk : e.kind > 10
      · omega
      · rw [if_neg hk] at hkind
        have := hkind.1
        omega
  · intro s hs hj
    by_cases hk : e.kind > 10
    · have hm : s.index ∈ portsOf k (daemonFetch c k d).1.child.netifs n := by
        rw [hports]
        rw [if_pos hk] at hkind
        exact hkind.2 _ hj
      unfold parentOf
      rw [hparent s hs n hn hm, Option.bind_some, byIndex_of_mem hL.nodup hn]
      exact hni
    · rw [if_neg hk] at hkind
      rw [hkind.2.1] at hj
      have hsi := List.mem_singleton.mp hj
      have hfree := (hL.free s hs (by
        intro a ha
        obtain ⟨e', he', hd'⟩ := hM.fwd a ha
        rw [hM.ports k hd', hsi]
        exact hkind.2.2 e' he')).1
      unfold parentOf
      rw [hfree]
      exact hsi
  · intro s hs hpar
    by_cases hf : ∀ a ∈ (daemonFetch c k d).1.child.netifs, s.index ∉ portsOf k (daemonFetch c k d).1.child.netifs a
    · have hfree := (hL.free s hs hf).1
      unfold parentOf at hpar
      rw [hfree] at hpar
      exact Or.inr hpar
    · have hex : ∃ a ∈ (daemonFetch c k d).1.child.netifs, s.index ∈ portsOf k (daemonFetch c k d).1.child.netifs a := by
        apply Classical.byContradiction
        intro hne
        exact hf (fun a ha hm => hne ⟨a, ha, hm⟩)
      obtain ⟨a, ha, hm⟩ := hex
      unfold parentOf at hpar
      rw [hparent s hs a ha hm, Option.bind_some, byIndex_of_mem hL.nodup ha] at hpar
      have := huniq a ha hpar
      subst this
      left
      apply (hJ _).mp
      unfold portsBy
      by_cases hk : a.type > 10
      · rw [if_pos hk]; exact hm
      · rw [portsOf_plain hk] at hm; cases hm
  · intro x hx hxi
    rw [huniq x hx hxi]
    exact ⟨_, hC.ports n hn, hJ⟩
  · intro j hj
    obtain ⟨s, hs, hsi, -⟩ := portsBy_mem hC hn ((hJ j).mpr hj)
    exact ⟨s, hs, hsi⟩

/-! ## The invariant -/

/-- Interface `i` has not been seen yet, or its protocols are right. -/
structure FollowInv (c : Conf) (i : Nat) (J : List Nat) (d : Daemon) : Prop where
  good : Good d
  cases : ((∀ n ∈ d.child.netifs, n.index ≠ i ∧ n.index ∉ J) ∧ ∀ q ∈ d.child.queue, q.index ∉ J) ∨
    (Serves c.opts d.child.netifs i J ∧ Exact d.child.netifs d.child.queue i J)

theorem exact_static {l l' : List Netif} {Q : List Entry} {i : Nat} {J : List Nat} (h : l'.map static = l.map static)
    (hE : Exact l Q i J) : Exact l' Q i J := by
  intro n hn hni p hp
  have hm : static n ∈ l'.map static := List.mem_map_of_mem hn
  rw [h] at hm
  obtain ⟨x, hx, e⟩ := List.mem_map.mp hm
  have h1 : x.index = n.index := show (static x).index = (static n).index by rw [e]
  have h2 : x.protos = n.protos := show (static x).protos = (static n).protos by rw [e]
  rw [← h2]
  exact hE x hx (h1.trans hni) p hp

theorem follow_sent {c : Conf} {i : Nat} {J : List Nat} {d d' : Daemon} {new : List Tx} (h : Sent d d' new)
    (hI : FollowInv c i J d) : FollowInv c i J d' := by
  refine ⟨good_sent h hI.good, ?_⟩
  have hq : d'.child.queue = d.child.queue := by rw [h.child]
  rw [hq]
  rcases hI.cases with ⟨h1, h2⟩ | ⟨h1, h2⟩
  · refine Or.inl ⟨?_, h2⟩
    intro n hn
    have hm : static n ∈ d'.child.netifs.map static := List.mem_map_of_mem hn
    rw [h.same] at hm
    obtain ⟨x, hx, e⟩ := List.mem_map.mp hm
    have : x.index = n.index := show (static x).index = (static n).index by rw [e]
    rw [← this]
    exact h1 x hx
  · exact Or.inr ⟨h1.shape (map_shape_of_static h.same), exact_static h.same h2⟩

theorem follow_fetch {c : Conf} (hb : c.opts.testBit 5 = true ↔ c.names ≠ []) {i : Nat} {J : List Nat} {k : Kernel} (hk : Sane k)
    (hp : HasPorts c i J k) {d : Daemon} (hI : FollowInv c i J d) : FollowInv c i J (daemonFetch c k d).1 := by
  cases ha : k.ifaddrs with
  | none => rw [daemonFetch_none c k d ha]; exact hI
  | some addrs =>
    refine ⟨good_fetch c hk hI.good, Or.inr ⟨(serves_fetch c hb hk ha hI.good.nodup hp).1, ?_⟩⟩
    obtain ⟨-, hC⟩ := sane_consistent c hk ha d hI.good.nodup
    obtain ⟨hok, -, -⟩ := sane_fetch hk ha
    have hR := fetch_records c k ⟨d.child.netifs, d.sys, d.mnetif, d.closed⟩ addrs ha hok hI.good.nodup hC.kernel
    intro n hn hni p hp8
    have hpr : n.protos = ((withIndex d.child.netifs n.index).map (·.protos)).getD 0 := hR.protos n hn
    rw [hpr, withIndex_eq, hni]
    show _ ↔ ∃ q ∈ d.child.queue, _
    cases hx : netifByIndex d.child.netifs i with
    | none =>
      rcases hI.cases with ⟨h1, h2⟩ | ⟨h1, h2⟩
      · constructor
        · intro h
          rw [Option.map_none, Option.getD_none, Nat.zero_testBit] at h
          cases h
        · rintro ⟨q, hq, hj, -⟩
          exact absurd hj (h2 q hq)
      · constructor
        · intro h
          rw [Option.map_none, Option.getD_none, Nat.zero_testBit] at h
          cases h
        · rintro ⟨q, hq, hj, -⟩
          obtain ⟨s, hs, hsi⟩ := h1.there _ hj
          have hpi := h1.into s hs (by rw [hsi]; exact hj)
          have hm := (parentOf_attached hs).1
          rw [← hpi, byIndex_of_mem h1.nodup hm] at hx
          cases hx
    | some x =>
      have hxm := byIndex_mem hx
      have hxi := byIndex_index hx
      rcases hI.cases with ⟨h1, -⟩ | ⟨-, h2⟩
      · exact absurd hxi (h1 x hxm).1
      · exact h2 x hxm hxi p hp8

theorem follow_absent {c : Conf} {i : Nat} {J : List Nat} {k : Kernel} (hk : Sane k)
    (hp : NotYet i J k) {d : Daemon} (hg : Good d)
    (h1 : ∀ n ∈ d.child.netifs, n.index ≠ i ∧ n.index ∉ J) :
    ∀ n ∈ (daemonFetch c k d).1.child.netifs, n.index ≠ i ∧ n.index ∉ J := by
  cases ha : k.ifaddrs with
  | none => rw [daemonFetch_none c k d ha]; exact h1
  | some addrs =>
    obtain ⟨hM, -⟩ := sane_consistent c hk ha d hg.nodup
    intro n hn
    obtain ⟨e, he, hd⟩ := hM.fwd n hn
    rw [hd.1]
    exact hp addrs (by rw [ha]; exact List.mem_singleton.mpr rfl) e he

theorem follow_round {c : Conf} (hb : c.opts.testBit 5 = true ↔ c.names ≠ []) {i : Nat} {J : List Nat} {k : Kernel} (hk : Sane k)
    (hp : HasPorts c i J k) {m : Media} {link : Option Nat} {d d' : Daemon} (hr : sendRound c k m link d = .ok d')
    (hI : FollowInv c i J d) : FollowInv c i J d' := by
  obtain ⟨d1, new, h1, hs, -⟩ := sendRound_sent hr
  refine follow_sent hs ?_
  rcases h1 with rfl | rfl
  · exact hI
  · exact follow_fetch hb hk hp hI

theorem origin_mem {a b : List Entry} (h : a.map origin = b.map origin) {q : Entry} (hq : q ∈ a) :
    ∃ x ∈ b, x.index = q.index ∧ x.proto = q.proto := by
  have hm : origin q ∈ a.map origin := List.mem_map_of_mem hq
  rw [h] at hm
  obtain ⟨x, hx, e⟩ := List.mem_map.mp hm
  exact ⟨x, hx, congrArg Prod.fst e, congrArg Prod.snd e⟩

theorem exact_origin {l : List Netif} {a b : List Entry} (h : a.map origin = b.map origin) {i : Nat} {J : List Nat}
    (hE : Exact l b i J) : Exact l a i J := by
  intro n hn hni p hp
  rw [hE n hn hni p hp]
  constructor
  · rintro ⟨q, hq, hj, hqp⟩
    obtain ⟨x, hx, e1, e2⟩ := origin_mem h.symm hq
    exact ⟨x, hx, by rw [e1]; exact hj, e2.trans hqp⟩
  · rintro ⟨q, hq, hj, hqp⟩
    obtain ⟨x, hx, e1, e2⟩ := origin_mem h hq
    exact ⟨x, hx, by rw [e1]; exact hj, e2.trans hqp⟩

/-- Events that do not refresh the list, while the interface has not been seen. -/
theorem absent_expire {o : Opts} {i : Nat} {J : List Nat} {now : Int} {st st' : Child} (h : childExpire o now st = .ok st')
    (h1 : ∀ n ∈ st.netifs, n.index ≠ i ∧ n.index ∉ J) (h2 : ∀ q ∈ st.queue, q.index ∉ J) :
    (∀ n ∈ st'.netifs, n.index ≠ i ∧ n.index ∉ J) ∧ ∀ q ∈ st'.queue, q.index ∉ J := by
  refine ⟨?_, ?_⟩
  · intro n hn
    obtain ⟨x, hx, e⟩ := mem_shape (childExpire_bits h).1 hn
    rw [← shape_index e]
    exact h1 x hx
  · intro q hq
    rw [(childExpire_frame h).1] at hq
    exact h2 q (List.mem_filter.mp hq).1

theorem absent_queue {o : Opts} {i : Nat} {J : List Nat} {now : Option Int} {r : RawMsg} {st st' : Child}
    (h : childQueue o now r st = .ok st')
    (h1 : ∀ n ∈ st.netifs, n.index ≠ i ∧ n.index ∉ J) (h2 : ∀ q ∈ st.queue, q.index ∉ J) :
    (∀ n ∈ st'.netifs, n.index ≠ i ∧ n.index ∉ J) ∧ ∀ q ∈ st'.queue, q.index ∉ J := by
  rcases childQueue_store h with rfl | ⟨t, subif, m, rfl, hb, hs⟩
  · exact ⟨h1, h2⟩
  · refine ⟨?_, ?_⟩
    · intro n hn
      obtain ⟨x, hx, e⟩ := mem_shape (queueStore_bits (byIndex_mem hb) (byIndex_index hb) hs).1 hn
      rw [← shape_index e]
      exact h1 x hx
    · have hput : ∀ q ∈ queuePut st.queue (entryOf st t r subif m), q.index ∉ J := by
        intro q hq
        rcases queue_of_put hq with ⟨e, -⟩ | hq
        · rw [e]
          show r.index ∉ J
          rw [← byIndex_index hb]
          exact (h1 _ (byIndex_mem hb)).2
        · exact h2 q hq
      intro q hq
      rw [(queueStore_frame hs).1] at hq
      split at hq
      · exact hput q (List.mem_filter.mp hq).1
      · exact hput q hq

/-- Operations on the table. -/
theorem follow_child {c : Conf} {i : Nat} {J : List Nat} {d : Daemon} {ch : Child} (hI : FollowInv c i J d)
    (hg : Good { d with child := ch })
    (habs : (∀ n ∈ d.child.netifs, n.index ≠ i ∧ n.index ∉ J) → (∀ q ∈ d.child.queue, q.index ∉ J) →
      (∀ n ∈ ch.netifs, n.index ≠ i ∧ n.index ∉ J) ∧ ∀ q ∈ ch.queue, q.index ∉ J)
    (hex : Serves c.opts d.child.netifs i J → Exact d.child.netifs d.child.queue i J →
      Serves c.opts ch.netifs i J ∧ Exact ch.netifs ch.queue i J) : FollowInv c i J { d with child := ch } := by
  refine ⟨hg, ?_⟩
  rcases hI.cases with ⟨h1, h2⟩ | ⟨h1, h2⟩
  · exact Or.inl (habs h1 h2)
  · exact Or.inr (hex h1 h2)

theorem follow_step {c : Conf} (hauto : c.opts.testBit 3 = true) (hb : c.opts.testBit 5 = true ↔ c.names ≠ []) {i : Nat} {J : List Nat}
    {e : Event} (he : SaneEvent e) (hp : Refreshed (HasPorts c i J) e) (hr : FromPorts i J e) {d d' : Daemon}
    (hs : daemonStep c d e = .ok d') (hI : FollowInv c i J d) : FollowInv c i J d' := by
  have hgood := good_step hI.good he hs
  cases e with
  | timer k m now =>
    rw [daemonStep] at hs
    cases hround : sendRound c k m none d with
    | ok d1 =>
      rw [hround] at hs
      simp only [Res.bind_ok] at hs
      have h1 := follow_round hb he hp hround hI
      split at hs
      · obtain ⟨ch, hc, rfl⟩ := lift_ok hs
        exact follow_child h1 hgood (absent_expire hc)
          (fun hS hE => ⟨hS.shape (childExpire_bits hc).1, childExpire_exact hauto hc hS (Or.inl hE)⟩)
      · injection hs with hs
        subst hs
        exact h1
    | fail => rw [hround] at hs; cases hs
    | oob => rw [hround] at hs; cases hs
    | abort => rw [hround] at hs; cases hs
    | stuck => rw [hround] at hs; cases hs
  | link k m a b j =>
    rw [daemonStep] at hs
    split at hs
    · exact follow_round hb he hp hs hI
    · injection hs with hs
      subst hs
      exact hI
  | recv now r =>
    obtain ⟨ch, hc, rfl⟩ := lift_ok hs
    refine follow_child hI hgood (absent_queue hc) (fun hS hE => ⟨hS.shape (shape_of_bare (childQueue_bare hc)), ?_⟩)
    exact childQueue_exact hauto hc hS hr hE
  | accept =>
    obtain ⟨ch, hc, rfl⟩ := lift_ok hs
    injection hc with hc
    subst hc
    exact follow_child hI hgood (fun h1 h2 => ⟨h1, h2⟩) (fun h1 h2 => ⟨h1, h2⟩)
  | write sid ws =>
    obtain ⟨ch, hc, rfl⟩ := lift_ok hs
    obtain ⟨hn, hq⟩ := cliWrite_origin hc
    refine follow_child hI hgood (fun h1 h2 => ⟨by rw [hn]; exact h1, ?_⟩) (fun h1 h2 => ⟨by rw [hn]; exact h1, ?_⟩)
    · intro q hq'
      obtain ⟨x, hx, e1, -⟩ := origin_mem hq hq'
      rw [← e1]
      exact h2 x hx
    · rw [hn]
      exact exact_origin hq h2

theorem absent_step {c : Conf} {i : Nat} {J : List Nat}
    {e : Event} (he : SaneEvent e) (hp : Refreshed (NotYet i J) e) {d d' : Daemon}
    (hs : daemonStep c d e = .ok d') (hg : Good d) (h1 : ∀ n ∈ d.child.netifs, n.index ≠ i ∧ n.index ∉ J)
    (h2 : ∀ q ∈ d.child.queue, q.index ∉ J) :
    (∀ n ∈ d'.child.netifs, n.index ≠ i ∧ n.index ∉ J) ∧ ∀ q ∈ d'.child.queue, q.index ∉ J := by
  have hround : ∀ {k : Kernel} {m : Media} {link : Option Nat} {d1 : Daemon}, Sane k → NotYet i J k →
      sendRound c k m link d = .ok d1 →
      (∀ n ∈ d1.child.netifs, n.index ≠ i ∧ n.index ∉ J) ∧ ∀ q ∈ d1.child.queue, q.index ∉ J := by
    intro k m link d1 hk hn hr
    refine ⟨?_, by rw [sendRound_child hr]; exact h2⟩
    obtain ⟨d2, new, hd, hs, -⟩ := sendRound_sent hr
    have hd2 : ∀ n ∈ d2.child.netifs, n.index ≠ i ∧ n.index ∉ J := by
      rcases hd with rfl | rfl
      · exact h1
      · exact follow_absent hk hn hg h1
    intro n hn
    obtain ⟨x, hx, e⟩ := mem_shape (map_shape_of_static hs.same) hn
    rw [← shape_index e]
    exact hd2 x hx
  cases e with
  | timer k m now =>
    rw [daemonStep] at hs
    cases hr : sendRound c k m none d with
    | ok d1 =>
      rw [hr] at hs
      simp only [Res.bind_ok] at hs
      obtain ⟨h3, h4⟩ := hround he hp hr
      split at hs
      · obtain ⟨ch, hc, rfl⟩ := lift_ok hs
        exact absent_expire hc h3 h4
      · injection hs with hs
        subst hs
        exact ⟨h3, h4⟩
    | fail => rw [hr] at hs; cases hs
    | oob => rw [hr] at hs; cases hs
    | abort => rw [hr] at hs; cases hs
    | stuck => rw [hr] at hs; cases hs
  | link k m a b j =>
    rw [daemonStep] at hs
    split at hs
    · exact hround he hp hs
    · injection hs with hs
      subst hs
      exact ⟨h1, h2⟩
  | recv now r =>
    obtain ⟨ch, hc, rfl⟩ := lift_ok hs
    exact absent_queue hc h1 h2
  | accept =>
    obtain ⟨ch, hc, rfl⟩ := lift_ok hs
    injection hc with hc
    subst hc
    exact ⟨h1, h2⟩
  | write sid ws =>
    obtain ⟨ch, hc, rfl⟩ := lift_ok hs
    obtain ⟨hn, hq⟩ := cliWrite_origin hc
    refine ⟨by rw [hn]; exact h1, ?_⟩
    intro q hq'
    obtain ⟨x, hx, e1, -⟩ := origin_mem hq hq'
    rw [← e1]
    exact h2 x hx

/-- A history: first without the interface, then with it. -/
theorem follow_run {c : Conf} (hauto : c.opts.testBit 3 = true) (hb : c.opts.testBit 5 = true ↔ c.names ≠ []) {i : Nat} {J : List Nat}
    {d0 d : Daemon} (h0 : Started d0) {pre post : List Event} (hsane : ∀ e ∈ pre ++ post, SaneEvent e)
    (hpre : ∀ e ∈ pre, Refreshed (NotYet i J) e) (hpost : ∀ e ∈ post, Refreshed (HasPorts c i J) e ∧ FromPorts i J e)
    (hr : daemonRun c (pre ++ post) d0 = .ok d) : FollowInv c i J d := by
  rw [daemonRun_append] at hr
  cases h1 : daemonRun c pre d0 with
  | ok d1 =>
    rw [h1, Res.bind_ok] at hr
    have hg : Good d1 := good_run h0 (fun e he => hsane e (List.mem_append_left _ he)) h1
    have habs := run_induction (c := c) (d0 := d0)
      (P := fun es d => (∀ e ∈ es, SaneEvent e ∧ Refreshed (NotYet i J) e) → Good d ∧
        (∀ n ∈ d.child.netifs, n.index ≠ i ∧ n.index ∉ J) ∧ ∀ q ∈ d.child.queue, q.index ∉ J)
      (fun _ => ⟨good_started h0, by rw [h0.1]; exact fun _ h => (nomatch h), by rw [h0.2.1]; exact fun _ h => (nomatch h)⟩)
      (fun es e d d' _ ih hs hall => by
        obtain ⟨a, b, b'⟩ := ih (fun x hx => hall x (List.mem_append_left _ hx))
        obtain ⟨h3, h4⟩ := hall e (List.mem_append_right _ (List.mem_singleton.mpr rfl))
        exact ⟨good_step a h3 hs, absent_step h3 h4 hs a b b'⟩) pre d1 h1
      (fun e he => ⟨hsane e (List.mem_append_left _ he), hpre e he⟩)
    have hI : FollowInv c i J d1 := ⟨hg, Or.inl habs.2⟩
    exact run_induction (c := c) (d0 := d1)
      (P := fun es d => (∀ e ∈ es, SaneEvent e ∧ Refreshed (HasPorts c i J) e ∧ FromPorts i J e) → FollowInv c i J d)
      (fun _ => hI)
      (fun es e d d' _ ih hs hall => by
        have hi := ih (fun x hx => hall x (List.mem_append_left _ hx))
        obtain ⟨h3, h4, h5⟩ := hall e (List.mem_append_right _ (List.mem_singleton.mpr rfl))
        exact follow_step hauto hb h3 h4 h5 hs hi) post d hr
      (fun e he => ⟨hsane e (List.mem_append_right _ he), hpost e he⟩)
  | fail => rw [h1] at hr; cases hr
  | oob => rw [h1] at hr; cases hr
  | abort => rw [h1] at hr; cases hr
  | stuck => rw [h1] at hr; cases hr

/-- What is announced for `i`, in terms of the table. -/
theorem follow_known {c : Conf} {i : Nat} {J : List Nat} {d : Daemon} (hI : FollowInv c i J d) (p : Nat) (hp : p < 8) :
    (((withIndex d.child.netifs i).map (fun n : Netif => n.protos)).getD 0).testBit p = true ↔
      ∃ q ∈ d.child.queue, q.index ∈ J ∧ q.proto = p := by
  rw [withIndex_eq]
  cases hx : netifByIndex d.child.netifs i with
  | none =>
    rw [Option.map_none, Option.getD_none, Nat.zero_testBit]
    rcases hI.cases with ⟨-, h2⟩ | ⟨h1, -⟩
    · exact ⟨fun h => (nomatch h), fun ⟨q, hq, hj, _⟩ => absurd hj (h2 q hq)⟩
    · refine ⟨fun h => (nomatch h), ?_⟩
      rintro ⟨q, hq, hj, -⟩
      obtain ⟨s, hs, hsi⟩ := h1.there _ hj
      have hpi := h1.into s hs (by rw [hsi]; exact hj)
      have hm := (parentOf_attached hs).1
      rw [← hpi, byIndex_of_mem h1.nodup hm] at hx
      cases hx
  | some x =>
    have hxm := byIndex_mem hx
    have hxi := byIndex_index hx
    rcases hI.cases with ⟨h1, -⟩ | ⟨-, h2⟩
    · exact absurd hxi (h1 x hxm).1
    · exact h2 x hxm hxi p hp

end Ladvd
