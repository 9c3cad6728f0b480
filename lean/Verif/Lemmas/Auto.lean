import Verif.Lemmas.Send
import Verif.Lemmas.Session
import Verif.Lemmas.Refs
import Verif.Spec.Send
/-!
# Automatically enabled protocols, and the table operations as steps of the whole process
-/

namespace Ladvd

open Spec

/-! ## The part of a record no table operation changes -/

/-- The parts of an interface record that determine names, kinds and links. -/
def shape (n : Netif) : Netif := { static n with protos := 0, update := 0 }

theorem shape_of_static {a b : Netif} (h : static a = static b) : shape a = shape b := by
  unfold shape; rw [h]

theorem map_shape_of_static {l l' : List Netif} (h : l'.map static = l.map static) : l'.map shape = l.map shape := by
  have : ∀ l : List Netif, l.map shape = (l.map static).map (fun n => { n with protos := 0, update := 0 }) := by
    intro l; rw [List.map_map]; rfl
  rw [this, this, h]

theorem mem_shape {l l' : List Netif} (h : l'.map shape = l.map shape) {n : Netif} (hn : n ∈ l') :
    ∃ x ∈ l, shape x = shape n := by
  have : shape n ∈ l'.map shape := List.mem_map_of_mem hn
  rw [h] at this
  exact List.mem_map.mp this

theorem shape_index {a b : Netif} (h : shape a = shape b) : a.index = b.index :=
  show (shape a).index = (shape b).index by rw [h]
theorem shape_parent {a b : Netif} (h : shape a = shape b) : a.parent = b.parent :=
  show (shape a).parent = (shape b).parent by rw [h]
theorem shape_subif {a b : Netif} (h : shape a = shape b) : a.subif = b.subif :=
  show (shape a).subif = (shape b).subif by rw [h]
theorem shape_type {a b : Netif} (h : shape a = shape b) : a.type = b.type :=
  show (shape a).type = (shape b).type by rw [h]
theorem shape_name {a b : Netif} (h : shape a = shape b) : a.name = b.name :=
  show (shape a).name = (shape b).name by rw [h]

theorem index_of_shape {l l' : List Netif} (h : l'.map shape = l.map shape) : l'.map (·.index) = l.map (·.index) := by
  have : ∀ l : List Netif, l.map (·.index) = (l.map shape).map (·.index) := by
    intro l; rw [List.map_map]; rfl
  rw [this l', this l, h]

theorem reach_shape {l l' : List Netif} (h : l'.map shape = l.map shape) {i j : Nat} (hr : Reach l' i j) : Reach l i j := by
  induction hr with
  | first hn hi hs =>
    obtain ⟨x, hx, e⟩ := mem_shape h hn
    exact .first hx ((shape_index e).trans hi) ((shape_subif e).trans hs)
  | next hr hn hs ih =>
    obtain ⟨x, hx, e⟩ := mem_shape h hn
    exact .next (by rw [shape_index e]; exact ih) hx ((shape_subif e).trans hs)

theorem attached_shape {l l' : List Netif} (h : l'.map shape = l.map shape) {i j : Nat} (ha : Attached l' i j) :
    Attached l i j := by
  rcases ha with ha | ⟨x, hx, hj, hp⟩ | ha
  · exact Or.inl ha
  · obtain ⟨y, hy, e⟩ := mem_shape h hx
    exact Or.inr (Or.inl ⟨y, hy, (shape_index e).trans hj, (shape_parent e).trans hp⟩)
  · exact Or.inr (Or.inr (reach_shape h ha))

theorem setNetif_shape (l : List Netif) (i : Nat) (f : Netif → Netif) (hf : ∀ n, shape (f n) = shape n) :
    (setNetif l i f).map shape = l.map shape := setNetif_map shape f l i hf

/-! ## Ports are attached -/

theorem subifLoop_reach {l : List Netif} {n : Netif} (hn : n ∈ l) : ∀ (fuel : Nat) (cur : Option Netif) (ps : List Netif),
    (∀ s, cur = some s → s ∈ l ∧ (s.index = n.index ∨ Reach l n.index s.index)) →
    subifLoop l n fuel cur = .ok ps → ∀ s ∈ ps, s ∈ l ∧ (s.index = n.index ∨ Reach l n.index s.index) := by
  intro fuel
  induction fuel with
  | zero => intro cur ps _ h; cases h
  | succ fuel ih =>
    intro cur ps hc h
    simp only [subifLoop] at h
    cases e : subifIter l cur n with
    | none =>
      rw [e] at h
      injection h with h
      subst h
      intro s hs
      cases hs
    | some s =>
      rw [e] at h
      simp only [Res.bind_eq, Res.pure_eq] at h
      have hs : s ∈ l ∧ (s.index = n.index ∨ Reach l n.index s.index) := by
        unfold subifIter at e
        cases cur with
        | none =>
          dsimp only at e
          split at e
          · cases hb : n.subif with
            | none => rw [hb] at e; cases e
            | some j =>
              rw [hb] at e
              dsimp only [Option.bind_some] at e
              refine ⟨byIndex_mem e, Or.inr ?_⟩
              rw [byIndex_index e]
              exact .first hn rfl hb
          · split at e
            · cases e
            · injection e with e
              subst e
              exact ⟨hn, Or.inl rfl⟩
        | some x =>
          dsimp only at e
          obtain ⟨hx, hr⟩ := hc x rfl
          split at e
          · cases e
          · next hne =>
            cases hb : x.subif with
            | none => rw [hb] at e; cases e
            | some j =>
              rw [hb] at e
              dsimp only [Option.bind_some] at e
              refine ⟨byIndex_mem e, Or.inr ?_⟩
              rw [byIndex_index e]
              rcases hr with hr | hr
              · exact absurd hr hne
              · exact .next hr hx hb
      cases e2 : subifLoop l n fuel (some s) with
      | ok rest =>
        rw [e2] at h
        injection h with h
        subst h
        intro y hy
        rcases List.mem_cons.mp hy with rfl | hy
        · exact hs
        · exact ih (some s) rest (by intro z hz; injection hz with hz; subst hz; exact hs) e2 y hy
      | fail => rw [e2] at h; cases h
      | oob => rw [e2] at h; cases h
      | abort => rw [e2] at h; cases h
      | stuck => rw [e2] at h; cases h

theorem ports_reach {l : List Netif} {n : Netif} (hn : n ∈ l) {ps : List Netif} (h : ports l n = .ok ps) :
    ∀ s ∈ ps, s ∈ l ∧ (s.index = n.index ∨ Reach l n.index s.index) :=
  subifLoop_reach hn _ none ps (fun _ h => nomatch h) h

theorem portIdx_attached {l : List Netif} {n : Netif} (hn : n ∈ l) {ps : List Nat} (h : portIdx l n = .ok ps) :
    ∀ j ∈ ps, Attached l n.index j := by
  unfold portIdx at h
  cases e : ports l n with
  | ok xs =>
    rw [e] at h
    injection h with h
    subst h
    intro j hj
    obtain ⟨s, hs, rfl⟩ := List.mem_map.mp hj
    rcases (ports_reach hn e s hs).2 with h | h
    · exact Or.inl h
    · exact Or.inr (Or.inr h)
  | fail => rw [e] at h; cases h
  | oob => rw [e] at h; cases h
  | abort => rw [e] at h; cases h
  | stuck => rw [e] at h; cases h

/-! ## Protocol bits -/

theorem testBit_or_shift (a b p : Nat) : (a ||| 1 <<< b).testBit p = (a.testBit p || decide (b = p)) := by
  rw [Nat.testBit_or]
  congr 1
  rw [Nat.one_shiftLeft, Nat.testBit_two_pow]

theorem protos_inner (i : Nat) (queue : List Entry) : ∀ (acc p : Nat),
    (queue.foldl (fun acc q => if i = q.index then acc ||| (1 <<< q.proto) else acc) acc).testBit p = true →
    acc.testBit p = true ∨ ∃ q ∈ queue, q.index = i ∧ q.proto = p := by
  induction queue with
  | nil => intro acc p h; exact Or.inl h
  | cons q queue ih =>
    intro acc p h
    rw [List.foldl_cons] at h
    rcases ih _ _ h with h | ⟨x, hx, h⟩
    · split at h
      · next hi =>
        rw [testBit_or_shift, Bool.or_eq_true] at h
        rcases h with h | h
        · exact Or.inl h
        · exact Or.inr ⟨q, List.mem_cons_self, hi.symm, of_decide_eq_true h⟩
      · exact Or.inl h
    · exact Or.inr ⟨x, List.mem_cons_of_mem _ hx, h⟩

theorem protos_outer (queue : List Entry) (ps : List Netif) : ∀ (acc p : Nat),
    (ps.foldl (fun acc s => queue.foldl (fun acc q => if s.index = q.index then acc ||| (1 <<< q.proto) else acc) acc) acc).testBit p = true →
    acc.testBit p = true ∨ ∃ s ∈ ps, ∃ q ∈ queue, q.index = s.index ∧ q.proto = p := by
  induction ps with
  | nil => intro acc p h; exact Or.inl h
  | cons s ps ih =>
    intro acc p h
    rw [List.foldl_cons] at h
    rcases ih _ _ h with h | ⟨x, hx, h⟩
    · rcases protos_inner _ _ _ _ h with h | ⟨q, hq, h⟩
      · exact Or.inl h
      · exact Or.inr ⟨s, List.mem_cons_self, q, hq, h⟩
    · exact Or.inr ⟨x, List.mem_cons_of_mem _ hx, h⟩

theorem netifProtos_bits {l : List Netif} {n : Netif} (hn : n ∈ l) {queue : List Entry} {v : Nat}
    (h : netifProtos l n queue = .ok v) (p : Nat) (hp : v.testBit p = true) :
    ∃ q ∈ queue, q.proto = p ∧ Attached l n.index q.index := by
  unfold netifProtos at h
  simp only [Res.bind_eq, Res.pure_eq] at h
  cases e : ports l n with
  | ok ps =>
    rw [e] at h
    injection h with h
    subst h
    rw [show (256 : Nat) = 2 ^ 8 from rfl, Nat.testBit_mod_two_pow, Bool.and_eq_true] at hp
    rcases protos_outer _ _ _ _ hp.2 with h | ⟨s, hs, q, hq, hi, hqp⟩
    · rw [Nat.zero_testBit] at h; cases h
    · refine ⟨q, hq, hqp, ?_⟩
      rw [hi]
      rcases (ports_reach hn e s hs).2 with h | h
      · exact Or.inl h
      · exact Or.inr (Or.inr h)
  | fail => rw [e] at h; cases h
  | oob => rw [e] at h; cases h
  | abort => rw [e] at h; cases h
  | stuck => rw [e] at h; cases h

theorem parentOf_attached {l : List Netif} {s : Netif} (hs : s ∈ l) :
    parentOf l s ∈ l ∧ Attached l (parentOf l s).index s.index := by
  unfold parentOf
  cases e : s.parent.bind (netifByIndex l) with
  | none => exact ⟨hs, Or.inl rfl⟩
  | some n =>
    cases hp : s.parent with
    | none => rw [hp] at e; cases e
    | some i =>
      rw [hp] at e
      dsimp only [Option.bind_some] at e
      refine ⟨byIndex_mem e, Or.inr (Or.inl ⟨s, hs, rfl, ?_⟩)⟩
      rw [hp]
      exact congrArg some (byIndex_index e).symm

/-- Why a protocol bit of an interface of `l'` is set: it was set in `l`, or it is due to an entry of the table received on
the interface or one of its ports. -/
def BitFrom (o : Opts) (l : List Netif) (queue : List Entry) (l' : List Netif) : Prop :=
  ∀ n' ∈ l', ∀ p, n'.protos.testBit p = true →
    (∃ n ∈ l, n.index = n'.index ∧ n.protos.testBit p = true) ∨
    (o.has OPT_AUTO = true ∧ ∃ q ∈ queue, q.proto = p ∧ Attached l n'.index q.index)

theorem BitFrom.refl (o : Opts) (l : List Netif) (q : List Entry) : BitFrom o l q l :=
  fun n hn _ hp => Or.inl ⟨n, hn, rfl, hp⟩

theorem BitFrom.trans {o : Opts} {a b d : List Netif} {q : List Entry} (h1 : BitFrom o a q b) (hs : b.map shape = a.map shape)
    (h2 : BitFrom o b q d) : BitFrom o a q d := by
  intro n hn p hp
  rcases h2 n hn p hp with ⟨x, hx, hi, hxp⟩ | ⟨ha, e, he, hep, hat⟩
  · rcases h1 x hx p hxp with ⟨y, hy, hyi, hyp⟩ | ⟨ha, e, he, hep, hat⟩
    · exact Or.inl ⟨y, hy, hyi.trans hi, hyp⟩
    · exact Or.inr ⟨ha, e, he, hep, hi ▸ hat⟩
  · exact Or.inr ⟨ha, e, he, hep, attached_shape hs hat⟩

theorem bitFrom_set_same {o : Opts} (l : List Netif) (q : List Entry) (i : Nat) (f : Netif → Netif)
    (hf : ∀ n, (f n).index = n.index ∧ (f n).protos = n.protos) : BitFrom o l q (setNetif l i f) := by
  intro n hn p hp
  unfold setNetif at hn
  obtain ⟨x, hx, rfl⟩ := List.mem_map.mp hn
  refine Or.inl ⟨x, hx, ?_, ?_⟩
  · split
    · exact (hf x).1.symm
    · rfl
  · split at hp
    · rw [(hf x).2] at hp; exact hp
    · exact hp

/-- The update loop. -/
theorem updateNetifs_bits (o : Opts) (is : List Nat) : ∀ (st st' : Child), updateNetifs o is st = .ok st' →
    st'.netifs.map shape = st.netifs.map shape ∧ BitFrom o st.netifs st.queue st'.netifs := by
  induction is with
  | nil => intro st st' h; cases h; exact ⟨rfl, BitFrom.refl _ _ _⟩
  | cons i is ih =>
    intro st st' h
    rw [updateNetifs] at h
    cases e : netifByIndex st.netifs i with
    | none => rw [e] at h; exact ih st st' h
    | some subif =>
      rw [e] at h
      dsimp only at h
      by_cases hu : subif.update = 0
      · rw [if_pos hu] at h; exact ih st st' h
      · rw [if_neg hu] at h
        simp only [Res.bind_eq, Res.pure_eq] at h
        -- the list after the protocol update
        have key : ∀ st1 : Child, st1.netifs.map shape = st.netifs.map shape → st1.queue = st.queue →
            BitFrom o st.netifs st.queue st1.netifs →
            (updateNetifs o is { (if o.has OPT_IFDESCR = true then
                { st1 with out := st1.out ++ (netifDescr o subif st1.queue).toList } else st1) with
              netifs := setNetif (if o.has OPT_IFDESCR = true then
                { st1 with out := st1.out ++ (netifDescr o subif st1.queue).toList } else st1).netifs i
                (fun n => { n with update := 0 }) }) = .ok st' →
            st'.netifs.map shape = st.netifs.map shape ∧ BitFrom o st.netifs st.queue st'.netifs := by
          intro st1 hs1 hq1 hb1 h
          have hnet : (if o.has OPT_IFDESCR = true then
                { st1 with out := st1.out ++ (netifDescr o subif st1.queue).toList } else st1).netifs = st1.netifs := by
            split <;> rfl
          have hque : (if o.has OPT_IFDESCR = true then
                { st1 with out := st1.out ++ (netifDescr o subif st1.queue).toList } else st1).queue = st1.queue := by
            split <;> rfl
          obtain ⟨a, b⟩ := ih _ _ h
          dsimp only at a b
          rw [hnet] at a b
          rw [hque, hq1] at b
          have hz : (setNetif st1.netifs i (fun n => { n with update := 0 })).map shape = st1.netifs.map shape :=
            setNetif_shape _ _ _ (by intro n; rfl)
          have hzb : BitFrom o st1.netifs st.queue (setNetif st1.netifs i (fun n => { n with update := 0 })) :=
            bitFrom_set_same _ _ _ _ (by intro n; exact ⟨rfl, rfl⟩)
          refine ⟨a.trans (hz.trans hs1), ?_⟩
          exact (hb1.trans hs1 hzb).trans (hz.trans hs1) b
        by_cases ha : o.has OPT_AUTO = true
        · rw [if_pos ha] at h
          cases hp : netifProtos st.netifs (parentOf st.netifs subif) st.queue with
          | ok v =>
            rw [hp] at h
            simp only [Res.bind_ok] at h
            have hsub : subif ∈ st.netifs := byIndex_mem e
            have hpar := parentOf_attached hsub
            refine key { st with netifs := setNetif st.netifs (parentOf st.netifs subif).index (fun n => { n with protos := v }) } ?_ rfl ?_ h
            · exact setNetif_shape _ _ _ (by intro n; rfl)
            · intro n hn p hpb
              dsimp only at hn
              unfold setNetif at hn
              obtain ⟨x, hx, rfl⟩ := List.mem_map.mp hn
              by_cases hxi : x.index = (parentOf st.netifs subif).index
              · rw [if_pos hxi] at hpb ⊢
                obtain ⟨q, hq, hqp, hat⟩ := netifProtos_bits hpar.1 hp p hpb
                exact Or.inr ⟨ha, q, hq, hqp, by show Attached _ x.index _; rw [hxi]; exact hat⟩
              · rw [if_neg hxi] at hpb ⊢
                exact Or.inl ⟨x, hx, rfl, hpb⟩
          | fail => rw [hp] at h; cases h
          | oob => rw [hp] at h; cases h
          | abort => rw [hp] at h; cases h
          | stuck => rw [hp] at h; cases h
        · rw [if_neg ha] at h
          simp only [Res.bind_ok] at h
          exact key st rfl rfl (BitFrom.refl _ _ _) h


theorem childExpire_bits {o : Opts} {now : Int} {st st' : Child} (h : childExpire o now st = .ok st') :
    st'.netifs.map shape = st.netifs.map shape ∧ BitFrom o st.netifs st.queue st'.netifs := by
  unfold childExpire at h
  dsimp only at h
  obtain ⟨a, b⟩ := updateNetifs_bits o _ _ _ h
  dsimp only at a b
  have hm : ∀ (g : Entry → Netif → Bool), (st.netifs.map (fun n => if (st.queue.filter (fun e => !keeps now e)).any
      (fun e => g e n) then { n with update := 1 } else n)).map shape = st.netifs.map shape := by
    intro g
    rw [List.map_map]
    apply List.map_congr_left
    intro n _
    simp only [Function.comp_apply]
    split <;> rfl
  have hm' := hm (fun e n => e.index == n.index)
  refine ⟨a.trans hm', ?_⟩
  intro n hn p hp
  rcases b n hn p hp with ⟨x, hx, hi, hxp⟩ | ⟨ha, q, hq, hqp, hat⟩
  · obtain ⟨y, hy, rfl⟩ := List.mem_map.mp hx
    refine Or.inl ⟨y, hy, ?_, ?_⟩
    · rw [← hi]; split <;> rfl
    · split at hxp <;> exact hxp
  · exact Or.inr ⟨ha, q, (List.mem_filter.mp hq).1, hqp, attached_shape hm' hat⟩

theorem testBit_setBit {a b p : Nat} (h : ((a ||| 1 <<< b) % 256).testBit p = true) : a.testBit p = true ∨ b = p := by
  rw [show (256 : Nat) = 2 ^ 8 from rfl, Nat.testBit_mod_two_pow, Bool.and_eq_true, testBit_or_shift, Bool.or_eq_true] at h
  rcases h.2 with h | h
  · exact Or.inl h
  · exact Or.inr (of_decide_eq_true h)

/-- Storing an entry. -/
theorem queueStore_bits {o : Opts} {t : Int} {subif : Netif} {e : Entry} {st st' : Child} (hs : subif ∈ st.netifs)
    (hi : subif.index = e.index) (h : queueStore o t subif e st = .ok st') :
    st'.netifs.map shape = st.netifs.map shape ∧ BitFrom o st.netifs (e :: queuePut st.queue e) st'.netifs := by
  unfold queueStore at h
  dsimp only at h
  split at h
  · obtain ⟨a, b⟩ := childExpire_bits h
    refine ⟨a, ?_⟩
    intro n hn p hp
    rcases b n hn p hp with hx | ⟨ha, q, hq, hqp, hat⟩
    · exact Or.inl hx
    · exact Or.inr ⟨ha, q, List.mem_cons_of_mem _ hq, hqp, hat⟩
  · have hnet : (if o.has OPT_IFDESCR = true then
        ({ netifs := st.netifs, queue := queuePut st.queue e, sessions := st.sessions, nextId := st.nextId + 1,
           out := st.out ++ (netifDescr o subif (queuePut st.queue e)).toList, sent := st.sent } : Child)
        else { netifs := st.netifs, queue := queuePut st.queue e, sessions := st.sessions, nextId := st.nextId + 1,
               out := st.out, sent := st.sent }).netifs = st.netifs := by
      split <;> rfl
    split at h
    · injection h with h
      subst h
      rw [hnet]
      exact ⟨rfl, BitFrom.refl _ _ _⟩
    · next hauto =>
      split at h
      · injection h with h
        subst h
        rw [hnet]
        exact ⟨rfl, BitFrom.refl _ _ _⟩
      · injection h with h
        subst h
        dsimp only
        rw [hnet]
        have hpar := parentOf_attached hs
        refine ⟨setNetif_shape _ _ _ (by intro n; rfl), ?_⟩
        intro n hn p hp
        unfold setNetif at hn
        obtain ⟨x, hx, rfl⟩ := List.mem_map.mp hn
        by_cases hxi : x.index = (parentOf st.netifs subif).index
        · rw [if_pos hxi] at hp ⊢
          rcases testBit_setBit hp with hp | hp
          · exact Or.inl ⟨x, hx, rfl, hp⟩
          · refine Or.inr ⟨?_, e, List.mem_cons_self, hp, ?_⟩
            · cases ha : o.has OPT_AUTO with
              | true => rfl
              | false => rw [ha] at hauto; simp at hauto
            · show Attached _ x.index _
              rw [hxi, ← hi]; exact hpar.2
        · rw [if_neg hxi] at hp ⊢
          exact Or.inl ⟨x, hx, rfl, hp⟩

theorem queueStore_sub {o : Opts} {t : Int} {subif : Netif} {e : Entry} {st st' : Child}
    (h : queueStore o t subif e st = .ok st') : ∀ q ∈ st'.queue, q ∈ queuePut st.queue e := by
  intro x hx
  rw [(queueStore_frame h).1] at hx
  split at hx
  · exact (List.mem_filter.mp hx).1
  · exact hx

/-- Reception. -/
theorem childQueue_bits {o : Opts} {now : Option Int} {r : RawMsg} {st st' : Child} (h : childQueue o now r st = .ok st') :
    st' = st ∨ ∃ e : Entry, e.index = r.index ∧ (∀ p : Proto, e.proto = p.num → advertises r p) ∧
      st'.netifs.map shape = st.netifs.map shape ∧ BitFrom o st.netifs (e :: queuePut st.queue e) st'.netifs ∧
      ∀ q ∈ st'.queue, q ∈ queuePut st.queue e := by
  unfold childQueue at h
  split at h
  · injection h with h; exact Or.inl h.symm
  · split at h
    · injection h with h; exact Or.inl h.symm
    · split at h
      · cases h
      · next q hq =>
        split at h
        · cases h
        · split at h
          · injection h with h; exact Or.inl h.symm
          · next subif hsub =>
            split at h
            · injection h with h; exact Or.inl h.symm
            · split at h
              · cases h
              · cases h
              · cases h
              · injection h with h; exact Or.inl h.symm
              · next m n hdec =>
                split at h
                · injection h with h; exact Or.inl h.symm
                · next hn =>
                  right
                  obtain ⟨a, b⟩ := queueStore_bits (byIndex_mem hsub) (byIndex_index hsub) h
                  exact ⟨_, rfl, fun p hp => ⟨q, m, n, hq, hdec, hn, hp⟩, a, b, queueStore_sub h⟩

/-! ## Refresh -/

theorem addrs_fold_ident (m : Mgmt) (addrs : List IfAddr) (s : List Netif × Option Nat) :
    (addrs.foldl (addrStep m) s).1.map ident = s.1.map ident := by
  induction addrs generalizing s with
  | nil => rfl
  | cons ia addrs ih => rw [List.foldl_cons, ih, addrStep_ident]

theorem netifAddrs_ident (o : Opts) (m : Mgmt) (addrs : List IfAddr) (l : List Netif) (mn : Option Nat) :
    (netifAddrs o m addrs l mn).1.map ident = l.map ident := by
  unfold netifAddrs
  dsimp only
  have h1 := addrs_fold_ident m addrs (l, mn)
  split
  · exact h1
  · split
    · exact h1
    · dsimp only
      rw [List.map_map]
      exact h1

/-- Everything about the records after a refresh that later steps keep. -/
theorem fetch_core (o : Opts) (names : List Bytes) (m : Mgmt) (k : Kernel) (s : Ifs) {addrs : List IfAddr}
    (ha : k.ifaddrs = some addrs) : (netifFetch o names m k s).1.netifs.map core =
      (((addrs.filterMap (usable k)).foldl (addLive k) (s.netifs.map (fun n => { n with type := NETIF_OLD }))).filter
        (fun n => n.type != NETIF_OLD)).map core := by
  unfold netifFetch
  rw [ha]
  dsimp only
  obtain ⟨f1, -, -⟩ := fetch_fold k m addrs ⟨s.netifs.map (fun n => { n with type := NETIF_OLD }),
    { s.sys with cap := s.sys.cap &&& 12, capActive := s.sys.capActive &&& 12, physifCount := 0 }, s.mnetif, 0⟩
  generalize addrs.foldl (fetchStep k m) ⟨s.netifs.map (fun n => { n with type := NETIF_OLD }),
    { s.sys with cap := s.sys.cap &&& 12, capActive := s.sys.capActive &&& 12, physifCount := 0 }, s.mnetif, 0⟩ = a at f1 ⊢
  dsimp only at f1
  rw [← f1]
  generalize a.netifs.filter (fun n => n.type != NETIF_OLD) = L
  generalize (if (a.netifs.filter (fun n => n.type == NETIF_OLD)).any (fun n => a.mnetif == some n.index) then none
      else a.mnetif) = mn
  have hD := detect_fold_core k (L.map (·.index)) L
  generalize (L.map (·.index)).foldl (detectOne k) L = D at hD
  have hA := core_of_ident (netifAddrs_ident o m addrs D mn)
  generalize netifAddrs o m addrs D mn = A at hA ⊢
  by_cases hnm : names = []
  · rw [if_pos hnm]
    exact hA.trans hD
  · rw [if_neg hnm]
    exact (core_of_ident (markArgs_ident names A.1)).trans (hA.trans hD)

theorem addLive_protos {k : Kernel} {l : List Netif} {e : Link} {p : Nat} : ∀ n ∈ addLive k l e, n.protos.testBit p = true →
    ∃ x ∈ l, x.index = n.index ∧ x.protos.testBit p = true := by
  intro n hn hp
  unfold addLive at hn
  dsimp only at hn
  have hfresh : ∀ o : Option Netif, o = netifByIndex l e.index →
      (freshNetif k e.index e.name e.kind o).protos.testBit p = true →
      ∃ x ∈ l, x.index = e.index ∧ x.protos.testBit p = true := by
    intro o ho h
    cases o with
    | none => simp [freshNetif] at h
    | some x => exact ⟨x, byIndex_mem ho.symm, byIndex_index ho.symm, h⟩
  split at hn
  · unfold setNetif at hn
    obtain ⟨x, hx, rfl⟩ := List.mem_map.mp hn
    split at hp
    · next hxe =>
      rw [if_pos hxe]
      exact hfresh _ rfl hp
    · next hxe =>
      rw [if_neg hxe]
      exact ⟨x, hx, rfl, hp⟩
  · rcases List.mem_append.mp hn with hn | hn
    · exact ⟨n, hn, rfl, hp⟩
    · rw [List.mem_singleton.mp hn] at hp ⊢
      exact hfresh _ rfl hp

theorem addLive_fold_protos {k : Kernel} {p : Nat} (us : List Link) : ∀ {l : List Netif},
    ∀ n ∈ us.foldl (addLive k) l, n.protos.testBit p = true → ∃ x ∈ l, x.index = n.index ∧ x.protos.testBit p = true := by
  induction us with
  | nil => intro l n hn hp; exact ⟨n, hn, rfl, hp⟩
  | cons e us ih =>
    intro l n hn hp
    rw [List.foldl_cons] at hn
    obtain ⟨x, hx, hxi, hxp⟩ := ih n hn hp
    obtain ⟨y, hy, hyi, hyp⟩ := addLive_protos x hx hxp
    exact ⟨y, hy, hyi.trans hxi, hyp⟩

/-- Protocol bits survive a refresh only on the same interface. -/
theorem fetch_protos (o : Opts) (names : List Bytes) (m : Mgmt) (k : Kernel) (s : Ifs) (p : Nat) :
    ∀ n ∈ (netifFetch o names m k s).1.netifs, n.protos.testBit p = true →
      ∃ x ∈ s.netifs, x.index = n.index ∧ x.protos.testBit p = true := by
  intro n hn hp
  cases ha : k.ifaddrs with
  | none =>
    unfold netifFetch at hn
    rw [ha] at hn
    exact ⟨n, hn, rfl, hp⟩
  | some addrs =>
    obtain ⟨x, hx, hxc⟩ := mem_of_core (fetch_core o names m k s ha) hn
    have hxp : x.protos = n.protos := congrArg (fun c => c.2.2.2.1) hxc
    obtain ⟨y, hy, hyi, hyp⟩ := addLive_fold_protos _ x (List.mem_filter.mp hx).1 (hxp ▸ hp)
    obtain ⟨z, hz, rfl⟩ := List.mem_map.mp hy
    exact ⟨z, hz, hyi.trans (core_index hxc), hyp⟩

end Ladvd
