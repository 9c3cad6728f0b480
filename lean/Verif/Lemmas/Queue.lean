import Verif.Spec.Table
import Verif.Lemmas.Frame
/-!
# Invariants of the neighbour table
-/

namespace Ladvd

open Spec

theorem take12 (m : Bytes) : m.take 12 = m.take 6 ++ (m.drop 6).take 6 := by
  rw [show 12 = 6 + 6 from rfl, List.take_add]

theorem take12_drop (m : Bytes) : (m.take 12).drop 6 = (m.drop 6).take 6 := by
  rw [List.drop_take]

theorem neighbour_eq_iff (x e : Entry) : neighbour e = neighbour x ↔
    e.index = x.index ∧ e.proto = x.proto ∧ e.msg.take 12 = x.msg.take 12 := by
  unfold neighbour
  simp only [Prod.mk.injEq]
  constructor
  · rintro ⟨h1, h2, h3, h4⟩
    exact ⟨h1, h2, by rw [take12, take12, h3, h4]⟩
  · rintro ⟨h1, h2, h3⟩
    refine ⟨h1, h2, ?_, ?_⟩
    · have := congrArg (List.take 6) h3
      simpa [List.take_take] using this
    · rw [← take12_drop, ← take12_drop, h3]

theorem neighbour_system {x e : Entry} (h : neighbour e = neighbour x) : system e = system x := by
  unfold neighbour at h
  simp only [Prod.mk.injEq] at h
  unfold system
  rw [h.1, h.2.2.2]

/-- The search loop. -/
theorem queueScan_spec (e : Entry) (q : List Entry) : ∀ (i : Nat) (pm : Option Nat),
    match queueScan e.index e.proto (e.msg.take 12) q i pm with
    | (some j, _) => ∃ l1 o l2, q = l1 ++ o :: l2 ∧ j = i + l1.length ∧ neighbour o = neighbour e ∧
        ∀ x ∈ l1, neighbour x ≠ neighbour e
    | (none, pm') => (∀ x ∈ q, neighbour x ≠ neighbour e) ∧
        ((pm' = pm ∧ ∀ x ∈ q, system x ≠ system e) ∨
         ∃ l1 p l2, q = l1 ++ p :: l2 ∧ pm' = some (i + l1.length) ∧ system p = system e ∧
           ∀ x ∈ l2, system x ≠ system e) := by
  induction q with
  | nil => intro i pm; simp [queueScan]
  | cons q qs ih =>
    intro i pm
    -- going on behind `q`
    have go : ∀ pm1 : Option Nat, neighbour q ≠ neighbour e →
        (system q = system e → pm1 = some i) → (system q ≠ system e → pm1 = pm) →
        match queueScan e.index e.proto (e.msg.take 12) qs (i + 1) pm1 with
        | (some j, _) => ∃ l1 o l2, q :: qs = l1 ++ o :: l2 ∧ j = i + l1.length ∧ neighbour o = neighbour e ∧
            ∀ x ∈ l1, neighbour x ≠ neighbour e
        | (none, pm') => (∀ x ∈ q :: qs, neighbour x ≠ neighbour e) ∧
            ((pm' = pm ∧ ∀ x ∈ q :: qs, system x ≠ system e) ∨
             ∃ l1 p l2, q :: qs = l1 ++ p :: l2 ∧ pm' = some (i + l1.length) ∧ system p = system e ∧
               ∀ x ∈ l2, system x ≠ system e) := by
      intro pm1 hn hs1 hs2
      have := ih (i + 1) pm1
      split at this
      · obtain ⟨l1, o, l2, h1, h2, h3, h4⟩ := this
        refine ⟨q :: l1, o, l2, by rw [h1]; rfl, by simp only [List.length_cons]; omega, h3, ?_⟩
        intro x hx
        rcases List.mem_cons.mp hx with rfl | hx
        · exact hn
        · exact h4 x hx
      · obtain ⟨h1, h2⟩ := this
        refine ⟨?_, ?_⟩
        · intro x hx
          rcases List.mem_cons.mp hx with rfl | hx
          · exact hn
          · exact h1 x hx
        · rcases h2 with ⟨h2, h3⟩ | ⟨l1, p, l2, h2, h3, h4, h5⟩
          · by_cases hsys : system q = system e
            · right
              refine ⟨[], q, qs, rfl, by rw [h2, hs1 hsys]; simp, hsys, h3⟩
            · left
              refine ⟨by rw [h2, hs2 hsys], ?_⟩
              intro x hx
              rcases List.mem_cons.mp hx with rfl | hx
              · exact hsys
              · exact h3 x hx
          · right
            exact ⟨q :: l1, p, l2, by rw [h2]; rfl, by rw [h3]; simp only [List.length_cons]; congr 1; omega, h4, h5⟩
    rw [queueScan]
    by_cases hi : e.index = q.index
    · rw [if_neg (by simpa using hi)]
      have hsys : (e.msg.take 12).drop 6 = (q.msg.drop 6).take 6 ↔ system q = system e := by
        rw [take12_drop]
        unfold system
        simp only [Prod.mk.injEq]
        constructor
        · intro h; exact ⟨hi.symm, h.symm⟩
        · intro h; exact h.2.symm
      have hpm1 : system q = system e → (if (e.msg.take 12).drop 6 = (q.msg.drop 6).take 6 then some i else pm) = some i := by
        intro h; rw [if_pos (hsys.mpr h)]
      have hpm2 : system q ≠ system e → (if (e.msg.take 12).drop 6 = (q.msg.drop 6).take 6 then some i else pm) = pm := by
        intro h; rw [if_neg (fun hh => h (hsys.mp hh))]
      dsimp only
      by_cases hp : e.proto = q.proto
      · rw [if_neg (by simpa using hp)]
        by_cases ha : e.msg.take 12 = q.msg.take 12
        · rw [if_neg (by simpa using ha)]
          exact ⟨[], q, qs, rfl, by simp, (neighbour_eq_iff e q).mpr ⟨hi.symm, hp.symm, ha.symm⟩, by simp⟩
        · rw [if_pos ha]
          exact go _ (fun h => ha ((neighbour_eq_iff e q).mp h).2.2.symm) hpm1 hpm2
      · rw [if_pos hp]
        exact go _ (fun h => hp ((neighbour_eq_iff e q).mp h).2.1.symm) hpm1 hpm2
    · rw [if_pos hi]
      exact go pm (fun h => hi ((neighbour_eq_iff e q).mp h).1.symm)
        (fun h => absurd (congrArg Prod.fst h).symm hi) (fun _ => rfl)

/-- What `queuePut` does: replace the entry of the neighbour, or insert behind the last entry of the system, or append. -/
theorem queuePut_cases (q : List Entry) (e : Entry) :
    (∃ l1 o l2, q = l1 ++ o :: l2 ∧ neighbour o = neighbour e ∧ (∀ x ∈ l1, neighbour x ≠ neighbour e) ∧
      queuePut q e = l1 ++ { e with id := o.id } :: l2) ∨
    ((∀ x ∈ q, neighbour x ≠ neighbour e) ∧ ∃ l1 l2, q = l1 ++ l2 ∧ queuePut q e = l1 ++ e :: l2 ∧
      ((∃ l p, l1 = l ++ [p] ∧ system p = system e) ∨ (l2 = [] ∧ ∀ x ∈ q, system x ≠ system e)) ∧
      ∀ x ∈ l2, system x ≠ system e) := by
  have hs := queueScan_spec e q 0 none
  unfold queuePut
  split at hs
  · next i _ hh =>
    rw [hh]
    obtain ⟨l1, o, l2, h1, h2, h3, h4⟩ := hs
    left
    refine ⟨l1, o, l2, h1, h3, h4, ?_⟩
    simp only
    rw [h2, h1, Nat.zero_add, List.take_left, List.drop_left]
  · next pm' hh =>
    rw [hh]
    obtain ⟨h1, h2⟩ := hs
    right
    refine ⟨h1, ?_⟩
    rcases h2 with ⟨h2, h3⟩ | ⟨l1, p, l2, h2, h3, h4, h5⟩
    · refine ⟨q, [], by simp, ?_, Or.inr ⟨rfl, h3⟩, by simp⟩
      rw [h2]; rfl
    · refine ⟨l1 ++ [p], l2, by rw [h2]; simp, ?_, Or.inl ⟨l1, p, rfl, h4⟩, h5⟩
      rw [h3, h2]
      simp only [queueInsert, Nat.zero_add]
      have e1 : (l1 ++ p :: l2).take (l1.length + 1) = l1 ++ [p] := by
        rw [show l1 ++ p :: l2 = (l1 ++ [p]) ++ l2 by simp]
        rw [List.take_append_of_le_length (by simp)]
        rw [List.take_of_length_le (by simp)]
      have e2 : (l1 ++ p :: l2).drop (l1.length + 1) = l2 := by
        rw [show l1 ++ p :: l2 = (l1 ++ [p]) ++ l2 by simp]
        rw [show l1.length + 1 = (l1 ++ [p]).length by simp, List.drop_left]
      rw [e1, e2]

/-! ## Grouping -/

/-- `Grouped` on the level of keys. -/
def GroupedK {α : Type} (ks : List α) : Prop := ∀ x z, [x, z, x].Sublist ks → z = x

theorem grouped_iff (q : List Entry) : Grouped q ↔ GroupedK (q.map system) := by
  constructor
  · intro h k1 k2 hs
    obtain ⟨l, hl, he⟩ := List.sublist_map_iff.mp hs
    match l, hl, he with
    | [], _, he => simp at he
    | [_], _, he => simp at he
    | [_, _], _, he => simp at he
    | _ :: _ :: _ :: _ :: _, _, he => simp at he
    | [x, y, z], hl, he =>
      simp only [List.map_cons, List.map_nil, List.cons.injEq, and_true] at he
      rw [he.2.1, he.1]
      exact h x y z hl (he.1.symm.trans he.2.2)
  · intro h x y z hs he
    have := hs.map system
    simp only [List.map_cons, List.map_nil, ← he] at this
    exact h _ _ this

theorem groupedK_sublist {α : Type} {a b : List α} (h : GroupedK b) (hs : a.Sublist b) : GroupedK a :=
  fun x z hh => h x z (hh.trans hs)

theorem groupedK_dup {α : Type} (a : List α) (k : α) (b : List α) (h : GroupedK (a ++ k :: b)) :
    GroupedK (a ++ k :: k :: b) := by
  intro x z hs
  obtain ⟨l1, l2, hl, h1, h2⟩ := List.sublist_append_iff.mp hs
  rcases List.sublist_cons_iff.mp h2 with h2 | ⟨r, rfl, h2⟩
  · exact h x z (hl ▸ h1.append h2)
  · rename_i h2'
    rcases List.sublist_cons_iff.mp h2' with h2 | ⟨r', rfl, h2⟩
    · exact h x z (hl ▸ h1.append (h2.cons_cons k))
    · match l1, hl with
      | [], hl => simp at hl; rw [hl.1, hl.2.1]
      | [_], hl => simp at hl; rw [hl.2.1, ← hl.2.2.1]
      | _ :: _ :: l, hl =>
        have := congrArg List.length hl
        simp at this
        omega

theorem groupedK_append {α : Type} (a : List α) (k : α) (h : GroupedK a) (hk : k ∉ a) : GroupedK (a ++ [k]) := by
  intro x z hs
  obtain ⟨l1, l2, hl, h1, h2⟩ := List.sublist_append_iff.mp hs
  rcases List.sublist_cons_iff.mp h2 with h2 | ⟨r, rfl, h2⟩
  · rw [List.sublist_nil.mp h2, List.append_nil] at hl
    exact h x z (hl ▸ h1)
  · rename_i h2'
    rw [List.sublist_nil.mp h2'] at hl
    exfalso
    match l1, hl with
    | [], hl => simp at hl
    | [_], hl => simp at hl
    | [a1, b1], hl =>
      simp at hl
      apply hk
      rw [← hl.2.2, hl.1]
      exact h1.subset (by simp)
    | _ :: _ :: _ :: l, hl =>
      have := congrArg List.length hl
      simp at this

theorem queuePut_grouped (q : List Entry) (e : Entry) (h : Grouped q) : Grouped (queuePut q e) := by
  rw [grouped_iff] at h ⊢
  rcases queuePut_cases q e with ⟨l1, o, l2, h1, h2, _, h4⟩ | ⟨_, l1, l2, h1, h2, h3, _⟩
  · rw [h4]
    have : system { e with id := o.id } = system o := (neighbour_system h2).symm
    rw [h1] at h
    simpa [this] using h
  · rw [h2]
    rcases h3 with ⟨l, p, h3, hp⟩ | ⟨h3, hp⟩
    · rw [h1, h3] at h
      rw [h3]
      simp only [List.map_append, List.map_cons, List.append_assoc, List.cons_append, List.nil_append] at h ⊢
      rw [hp] at h ⊢
      exact groupedK_dup _ _ _ h
    · rw [h3, List.append_nil] at h1
      rw [h3, ← h1]
      simp only [List.map_append, List.map_cons, List.map_nil]
      apply groupedK_append _ _ h
      intro hc
      obtain ⟨x, hx, he⟩ := List.mem_map.mp hc
      exact hp x hx he

/-! ## Identity -/

theorem queuePut_nodup (q : List Entry) (e : Entry) (h : (q.map neighbour).Nodup) :
    ((queuePut q e).map neighbour).Nodup := by
  rcases queuePut_cases q e with ⟨l1, o, l2, h1, h2, _, h4⟩ | ⟨hn, l1, l2, h1, h2, _, _⟩
  · rw [h4]
    have : neighbour { e with id := o.id } = neighbour o := h2.symm
    rw [h1] at h
    simpa [this] using h
  · rw [h2]
    simp only [List.map_append, List.map_cons]
    have hp : (l1.map neighbour ++ neighbour e :: l2.map neighbour).Perm (neighbour e :: (q.map neighbour)) := by
      rw [h1, List.map_append]
      exact List.perm_middle
    rw [hp.nodup_iff, List.nodup_cons]
    refine ⟨?_, h⟩
    intro hc
    obtain ⟨x, hx, he⟩ := List.mem_map.mp hc
    exact hn x hx he

theorem queuePut_ids (q : List Entry) (e : Entry) (h : (q.map (·.id)).Nodup) (hf : ∀ x ∈ q, x.id ≠ e.id) :
    ((queuePut q e).map (·.id)).Nodup := by
  rcases queuePut_cases q e with ⟨l1, o, l2, h1, h2, _, h4⟩ | ⟨hn, l1, l2, h1, h2, _, _⟩
  · rw [h4]
    rw [h1] at h
    simpa using h
  · rw [h2]
    simp only [List.map_append, List.map_cons]
    have hp : (l1.map (·.id) ++ e.id :: l2.map (·.id)).Perm (e.id :: (q.map (·.id))) := by
      rw [h1, List.map_append]
      exact List.perm_middle
    rw [hp.nodup_iff, List.nodup_cons]
    refine ⟨?_, h⟩
    intro hc
    obtain ⟨x, hx, he⟩ := List.mem_map.mp hc
    exact hf x hx he

theorem queuePut_mem (q : List Entry) (e x : Entry) (hx : x ∈ queuePut q e) :
    x ∈ q ∨ x.id = e.id ∨ ∃ o ∈ q, x.id = o.id := by
  rcases queuePut_cases q e with ⟨l1, o, l2, h1, h2, _, h4⟩ | ⟨hn, l1, l2, h1, h2, _, _⟩
  · rw [h4] at hx
    rcases List.mem_append.mp hx with hx | hx
    · left; rw [h1]; simp [hx]
    · rcases List.mem_cons.mp hx with rfl | hx
      · right; right; exact ⟨o, by rw [h1]; simp, rfl⟩
      · left; rw [h1]; simp [hx]
  · rw [h2] at hx
    rcases List.mem_append.mp hx with hx | hx
    · left; rw [h1]; simp [hx]
    · rcases List.mem_cons.mp hx with rfl | hx
      · right; left; rfl
      · left; rw [h1]; simp [hx]

/-! ## Frame conditions -/

theorem updateNetifs_frame (o : Opts) (is : List Nat) : ∀ (st st' : Child), updateNetifs o is st = .ok st' →
    st'.queue = st.queue ∧ st'.sessions = st.sessions ∧ st'.nextId = st.nextId ∧ st'.sent = st.sent := by
  induction is with
  | nil => intro st st' h; cases h; exact ⟨rfl, rfl, rfl, rfl⟩
  | cons i is ih =>
    intro st st' h
    rw [updateNetifs] at h
    split at h
    · exact ih st st' h
    · next subif _ =>
      split at h
      · exact ih st st' h
      · simp only [Res.bind_eq, Res.pure_eq] at h
        by_cases ha : o.has OPT_AUTO
        · rw [if_pos ha] at h
          cases hp : netifProtos st.netifs (parentOf st.netifs subif) st.queue with
          | ok p =>
            rw [hp] at h
            simp only [Res.bind_ok] at h
            have := ih _ _ h
            by_cases hd : o.has OPT_IFDESCR
            · simpa only [if_pos hd] using this
            · simpa only [if_neg hd] using this
          | fail => rw [hp] at h; cases h
          | oob => rw [hp] at h; cases h
          | abort => rw [hp] at h; cases h
          | stuck => rw [hp] at h; cases h
        · rw [if_neg ha] at h
          simp only [Res.bind_ok] at h
          have := ih _ _ h
          by_cases hd : o.has OPT_IFDESCR
          · simpa only [if_pos hd] using this
          · simpa only [if_neg hd] using this

theorem childExpire_frame {o : Opts} {now : Int} {st st' : Child} (h : childExpire o now st = .ok st') :
    st'.queue = st.queue.filter (keeps now) ∧ st'.sessions = st.sessions ∧ st'.nextId = st.nextId ∧
      st'.sent = st.sent := by
  unfold childExpire at h
  exact updateNetifs_frame o _ _ _ h

theorem queueStore_frame {o : Opts} {t : Int} {subif : Netif} {e : Entry} {st st' : Child}
    (h : queueStore o t subif e st = .ok st') :
    st'.queue = (if e.ttl = 0 then (queuePut st.queue e).filter (keeps t) else queuePut st.queue e) ∧
      st'.sessions = st.sessions ∧ st'.nextId = st.nextId + 1 ∧ st'.sent = st.sent := by
  unfold queueStore at h
  dsimp only at h
  split at h
  · next ht =>
    have := childExpire_frame h
    simp only [if_pos ht]
    exact this
  · next ht =>
    simp only [if_neg ht]
    by_cases hd : o.has OPT_IFDESCR
    · simp only [if_pos hd] at h
      repeat' split at h
      all_goals (cases h; exact ⟨rfl, rfl, rfl, rfl⟩)
    · simp only [if_neg hd] at h
      repeat' split at h
      all_goals (cases h; exact ⟨rfl, rfl, rfl, rfl⟩)

/-- The entry made from a received message. -/
def entryOf (st : Child) (t : Int) (r : RawMsg) (subif : Netif) (m : Msg) : Entry :=
  { id := st.nextId, index := r.index, name := subif.name, proto := m.proto,
    received := (if m.ttl ≠ 0 then t else r.received),
    len := r.len.toNat, msg := r.msg, ttl := m.ttl, peer := m.peer, lock := 0 }

/-- The conditions under which a received message is put into the table. -/
structure Taken (st : Child) (t : Int) (r : RawMsg) (subif : Netif) (m : Msg) : Prop where
  size : PARENT_MSG_MIN ≤ r.size ∧ (r.size : Int) = PARENT_MSG_MIN + r.len
  proto : ∃ p n, Proto.ofNum r.proto = some p ∧
    p.decode false (r.msg ++ [1, 0]) r.len.toNat { proto := r.proto } = .ok (m, n) ∧ n ≠ 0
  len : r.len ≤ ETHER_MAX_LEN
  known : netifByIndex st.netifs r.index = some subif
  foreign : ∀ n ∈ st.netifs, n.hwaddr ≠ (r.msg.drop 6).take 6

/-- What a reception does to the table: nothing, or an entry is put and, for a shutdown, expiry runs. -/
theorem childQueue_frame {o : Opts} {now : Option Int} {r : RawMsg} {st st' : Child}
    (h : childQueue o now r st = .ok st') :
    (st' = st ∧ ∀ t subif m, now = some t → ¬ Taken st t r subif m) ∨
    ∃ (t : Int) (subif : Netif) (m : Msg), now = some t ∧ Taken st t r subif m ∧
      st'.queue = (if m.ttl = 0 then (queuePut st.queue (entryOf st t r subif m)).filter (keeps t)
        else queuePut st.queue (entryOf st t r subif m)) ∧
      st'.sessions = st.sessions ∧ st'.nextId = st.nextId + 1 ∧ st'.sent = st.sent := by
  unfold childQueue at h
  split at h
  · next hc =>
    left; cases h; refine ⟨rfl, fun t subif m _ ht => ?_⟩
    have := ht.size; omega
  next hsz =>
  cases now with
  | none => left; cases h; exact ⟨rfl, fun t subif m hn => by cases hn⟩
  | some t =>
    simp only at h
    split at h
    · cases h
    next p hp =>
    split at h
    · cases h
    next hlen =>
    split at h
    · next hn =>
      left; cases h; refine ⟨rfl, fun t subif m _ ht => ?_⟩
      have := ht.known; rw [hn] at this; cases this
    next subif hn =>
    split at h
    · next hown =>
      left; cases h; refine ⟨rfl, fun t subif m _ ht => ?_⟩
      obtain ⟨x, hx, he⟩ := List.any_eq_true.mp hown
      exact ht.foreign x hx (by simpa using he)
    next hown =>
    split at h
    · cases h
    · cases h
    · cases h
    · next hd =>
      left; cases h; refine ⟨rfl, fun t subif m _ ht => ?_⟩
      obtain ⟨p', n, h1, h2, _⟩ := ht.proto
      rw [hp] at h1; cases h1
      rw [hd] at h2; cases h2
    · next m n hd =>
      split at h
      · next hn0 =>
        left; cases h; refine ⟨rfl, fun t subif m _ ht => ?_⟩
        obtain ⟨p', n, h1, h2, h3⟩ := ht.proto
        rw [hp] at h1; cases h1
        rw [hd] at h2; cases h2
        exact h3 hn0
      next hn0 =>
      right
      refine ⟨t, subif, m, rfl, ⟨by omega, ⟨p, n, hp, hd, hn0⟩, by omega, hn, ?_⟩, ?_⟩
      · intro x hx he
        apply hown
        exact List.any_eq_true.mpr ⟨x, hx, by simpa using he⟩
      exact queueStore_frame h

/-! ## Locks -/

theorem setLock_map {α : Type} (q : List Entry) (id : Nat) (f : Nat → Nat) (g : Entry → α)
    (hg : ∀ e l, g { e with lock := l } = g e) : (setLock q id f).map g = q.map g := by
  unfold setLock
  rw [List.map_map]
  apply List.map_congr_left
  intro e _
  simp only [Function.comp]
  split
  · exact hg e _
  · rfl

theorem setLock_length (q : List Entry) (id : Nat) (f : Nat → Nat) : (setLock q id f).length = q.length := by
  simp [setLock]

/-- The part of the table still to be sent, and the table after releasing the entry held. -/
theorem cliStart_spec {st : Child} {sess : Session} {queue suffix : List Entry}
    (h : cliStart st sess = .ok (queue, suffix)) :
    (sess.msg = none ∧ queue = st.queue ∧ suffix = st.queue) ∨
    (∃ id pre, sess.msg = some id ∧ queue = setLock st.queue id (fun n => n + 255) ∧ queue = pre ++ suffix ∧
      (∀ e ∈ pre, e.id ≠ id) ∧ suffix.head?.map (·.id) = some id) := by
  unfold cliStart at h
  split at h
  · next hm => left; cases h; exact ⟨hm, rfl, rfl⟩
  · next id hm =>
    right
    dsimp only at h
    split at h
    · cases h
    · next e r hd =>
      cases h
      refine ⟨id, (setLock st.queue id (fun n => n + 255)).takeWhile (fun e => e.id != id), hm, rfl, ?_, ?_, ?_⟩
      · rw [← hd, List.takeWhile_append_dropWhile]
      · intro x hx
        have := List.all_takeWhile (p := fun e : Entry => e.id != id) (l := setLock st.queue id (fun n => n + 255))
        have := List.all_eq_true.mp this x hx
        simpa using this
      · have := List.head?_dropWhile_not (fun e : Entry => e.id != id) (setLock st.queue id (fun n => n + 255))
        rw [hd] at this
        simp only [List.head?_cons] at this
        simpa using this

theorem cliLoop_spec (q : List Entry) : ∀ (ws : List WriteRes),
    (cliLoop q ws).2 = q.take (cliLoop q ws).2.length ∧
    match (cliLoop q ws).1 with
    | .done => (cliLoop q ws).2 = q
    | .failed => WriteRes.err ∈ ws
    | .blocked c => (q.drop (cliLoop q ws).2.length).head?.map (·.id) = some c := by
  induction q with
  | nil => intro ws; cases ws <;> simp [cliLoop]
  | cons e es ih =>
    intro ws
    match ws with
    | [] => simp [cliLoop]
    | .ok :: ws =>
      have := ih ws
      simp only [cliLoop]
      obtain ⟨h1, h2⟩ := this
      refine ⟨?_, ?_⟩
      · simp only [List.length_cons, List.take_succ_cons, List.cons.injEq, true_and]
        exact h1
      · generalize (cliLoop es ws) = cs at *
        obtain ⟨c, s⟩ := cs
        cases c with
        | done => simp only at h2 ⊢; rw [h2]
        | failed => simp only at h2 ⊢; exact List.mem_cons_of_mem _ h2
        | blocked c => simp only at h2 ⊢; simpa using h2
    | .err :: ws => simp [cliLoop]
    | .again :: ws => simp [cliLoop]

end Ladvd
