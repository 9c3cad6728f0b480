import Verif.Spec.Heap
/-!
# Lemmas: memory and the decoders
-/

namespace Ladvd
open Spec

/-! ## Memory -/

/-- Addresses are distinct and below the next one. -/
structure Heap.Wf (h : Heap) : Prop where
  nodup : (h.live.map (·.1)).Nodup
  below : ∀ b ∈ h.live, b.1 < h.next

theorem lookup_isSome {l : List (Nat × Bytes)} {p : Nat} : (l.lookup p).isSome ↔ p ∈ l.map (·.1) := by
  induction l with
  | nil => simp
  | cons b l ih =>
    obtain ⟨a, v⟩ := b
    simp only [List.lookup_cons, List.map_cons, List.mem_cons]
    by_cases h : p = a
    · subst h; simp
    · have : (p == a) = false := by simpa using h
      simp only [this, h, false_or]
      exact ih

theorem heap_at_mem {h : Heap} {p : Nat} : (h.at p).isSome ↔ p ∈ allocated h := lookup_isSome

theorem heap_at_below {h : Heap} (hw : h.Wf) {p : Nat} (hp : (h.at p).isSome) : p < h.next := by
  have := heap_at_mem.mp hp
  unfold allocated at this
  obtain ⟨b, hb, rfl⟩ := List.mem_map.mp this
  exact hw.below b hb

theorem heap_at_fresh {h : Heap} (hw : h.Wf) : h.at h.next = none := by
  cases hh : h.at h.next with
  | none => rfl
  | some b => have := heap_at_below hw (p := h.next) (by rw [hh]; rfl); omega

theorem malloc_at (h : Heap) (b : Bytes) (p : Nat) :
    (h.malloc b).2.at p = if p = h.next then some b else h.at p := by
  unfold Heap.at Heap.malloc
  simp only [List.lookup_cons]
  by_cases hp : p = h.next
  · subst hp; simp
  · have : (p == h.next) = false := by simpa using hp
    simp only [this, hp, if_false]

theorem malloc_wf {h : Heap} (hw : h.Wf) (b : Bytes) : (h.malloc b).2.Wf := by
  refine ⟨?_, ?_⟩
  · show (((h.next, b) :: h.live).map (·.1)).Nodup
    rw [List.map_cons, List.nodup_cons]
    refine ⟨?_, hw.nodup⟩
    intro hm
    obtain ⟨x, hx, hxe⟩ := List.mem_map.mp hm
    have := hw.below x hx
    have : x.1 = h.next := hxe
    omega
  · intro x hx
    show x.1 < h.next + 1
    have hx : x ∈ (h.next, b) :: h.live := hx
    rcases List.mem_cons.mp hx with rfl | hx
    · exact Nat.lt_succ_self _
    · exact Nat.lt_succ_of_lt (hw.below x hx)

theorem lookup_filter (l : List (Nat × Bytes)) (p q : Nat) :
    (l.filter (fun b => b.1 != p)).lookup q = if q = p then none else l.lookup q := by
  induction l with
  | nil => simp
  | cons b l ih =>
    obtain ⟨a, v⟩ := b
    by_cases ha : a = p
    · subst ha
      rw [List.filter_cons_of_neg (by simp), ih]
      by_cases hq : q = a
      · simp [hq]
      · have : (q == a) = false := by simpa using hq
        simp only [hq, if_false, List.lookup_cons, this]
    · rw [List.filter_cons_of_pos (by simpa using ha), List.lookup_cons, List.lookup_cons, ih]
      by_cases hq : q = a
      · subst hq
        simp [ha]
      · have : (q == a) = false := by simpa using hq
        simp only [this]

/-- What releasing an allocated block does. -/
theorem free_spec {h : Heap} (hw : h.Wf) {p : Nat} (hp : (h.at p).isSome) :
    ∃ h', h.free p = .ok h' ∧ h'.Wf ∧ h'.next = h.next ∧ ∀ q, h'.at q = if q = p then none else h.at q := by
  unfold Heap.free
  cases hb : h.at p with
  | none => rw [hb] at hp; exact absurd hp (by simp)
  | some b =>
    refine ⟨_, rfl, ⟨?_, ?_⟩, rfl, ?_⟩
    · exact List.Nodup.sublist (List.Sublist.map _ List.filter_sublist) hw.nodup
    · intro x hx
      exact hw.below x (List.mem_filter.mp hx).1
    · intro q
      exact lookup_filter _ _ _

/-! ## Messages -/

/-- The message with its texts as values. -/
def msgTexts (s : HMsg) : Msg := { proto := s.proto, ttl := s.ttl, peer := peerTexts s.heap s.peer }

/-- The message owns exactly the blocks its pointers refer to; everything else is `base`. -/
structure Own (base : Nat → Option Bytes) (s : HMsg) : Prop where
  wf : s.heap.Wf
  len : s.peer.length = 8
  nodup : (s.peer.filterMap id).Nodup
  mine : ∀ p, some p ∈ s.peer → (s.heap.at p).isSome ∧ base p = none
  rest : ∀ p, some p ∉ s.peer → s.heap.at p = base p

/-- `base` with one more block. -/
def extend (base : Nat → Option Bytes) (q : Nat) (b : Bytes) : Nat → Option Bytes :=
  fun p => if p = q then some b else base p

theorem textAt_congr {h h' : Heap} {ps : List (Option Nat)} (i : Nat)
    (hc : ∀ p, some p ∈ ps → h'.at p = h.at p) : textAt h' ps i = textAt h ps i := by
  unfold textAt
  cases hi : ps[i]? with
  | none => rfl
  | some o =>
    cases o with
    | none => rfl
    | some p => exact hc p (List.mem_of_getElem? hi)

theorem peerTexts_congr {h h' : Heap} {ps : List (Option Nat)}
    (hc : ∀ p, some p ∈ ps → h'.at p = h.at p) : peerTexts h' ps = peerTexts h ps := by
  unfold peerTexts
  simp only [textAt_congr _ hc]

theorem own_malloc {base : Nat → Option Bytes} {s : HMsg} (ho : Own base s) (b : Bytes) :
    Own (extend base s.heap.next b) { s with heap := (s.heap.malloc b).2 } ∧
      msgTexts { s with heap := (s.heap.malloc b).2 } = msgTexts s ∧ base s.heap.next = none := by
  have hne : ∀ p, some p ∈ s.peer → p ≠ s.heap.next := by
    intro p hp he
    have := (ho.mine p hp).1
    rw [he, heap_at_fresh ho.wf] at this
    exact absurd this (by simp)
  refine ⟨⟨malloc_wf ho.wf b, ho.len, ho.nodup, ?_, ?_⟩, ?_, ?_⟩
  · intro p hp
    have hp : some p ∈ s.peer := hp
    show ((s.heap.malloc b).2.at p).isSome ∧ _
    unfold extend
    rw [malloc_at, if_neg (hne p hp), if_neg (hne p hp)]
    exact ho.mine p hp
  · intro p hp
    have hp : some p ∉ s.peer := hp
    show (s.heap.malloc b).2.at p = _
    unfold extend
    rw [malloc_at]
    by_cases h : p = s.heap.next
    · rw [if_pos h, if_pos h]
    · rw [if_neg h, if_neg h]; exact ho.rest p hp
  · unfold msgTexts
    dsimp only
    rw [peerTexts_congr]
    intro p hp
    rw [malloc_at, if_neg (hne p hp)]
  · rw [← ho.rest s.heap.next (fun hm => hne _ hm rfl), heap_at_fresh ho.wf]

theorem own_not_mem {base : Nat → Option Bytes} {s : HMsg} {q : Nat} {b : Bytes} (ho : Own (extend base q b) s) :
    some q ∉ s.peer ∧ s.heap.at q = some b := by
  have h1 : some q ∉ s.peer := by
    intro hm
    have := (ho.mine q hm).2
    unfold extend at this
    rw [if_pos rfl] at this
    exact absurd this (by simp)
  refine ⟨h1, ?_⟩
  rw [ho.rest q h1]
  unfold extend
  rw [if_pos rfl]

theorem own_free {base : Nat → Option Bytes} {s : HMsg} {q : Nat} {b : Bytes} (hb : base q = none)
    (ho : Own (extend base q b) s) : ∃ s', hFree q s = .ok () s' ∧ Own base s' ∧ msgTexts s' = msgTexts s ∧
      s'.peer = s.peer := by
  obtain ⟨hq, hat⟩ := own_not_mem ho
  obtain ⟨h', hf, hw, -, hat'⟩ := free_spec ho.wf (p := q) (by rw [hat]; rfl)
  refine ⟨{ s with heap := h' }, ?_, ⟨hw, ho.len, ho.nodup, ?_, ?_⟩, ?_, rfl⟩
  · unfold hFree; rw [hf]
  · intro p hp
    have hp : some p ∈ s.peer := hp
    have hne : p ≠ q := fun he => hq (he ▸ hp)
    have := ho.mine p hp
    unfold extend at this
    rw [if_neg hne] at this
    show (h'.at p).isSome ∧ _
    rw [hat', if_neg hne]
    exact this
  · intro p hp
    have hp : some p ∉ s.peer := hp
    show h'.at p = _
    rw [hat']
    by_cases h : p = q
    · rw [if_pos h, h, hb]
    · rw [if_neg h, ho.rest p hp]
      unfold extend
      rw [if_neg h]
  · unfold msgTexts
    dsimp only
    rw [peerTexts_congr]
    intro p hp
    rw [hat', if_neg]
    intro he
    exact hq (he ▸ hp)

/-- `PEER_STR` on the texts. -/
def keepFirst (i : Nat) (b : Bytes) (p : Peer) : Peer :=
  match i with
  | 0 => { p with hostname := peerStr p.hostname b }
  | 1 => { p with portname := peerStr p.portname b }
  | 2 => { p with portdescr := peerStr p.portdescr b }
  | 3 => { p with cap := peerStr p.cap b }
  | 4 => { p with inet4 := peerStr p.inet4 b }
  | 5 => { p with inet6 := peerStr p.inet6 b }
  | 6 => { p with mac := peerStr p.mac b }
  | 7 => { p with vlan := peerStr p.vlan b }
  | _ => p

/-- The text of one peer entry. -/
def slotOf (i : Nat) (p : Peer) : Option Bytes :=
  match i with
  | 0 => p.hostname
  | 1 => p.portname
  | 2 => p.portdescr
  | 3 => p.cap
  | 4 => p.inet4
  | 5 => p.inet6
  | 6 => p.mac
  | 7 => p.vlan
  | _ => none

theorem slotOf_texts (h : Heap) (ps : List (Option Nat)) {i : Nat} (hi : i < 8) :
    slotOf i (peerTexts h ps) = textAt h ps i := by
  rcases i with _ | _ | _ | _ | _ | _ | _ | _ | i <;> first | rfl | omega

theorem keepFirst_some {i : Nat} {p : Peer} {v : Bytes} (b : Bytes) (hs : slotOf i p = some v) :
    keepFirst i b p = p := by
  rcases i with _ | _ | _ | _ | _ | _ | _ | _ | i
  all_goals first
    | rfl
    | (cases p; simp only [slotOf] at hs; subst hs; rfl)

theorem set_split {α : Type} {l : List α} {i : Nat} {x y : α} (h : l[i]? = some x) :
    ∃ l1 l2, l = l1 ++ x :: l2 ∧ l.set i y = l1 ++ y :: l2 := by
  induction l generalizing i with
  | nil => simp at h
  | cons a l ih =>
    cases i with
    | zero =>
      simp only [List.getElem?_cons_zero, Option.some.injEq] at h
      subst h
      exact ⟨[], l, rfl, rfl⟩
    | succ i =>
      simp only [List.getElem?_cons_succ] at h
      obtain ⟨l1, l2, h1, h2⟩ := ih h
      exact ⟨a :: l1, l2, by rw [h1]; rfl, by rw [List.set_cons_succ, h2]; rfl⟩

theorem textAt_set (h : Heap) {ps : List (Option Nat)} {i : Nat} (hi : i < ps.length) (q j : Nat) :
    textAt h (ps.set i (some q)) j = if j = i then h.at q else textAt h ps j := by
  unfold textAt
  by_cases hj : j = i
  · subst hj
    rw [if_pos rfl, List.getElem?_set_self hi]
    rfl
  · rw [if_neg hj, List.getElem?_set_ne (Ne.symm hj)]

theorem peerTexts_set {h : Heap} {ps : List (Option Nat)} {i : Nat} {b : Bytes} {q : Nat} (hlen : ps.length = 8) (hi : i < 8)
    (hn : ps[i]? = some none) (hq : h.at q = some b) :
    peerTexts h (ps.set i (some q)) = keepFirst i b (peerTexts h ps) := by
  have h0 : textAt h ps i = none := by unfold textAt; rw [hn]; rfl
  unfold peerTexts
  simp only [textAt_set h (hlen ▸ hi), hq]
  rcases i with _ | _ | _ | _ | _ | _ | _ | _ | i
  all_goals first
    | omega
    | (unfold keepFirst; simp only [h0]; rfl)

theorem own_set {base : Nat → Option Bytes} {s : HMsg} {q : Nat} {b : Bytes} (hb : base q = none)
    (ho : Own (extend base q b) s) {i : Nat} (hi : i < 8) (hn : s.peer[i]? = some none) :
    Own base { s with peer := s.peer.set i (some q) } ∧
      msgTexts { s with peer := s.peer.set i (some q) } =
        { msgTexts s with peer := keepFirst i b (msgTexts s).peer } := by
  obtain ⟨hq, hat⟩ := own_not_mem ho
  obtain ⟨l1, l2, h1, h2⟩ := set_split (y := some q) hn
  have hmem : ∀ p, some p ∈ s.peer.set i (some q) ↔ p = q ∨ some p ∈ s.peer := by
    intro p
    rw [h2, h1]
    simp only [List.mem_append, List.mem_cons, Option.some.injEq]
    constructor
    · rintro (h | rfl | h)
      · exact .inr (.inl h)
      · exact .inl rfl
      · exact .inr (.inr (.inr h))
    · rintro (rfl | h | h | h)
      · exact .inr (.inl rfl)
      · exact .inl h
      · exact absurd h (by simp)
      · exact .inr (.inr h)
  refine ⟨⟨ho.wf, ?_, ?_, ?_, ?_⟩, ?_⟩
  · show (s.peer.set i (some q)).length = 8
    rw [List.length_set]; exact ho.len
  · show ((s.peer.set i (some q)).filterMap id).Nodup
    rw [h2]
    have hnd := ho.nodup
    rw [h1] at hnd
    simp only [List.filterMap_append, List.filterMap_cons, id] at hnd ⊢
    rw [List.perm_middle.nodup_iff, List.nodup_cons]
    refine ⟨?_, hnd⟩
    intro hm
    apply hq
    rw [h1]
    rcases List.mem_append.mp hm with hm | hm <;>
    · obtain ⟨x, hx, hxe⟩ := List.mem_filterMap.mp hm
      simp only [id] at hxe
      subst hxe
      simp [hx]
  · intro p hp
    have hp : some p ∈ s.peer.set i (some q) := hp
    show (s.heap.at p).isSome ∧ base p = none
    rcases (hmem p).mp hp with rfl | hp
    · exact ⟨by rw [hat]; rfl, hb⟩
    · have hne : p ≠ q := fun he => hq (he ▸ hp)
      have := ho.mine p hp
      unfold extend at this
      rwa [if_neg hne] at this
  · intro p hp
    have hp : some p ∉ s.peer.set i (some q) := hp
    rw [hmem, not_or] at hp
    show s.heap.at p = base p
    rw [ho.rest p hp.2]
    unfold extend
    rw [if_neg hp.1]
  · unfold msgTexts
    dsimp only
    rw [peerTexts_set ho.len hi hn hat]

theorem slot_cases {base : Nat → Option Bytes} {s : HMsg} (ho : Own base s) {i : Nat} (hi : i < 8) :
    (s.peer[i]? = some none ∧ slotOf i (msgTexts s).peer = none) ∨
      (∃ r v, s.peer[i]? = some (some r) ∧ slotOf i (msgTexts s).peer = some v) := by
  have hlt : i < s.peer.length := ho.len ▸ hi
  have hs : s.peer[i]? = some s.peer[i] := List.getElem?_eq_getElem hlt
  unfold msgTexts
  dsimp only
  rw [slotOf_texts _ _ hi]
  unfold textAt
  rw [hs]
  cases hx : s.peer[i] with
  | none => exact .inl ⟨rfl, rfl⟩
  | some r =>
    right
    have hr := (ho.mine r (by rw [← hx]; exact List.getElem_mem hlt)).1
    obtain ⟨v, hv⟩ := Option.isSome_iff_exists.mp hr
    exact ⟨r, v, rfl, hv⟩

/-! ## Refinement -/

/-- A result on the memory level agrees with one on values. -/
def Agrees {α β : Type} (base : Nat → Option Bytes) (f : α → Msg → β) (r : HRes α) (v : Res β) : Prop :=
  match r with
  | .ok a s' => v = .ok (f a (msgTexts s')) ∧ Own base s'
  | .fail s' => v = .fail ∧ Own base s'
  | .oob => v = .oob
  | .abort => v = .abort
  | .stuck => v = .stuck

/-- Code on the memory level agrees with code on values, and keeps to the ownership discipline. -/
def Ref {α β : Type} (x : HM α) (v : Msg → Res β) (f : α → Msg → β) : Prop :=
  ∀ base s, Own base s → Agrees base f (x s) (v (msgTexts s))

theorem ref_bind {α β γ δ : Type} {x : HM α} {v : Msg → Res β} {f : α → Msg → β} {k : α → HM γ} {kv : β → Res δ}
    {g : γ → Msg → δ} (h1 : Ref x v f) (h2 : ∀ a, Ref (k a) (fun s => kv (f a s)) g) :
    Ref (x >>= k) (fun s => v s >>= kv) g := by
  intro base s ho
  have h := h1 base s ho
  show Agrees base g (HM.bind x k s) ((v (msgTexts s)).bind kv)
  unfold HM.bind
  cases hx : x s with
  | ok a s' =>
    rw [hx] at h
    rw [h.1, Res.bind_ok]
    exact h2 a base s' h.2
  | fail s' =>
    rw [hx] at h
    rw [h.1]
    exact ⟨rfl, h.2⟩
  | oob => rw [hx] at h; rw [show v (msgTexts s) = _ from h]; rfl
  | abort => rw [hx] at h; rw [show v (msgTexts s) = _ from h]; rfl
  | stuck => rw [hx] at h; rw [show v (msgTexts s) = _ from h]; rfl

theorem ref_lift {α γ δ : Type} (r : Res α) {k : α → HM γ} {kv : α → Msg → Res δ}
    {g : γ → Msg → δ} (h2 : ∀ a, Ref (k a) (kv a) g) :
    Ref (hLift r >>= k) (fun s => r >>= fun a => kv a s) g := by
  intro base s ho
  show Agrees base g (HM.bind (hLift r) k s) (r.bind (fun a => kv a (msgTexts s)))
  unfold HM.bind hLift
  cases r with
  | ok a => exact h2 a base s ho
  | fail => exact ⟨rfl, ho⟩
  | oob => rfl
  | abort => rfl
  | stuck => rfl

theorem ref_pure {α β : Type} (a : α) (f : α → Msg → β) : Ref (pure a) (fun s => .ok (f a s)) f := by
  intro base s ho
  exact ⟨rfl, ho⟩

theorem ref_fail {α β : Type} {f : α → Msg → β} : Ref hFail (fun _ => .fail) f := by
  intro base s ho
  exact ⟨rfl, ho⟩

theorem ref_stuck {α β : Type} {f : α → Msg → β} : Ref hStuck (fun _ => .stuck) f := by
  intro base s ho
  rfl

/-- The message alone. -/
def sameMsg : Unit → Msg → Msg := fun _ s => s

/-- `PEER_STR` of a fresh block. -/
theorem ref_store (b : Bytes) {i : Nat} (hi : i < 8) :
    Ref (hMalloc b >>= fun p => hPeerStr i p) (fun s => .ok { s with peer := keepFirst i b s.peer }) sameMsg := by
  intro base s ho
  obtain ⟨ho', hv, hb⟩ := own_malloc ho b
  show Agrees base sameMsg ((hPeerStr i s.heap.next) { s with heap := (s.heap.malloc b).2 })
    (.ok { msgTexts s with peer := keepFirst i b (msgTexts s).peer })
  rw [← hv]
  generalize { s with heap := (s.heap.malloc b).2 } = s1 at ho' ⊢
  generalize s.heap.next = q at ho' hb ⊢
  show Agrees base sameMsg (HM.bind (hSlot i) _ s1) _
  unfold HM.bind hSlot
  rcases slot_cases ho' hi with ⟨hn, hs⟩ | ⟨r, v, hn, hs⟩
  · rw [hn]
    dsimp only
    obtain ⟨h1, h2⟩ := own_set hb ho' hi hn
    exact ⟨by rw [← h2]; rfl, h1⟩
  · rw [hn]
    dsimp only
    obtain ⟨s', hf, ho2, hv2, -⟩ := own_free hb ho'
    rw [hf]
    refine ⟨?_, ho2⟩
    rw [keepFirst_some b hs, hv2]
    rfl

/-- The hostname, portname and capability cases of `tlv_value_str`. -/
theorem ref_fill (r : Res Bytes) (f : Bytes → Bytes) {i : Nat} (hi : i < 8) :
    Ref (hSlot i >>= fun o => match o with
      | some _ => pure ()
      | none => hLift r >>= fun v => hMalloc (f v) >>= fun p => hSet i p)
      (fun s => match slotOf i s.peer with
        | some _ => .ok s
        | none => r.bind (fun v => .ok { s with peer := keepFirst i (f v) s.peer })) sameMsg := by
  intro base s ho
  show Agrees base sameMsg (HM.bind (hSlot i) _ s) _
  unfold HM.bind hSlot
  rcases slot_cases ho hi with ⟨hn, hs⟩ | ⟨q, v, hn, hs⟩
  · dsimp only
    rw [hn, hs]
    cases r with
    | ok v =>
      obtain ⟨ho', hv, hb⟩ := own_malloc ho (f v)
      obtain ⟨h1, h2⟩ := own_set hb ho' hi hn
      refine ⟨?_, h1⟩
      show Res.ok _ = Res.ok (msgTexts { s with heap := (s.heap.malloc (f v)).2, peer := s.peer.set i (some s.heap.next) })
      rw [h2, hv]
    | fail => exact ⟨rfl, ho⟩
    | oob => rfl
    | abort => rfl
    | stuck => rfl
  · dsimp only
    rw [hn, hs]
    exact ⟨rfl, ho⟩

theorem ref_ite {α β : Type} {p : Prop} [Decidable p] {x y : HM α} {v w : Msg → Res β} {f : α → Msg → β}
    (h1 : p → Ref x v f) (h2 : ¬ p → Ref y w f) :
    Ref (if p then x else y) (fun s => if p then v s else w s) f := by
  by_cases hp : p
  · simp only [if_pos hp]; exact h1 hp
  · simp only [if_neg hp]; exact h2 hp

/-- A test whether a peer entry is set. -/
theorem ref_slot {γ δ : Type} {x y : HM γ} {v w : Msg → Res δ} {g : γ → Msg → δ} {i : Nat} (hi : i < 8)
    (h1 : Ref x v g) (h2 : Ref y w g) :
    Ref (hSlot i >>= fun o => match o with
      | some _ => x
      | none => y) (fun s => if (slotOf i s.peer).isSome then v s else w s) g := by
  intro base s ho
  show Agrees base g (HM.bind (hSlot i) _ s) _
  unfold HM.bind hSlot
  rcases slot_cases ho hi with ⟨hn, hs⟩ | ⟨q, b, hn, hs⟩
  · dsimp only
    rw [hn, hs]
    exact h2 base s ho
  · dsimp only
    rw [hn, hs]
    exact h1 base s ho

theorem ref_congr {α β : Type} {x y : HM α} {v w : Msg → Res β} {f : α → Msg → β} (h : Ref x v f) (hx : x = y)
    (hv : ∀ s, v s = w s) : Ref y w f := by
  subst hx
  have : v = w := funext hv
  subst this
  exact h

theorem hm_assoc {α β γ : Type} (x : HM α) (f : α → HM β) (g : β → HM γ) :
    (x >>= f) >>= g = x >>= fun a => f a >>= g := by
  funext s
  show HM.bind (HM.bind x f) g s = HM.bind x (fun a => HM.bind (f a) g) s
  unfold HM.bind
  cases x s <;> rfl

end Ladvd
