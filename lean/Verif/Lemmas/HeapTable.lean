import Verif.Lemmas.HeapDecode
/-!
# Lemmas: the table on the memory level agrees with the one on values
-/

namespace Ladvd
open Spec

/-! ## Releasing peer data -/

theorem peerFree_spec {ps : List (Option Nat)} {h : Heap} (hw : h.Wf) (hn : (ps.filterMap id).Nodup)
    (hl : ∀ p, some p ∈ ps → (h.at p).isSome) :
    ∃ h', peerFree h ps = .ok h' ∧ h'.Wf ∧ h'.next = h.next ∧ ∀ q, h'.at q = if some q ∈ ps then none else h.at q := by
  induction ps generalizing h with
  | nil => exact ⟨h, rfl, hw, rfl, fun q => by simp⟩
  | cons o ps ih =>
    cases o with
    | none =>
      obtain ⟨h', h1, h2, h3, h4⟩ := ih hw (by simpa using hn) (fun p hp => hl p (List.mem_cons_of_mem _ hp))
      exact ⟨h', h1, h2, h3, fun q => by rw [h4]; simp⟩
    | some p =>
      have hn' : (p :: ps.filterMap id).Nodup := hn
      rw [List.nodup_cons] at hn'
      obtain ⟨h1, hf, hw1, hx1, ha1⟩ := free_spec hw (hl p List.mem_cons_self)
      have hnp : some p ∉ ps := fun hm => hn'.1 (List.mem_filterMap.mpr ⟨_, hm, rfl⟩)
      obtain ⟨h2, hf2, hw2, hx2, ha2⟩ := ih hw1 hn'.2 (fun q hq => by
        rw [ha1, if_neg (fun (he : q = p) => hnp (he ▸ hq))]
        exact hl q (List.mem_cons_of_mem _ hq))
      refine ⟨h2, ?_, hw2, by rw [hx2, hx1], fun q => ?_⟩
      · show (h.free p).bind _ = _
        rw [hf]
        exact hf2
      · rw [ha2, ha1]
        by_cases hq : some q ∈ ps
        · rw [if_pos hq, if_pos (List.mem_cons_of_mem _ hq)]
        · rw [if_neg hq]
          by_cases he : q = p
          · rw [if_pos he, if_pos (by rw [he]; exact List.mem_cons_self)]
          · rw [if_neg he, if_neg]
            intro hm
            rcases List.mem_cons.mp hm with hm | hm
            · exact he (Option.some.inj hm)
            · exact hq hm

/-! ## The table's memory -/

/-- The texts allocated are exactly the ones the entries refer to. -/
structure TInv (h : Heap) (q : List HEntry) : Prop where
  wf : h.Wf
  len : ∀ x ∈ q, x.peer.length = 8
  nodup : (pointers q).Nodup
  exact : ∀ p, (h.at p).isSome ↔ p ∈ pointers q

theorem pointers_perm {q q' : List HEntry} (hp : q.Perm q') : (pointers q).Perm (pointers q') := by
  unfold pointers
  exact hp.flatMap_right _

theorem tinv_perm {h : Heap} {q q' : List HEntry} (ht : TInv h q) (hp : q.Perm q') : TInv h q' :=
  ⟨ht.wf, fun x hx => ht.len x (hp.mem_iff.mpr hx), (pointers_perm hp).nodup_iff.mp ht.nodup,
    fun p => (ht.exact p).trans (pointers_perm hp).mem_iff⟩

theorem pointers_cons (x : HEntry) (q : List HEntry) : pointers (x :: q) = x.peer.filterMap id ++ pointers q := rfl

theorem mem_own {x : HEntry} {p : Nat} : p ∈ x.peer.filterMap id ↔ some p ∈ x.peer := by
  constructor
  · intro h
    obtain ⟨y, hy, hye⟩ := List.mem_filterMap.mp h
    have : y = some p := hye
    rwa [this] at hy
  · intro h
    exact List.mem_filterMap.mpr ⟨_, h, rfl⟩

theorem mem_pointers {q : List HEntry} {p : Nat} : p ∈ pointers q ↔ ∃ x ∈ q, some p ∈ x.peer := by
  unfold pointers
  rw [List.mem_flatMap]
  constructor
  · rintro ⟨x, hx, hp⟩
    exact ⟨x, hx, mem_own.mp hp⟩
  · rintro ⟨x, hx, hp⟩
    exact ⟨x, hx, mem_own.mpr hp⟩

theorem tinv_free {h : Heap} {o : HEntry} {q : List HEntry} (ht : TInv h (o :: q)) :
    ∃ h', peerFree h o.peer = .ok h' ∧ TInv h' q ∧ ∀ p ∈ pointers q, h'.at p = h.at p := by
  have hnd := ht.nodup
  rw [pointers_cons, List.nodup_append] at hnd
  obtain ⟨h', hf, hw, -, ha⟩ := peerFree_spec (ps := o.peer) ht.wf hnd.1 (fun p hp =>
    (ht.exact p).mpr (by rw [pointers_cons]; exact List.mem_append_left _ (mem_own.mpr hp)))
  have hdis : ∀ p ∈ pointers q, some p ∉ o.peer := fun p hp hm => hnd.2.2 p (mem_own.mpr hm) p hp rfl
  refine ⟨h', hf, ⟨hw, fun x hx => ht.len x (List.mem_cons_of_mem _ hx), hnd.2.1, fun p => ?_⟩, fun p hp => ?_⟩
  · rw [ha]
    by_cases hm : some p ∈ o.peer
    · rw [if_pos hm]
      constructor
      · intro h; exact absurd h (by simp)
      · intro hp; exact absurd hm (hdis p hp)
    · rw [if_neg hm, ht.exact p, pointers_cons, List.mem_append]
      constructor
      · rintro (h | h)
        · exact absurd (mem_own.mp h) hm
        · exact h
      · exact .inr
  · rw [ha, if_neg (hdis p hp)]

theorem entryTexts_congr {h h' : Heap} {x : HEntry} (hc : ∀ p, some p ∈ x.peer → h'.at p = h.at p) :
    entryTexts h' x = entryTexts h x := by
  unfold entryTexts
  rw [peerTexts_congr hc]

theorem map_entryTexts_congr {h h' : Heap} {q : List HEntry} (hc : ∀ p ∈ pointers q, h'.at p = h.at p) :
    q.map (entryTexts h') = q.map (entryTexts h) := by
  apply List.map_congr_left
  intro x hx
  exact entryTexts_congr (fun p hp => hc p (mem_pointers.mpr ⟨x, hx, hp⟩))

/-! ## Entries and sessions -/

/-- The objects allocated are the ones listed. -/
structure OInv (objs ids : List Nat) (next : Nat) : Prop where
  perm : objs.Perm ids
  nodup : objs.Nodup
  below : ∀ i ∈ objs, i < next

theorem objFree_spec {objs ids : List Nat} {id next : Nat} (ho : OInv objs (id :: ids) next) :
    ∃ objs', objFree objs id = .ok objs' ∧ OInv objs' ids next := by
  have hm : id ∈ objs := ho.perm.mem_iff.mpr List.mem_cons_self
  have hnd : (id :: ids).Nodup := ho.perm.nodup_iff.mp ho.nodup
  rw [List.nodup_cons] at hnd
  refine ⟨objs.filter (· != id), ?_, ?_, ?_, ?_⟩
  · unfold objFree; rw [if_pos hm]
  · have := ho.perm.filter (· != id)
    rw [List.filter_cons_of_neg (by simp)] at this
    have hk : ids.filter (· != id) = ids := List.filter_eq_self.mpr (fun x hx => by
      simp only [bne_iff_ne, ne_eq]
      intro he
      exact hnd.1 (he ▸ hx))
    rwa [hk] at this
  · exact ho.nodup.sublist List.filter_sublist
  · intro i hi
    exact ho.below i (List.mem_filter.mp hi).1

theorem oinv_perm {objs ids ids' : List Nat} {next : Nat} (ho : OInv objs ids next) (hp : ids.Perm ids') :
    OInv objs ids' next := ⟨ho.perm.trans hp, ho.nodup, ho.below⟩

/-! ## Removal -/

theorem hRemove_spec (now : Int) (qs ctx : List HEntry) (sids : List Nat) (next : Nat) (h : Heap) (objs : List Nat)
    (ht : TInv h (ctx ++ qs)) (ho : OInv objs ((ctx ++ qs).map (·.e.id) ++ sids) next) :
    ∃ h' objs', hRemove now qs h objs = .ok (qs.filter (fun q => keeps now q.e), h', objs') ∧
      TInv h' (ctx ++ qs.filter (fun q => keeps now q.e)) ∧
      OInv objs' ((ctx ++ qs.filter (fun q => keeps now q.e)).map (·.e.id) ++ sids) next ∧
      ∀ p ∈ pointers (ctx ++ qs.filter (fun q => keeps now q.e)), h'.at p = h.at p := by
  induction qs generalizing ctx h objs with
  | nil => exact ⟨h, objs, rfl, by simpa using ht, by simpa using ho, fun _ _ => rfl⟩
  | cons q qs ih =>
    unfold hRemove
    by_cases hk : keeps now q.e = true
    · rw [if_pos hk]
      obtain ⟨h', objs', h1, h2, h3, h4⟩ := ih (ctx ++ [q]) h objs (by simpa using ht) (by simpa using ho)
      rw [h1]
      refine ⟨h', objs', ?_, ?_, ?_, ?_⟩
      · rw [List.filter_cons_of_pos (by exact hk)]
        rfl
      · rw [List.filter_cons_of_pos (by exact hk)]; simpa using h2
      · rw [List.filter_cons_of_pos (by exact hk)]; simpa using h3
      · rw [List.filter_cons_of_pos (by exact hk)]; simpa using h4
    · rw [if_neg hk]
      have hp : (ctx ++ q :: qs).Perm (q :: (ctx ++ qs)) := List.perm_middle
      obtain ⟨h1, hf, ht1, ha1⟩ := tinv_free (tinv_perm ht hp)
      have ho1 : OInv objs (q.e.id :: ((ctx ++ qs).map (·.e.id) ++ sids)) next := by
        refine oinv_perm ho ?_
        have := (hp.map (·.e.id)).append_right sids
        simpa using this
      obtain ⟨objs1, hof, ho1⟩ := objFree_spec ho1
      obtain ⟨h', objs', h5, h6, h7, h8⟩ := ih ctx h1 objs1 ht1 ho1
      rw [hf, Res.bind_ok, hof, Res.bind_ok, h5]
      rw [List.filter_cons_of_neg (by exact hk)]
      refine ⟨h', objs', rfl, h6, h7, fun p hpp => ?_⟩
      rw [h8 p hpp, ha1 p]
      obtain ⟨x, hx, hxp⟩ := mem_pointers.mp hpp
      refine mem_pointers.mpr ⟨x, ?_, hxp⟩
      rcases List.mem_append.mp hx with hx | hx
      · exact List.mem_append_left _ hx
      · exact List.mem_append_right _ (List.mem_filter.mp hx).1

/-! ## Descriptions -/

/-- Temporary copies on top of the table's memory. -/
structure Temp (base : Nat → Option Bytes) (h : Heap) (a b : Option Nat) : Prop where
  wf : h.Wf
  first : ∀ p, a = some p → (h.at p).isSome ∧ base p = none
  second : ∀ p, b = some p → (h.at p).isSome ∧ base p = none
  ne : ∀ p, a = some p → b ≠ some p
  rest : ∀ p, a ≠ some p → b ≠ some p → h.at p = base p

theorem temp_base {base : Nat → Option Bytes} {h : Heap} {a b : Option Nat} (ht : Temp base h a b) {p : Nat}
    (hp : (base p).isSome) : h.at p = base p := by
  refine ht.rest p (fun he => ?_) (fun he => ?_)
  · rw [(ht.first p he).2] at hp; exact absurd hp (by simp)
  · rw [(ht.second p he).2] at hp; exact absurd hp (by simp)

theorem temp_fresh {base : Nat → Option Bytes} {h : Heap} {a b : Option Nat} (ht : Temp base h a b) :
    a ≠ some h.next ∧ b ≠ some h.next ∧ base h.next = none := by
  have h1 : a ≠ some h.next := fun he => by
    have := (ht.first _ he).1
    rw [heap_at_fresh ht.wf] at this
    exact absurd this (by simp)
  have h2 : b ≠ some h.next := fun he => by
    have := (ht.second _ he).1
    rw [heap_at_fresh ht.wf] at this
    exact absurd this (by simp)
  exact ⟨h1, h2, by rw [← ht.rest _ h1 h2, heap_at_fresh ht.wf]⟩

theorem temp_swap {base : Nat → Option Bytes} {h : Heap} {a b : Option Nat} (ht : Temp base h a b) :
    Temp base h b a :=
  ⟨ht.wf, ht.second, ht.first, fun p hp he => ht.ne p he hp, fun p h1 h2 => ht.rest p h2 h1⟩

theorem temp_malloc {base : Nat → Option Bytes} {h : Heap} {b : Option Nat} (ht : Temp base h none b) (v : Bytes) :
    Temp base (h.malloc v).2 (some h.next) b ∧ (∀ p, b = some p → (h.malloc v).2.at p = h.at p) := by
  obtain ⟨-, h2, h3⟩ := temp_fresh ht
  refine ⟨⟨malloc_wf ht.wf v, ?_, ?_, ?_, ?_⟩, ?_⟩
  · intro p hp
    obtain rfl := Option.some.inj hp
    rw [malloc_at, if_pos rfl]
    exact ⟨rfl, h3⟩
  · intro p hp
    have hne : p ≠ h.next := fun he => h2 (he ▸ hp)
    rw [malloc_at, if_neg hne]
    exact ht.second p hp
  · intro p hp hb
    obtain rfl := Option.some.inj hp
    exact h2 hb
  · intro p h1 h2'
    have hne : p ≠ h.next := fun he => h1 (by rw [he])
    rw [malloc_at, if_neg hne]
    exact ht.rest p (by simp) h2'
  · intro p hp
    have hne : p ≠ h.next := fun he => h2 (he ▸ hp)
    rw [malloc_at, if_neg hne]

theorem temp_free {base : Nat → Option Bytes} {h : Heap} {a b : Option Nat} (ht : Temp base h a b) :
    ∃ h', freeOpt h a = .ok h' ∧ Temp base h' none b := by
  cases a with
  | none => exact ⟨h, rfl, ht⟩
  | some p =>
    obtain ⟨h', hf, hw, -, ha⟩ := free_spec ht.wf (ht.first p rfl).1
    refine ⟨h', hf, ⟨hw, fun q hq => absurd hq (by simp), ?_, fun q hq => absurd hq (by simp), ?_⟩⟩
    · intro q hq
      have hne : q ≠ p := fun he => ht.ne p rfl (he ▸ hq)
      rw [ha, if_neg hne]
      exact ht.second q hq
    · intro q _ h2
      rw [ha]
      by_cases he : q = p
      · rw [if_pos he, he, (ht.first p rfl).2]
      · rw [if_neg he]
        exact ht.rest q (fun h => he (Option.some.inj h).symm) h2

theorem loadSlot_spec {h : Heap} {ps : List (Option Nat)} {i : Nat} (hlen : ps.length = 8) (hi : i < 8)
    (hl : ∀ p, some p ∈ ps → (h.at p).isSome) : loadSlot h ps i = .ok (textAt h ps i) := by
  have hlt : i < ps.length := hlen ▸ hi
  unfold loadSlot textAt
  rw [List.getElem?_eq_getElem hlt]
  cases hx : ps[i] with
  | none => rfl
  | some p =>
    obtain ⟨v, hv⟩ := Option.isSome_iff_exists.mp (hl p (by rw [← hx]; exact List.getElem_mem hlt))
    simp only [Option.getD_some, Option.bind_some]
    unfold Heap.load
    rw [hv]
    rfl

theorem loadOpt_spec {h : Heap} {a : Option Nat} (ha : ∀ p, a = some p → (h.at p).isSome) :
    loadOpt h a = .ok (a.bind h.at) := by
  cases a with
  | none => rfl
  | some p =>
    obtain ⟨v, hv⟩ := Option.isSome_iff_exists.mp (ha p rfl)
    unfold loadOpt Heap.load
    simp only [Option.bind_some]
    rw [hv]
    rfl

/-- `my_strdup` at most once. -/
theorem dupOnce_spec {base : Nat → Option Bytes} {h : Heap} {a b : Option Nat} (ht : Temp base h a b)
    {ps : List (Option Nat)} {i : Nat} (hlen : ps.length = 8) (hi : i < 8) (hl : ∀ p, some p ∈ ps → (base p).isSome)
    (f : Bytes → Bytes) :
    ∃ a' h', dupOnce h a ps i f = .ok (a', h') ∧ Temp base h' a' b ∧
      a'.bind h'.at = (match a.bind h.at, textAt h ps i with
        | none, some v => some (f v)
        | p, _ => p) ∧ b.bind h'.at = b.bind h.at ∧ (∀ p, some p ∈ ps → h'.at p = h.at p) := by
  unfold dupOnce
  cases a with
  | some p =>
    obtain ⟨v, hv⟩ := Option.isSome_iff_exists.mp (ht.first p rfl).1
    refine ⟨some p, h, rfl, ht, ?_, rfl, fun _ _ => rfl⟩
    simp only [Option.bind_some, hv]
  | none =>
    dsimp only
    have hl' : ∀ p, some p ∈ ps → (h.at p).isSome := fun p hp => by rw [temp_base ht (hl p hp)]; exact hl p hp
    rw [loadSlot_spec hlen hi hl', Res.bind_ok]
    cases htx : textAt h ps i with
    | none => exact ⟨none, h, rfl, ht, rfl, rfl, fun _ _ => rfl⟩
    | some v =>
      obtain ⟨ht', hb⟩ := temp_malloc ht (f v)
      refine ⟨some h.next, (h.malloc (f v)).2, rfl, ht', ?_, ?_, ?_⟩
      · simp only [Option.bind_some, malloc_at, if_true]
        rfl
      · cases b with
        | none => rfl
        | some p => exact hb p rfl
      · intro p hp
        rw [temp_base ht' (hl p hp), temp_base ht (hl p hp)]

theorem hDescrLoop_spec {base : Nat → Option Bytes} (ud : Bool) (index : Nat) (qs : List HEntry)
    (hlen : ∀ x ∈ qs, x.peer.length = 8) (hl : ∀ p ∈ pointers qs, (base p).isSome) (h0 : Heap)
    (hb0 : ∀ p ∈ pointers qs, h0.at p = base p) (h : Heap) (a : HDescr) (ht : Temp base h a.peer a.suffix) :
    ∃ a' h', hDescrLoop ud index qs h a = .ok (a', h') ∧ Temp base h' a'.peer a'.suffix ∧
      (⟨a'.peer.bind h'.at, a'.suffix.bind h'.at, a'.paddr, a'.peers⟩ : DescrAcc) =
        (qs.map (entryTexts h0)).foldl (descrStep ud index) ⟨a.peer.bind h.at, a.suffix.bind h.at, a.paddr, a.peers⟩ := by
  induction qs generalizing h a with
  | nil => exact ⟨a, h, rfl, ht, rfl⟩
  | cons q qs ih =>
    have ih := ih (fun x hx => hlen x (List.mem_cons_of_mem _ hx))
      (fun p hp => hl p (by rw [pointers_cons]; exact List.mem_append_right _ hp))
      (fun p hp => hb0 p (by rw [pointers_cons]; exact List.mem_append_right _ hp))
    unfold hDescrLoop
    by_cases hi : index ≠ q.e.index
    · rw [if_pos hi]
      obtain ⟨a', h', h1, h2, h3⟩ := ih h a ht
      refine ⟨a', h', h1, h2, ?_⟩
      rw [h3, List.map_cons, List.foldl_cons]
      congr 1
      unfold descrStep
      rw [if_pos (show index ≠ (entryTexts h0 q).index from hi)]
    · rw [if_neg hi]
      have hql : ∀ p, some p ∈ q.peer → (base p).isSome := fun p hp =>
        hl p (by rw [pointers_cons]; exact List.mem_append_left _ (mem_own.mpr hp))
      have hq8 := hlen q List.mem_cons_self
      obtain ⟨p1, h1, e1, t1, v1, w1, k1⟩ := dupOnce_spec ht hq8 (i := 0) (by omega) hql (fun b => b.takeWhile (· ≠ 0x2e))
      rw [e1, Res.bind_ok]
      dsimp only
      obtain ⟨p2, h2, e2, t2, v2, w2, k2⟩ := dupOnce_spec (temp_swap t1) hq8 (i := if ud then 2 else 1)
        (by split <;> omega) hql id
      rw [e2, Res.bind_ok]
      dsimp only
      have t2 := temp_swap t2
      have htx : ∀ i, textAt h q.peer i = textAt h0 q.peer i := fun i => textAt_congr i (fun p hp => by
        rw [temp_base ht (hql p hp), hb0 p (by rw [pointers_cons]; exact List.mem_append_left _ (mem_own.mpr hp))])
      have htx1 : ∀ i, textAt h1 q.peer i = textAt h0 q.peer i := fun i => by
        rw [← htx]
        exact textAt_congr i k1
      have hstep : descrStep ud index ⟨a.peer.bind h.at, a.suffix.bind h.at, a.paddr, a.peers⟩ (entryTexts h0 q) =
          if a.paddr = (q.e.msg.drop 6).take 6 then ⟨p1.bind h2.at, p2.bind h2.at, a.paddr, a.peers⟩
          else ⟨p1.bind h2.at, p2.bind h2.at, (q.e.msg.drop 6).take 6, (a.peers + 1) % 65536⟩ := by
        unfold descrStep
        rw [if_neg (show ¬ index ≠ (entryTexts h0 q).index from hi)]
        have ep : (match a.peer.bind h.at, (entryTexts h0 q).peer.hostname with
          | none, some h => some (h.takeWhile (· ≠ 0x2e))
          | p, _ => p) = p1.bind h2.at := by
          rw [w2, v1, htx]
          rfl
        have es : (match a.suffix.bind h.at, (if ud then (entryTexts h0 q).peer.portdescr else (entryTexts h0 q).peer.portname) with
          | none, some s => some s
          | p, _ => p) = p2.bind h2.at := by
          rw [v2, htx1, w1]
          cases ud <;> rfl
        have both : ∀ {P P' S S' : Option Bytes} {x : Bytes} {k : Nat}, P = P' → S = S' →
            (if a.paddr = x then (⟨P, S, a.paddr, a.peers⟩ : DescrAcc) else ⟨P, S, x, k⟩) =
              if a.paddr = x then ⟨P', S', a.paddr, a.peers⟩ else ⟨P', S', x, k⟩ := by
          intro P P' S S' x k h1 h2
          rw [h1, h2]
        exact both ep es
      rw [List.map_cons, List.foldl_cons, hstep]
      split
      · exact ih h2 ⟨p1, p2, a.paddr, a.peers⟩ t2
      · exact ih h2 ⟨p1, p2, _, _⟩ t2

theorem hNetifDescr_spec (o : Opts) (n : Netif) {q : List HEntry} {h : Heap} (ht : TInv h q) :
    ∃ h', hNetifDescr o n q h = .ok (netifDescr o n (q.map (entryTexts h)), h') ∧ h'.Wf ∧ ∀ p, h'.at p = h.at p := by
  unfold hNetifDescr
  have t0 : Temp h.at h none none := ⟨ht.wf, fun _ h => absurd h (by simp), fun _ h => absurd h (by simp),
    fun _ h => absurd h (by simp), fun _ _ _ => rfl⟩
  obtain ⟨a, h1, e1, t1, v1⟩ := hDescrLoop_spec (base := h.at) (o.has OPT_USEDESCR) n.index q ht.len
    (fun p hp => (ht.exact p).mpr hp) h (fun _ _ => rfl) h {} t0
  rw [e1, Res.bind_ok]
  dsimp only
  rw [loadOpt_spec (fun p hp => (t1.first p hp).1), Res.bind_ok, loadOpt_spec (fun p hp => (t1.second p hp).1), Res.bind_ok]
  obtain ⟨h2, e2, t2⟩ := temp_free t1
  obtain ⟨h3, e3, t3⟩ := temp_free (temp_swap t2)
  rw [e2, Res.bind_ok, e3, Res.bind_ok]
  unfold netifDescr descrText
  rw [show ({} : DescrAcc) = ⟨(none : Option Nat).bind h.at, (none : Option Nat).bind h.at, ({} : HDescr).paddr, ({} : HDescr).peers⟩ from rfl]
  rw [← v1]
  dsimp only
  generalize (if a.peers = 0 then _ else _ : Bytes) = d
  have hat3 : ∀ p, h3.at p = h.at p := fun p => t3.rest p (by simp) (by simp)
  by_cases hd : d = n.description
  · rw [if_pos hd, if_pos hd]
    exact ⟨h3, rfl, t3.wf, hat3⟩
  · rw [if_neg hd, if_neg hd]
    obtain ⟨h4, e4, w4, -, a4⟩ := free_spec (malloc_wf t3.wf d) (p := h3.next) (by rw [malloc_at, if_pos rfl]; rfl)
    show ∃ h', (((h3.malloc d).2.free h3.next).bind _) = _ ∧ _
    rw [e4]
    refine ⟨h4, rfl, w4, fun p => ?_⟩
    rw [a4, malloc_at]
    by_cases hp : p = h3.next
    · rw [if_pos hp, hp, ← hat3, heap_at_fresh t3.wf]
    · rw [if_neg hp, if_neg hp, hat3]

end Ladvd
