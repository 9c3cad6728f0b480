import Verif.Spec.Tailq
/-!
# Lemmas: the macros of sys-queue.h
-/

namespace Ladvd
open Spec

/-! ## Segments -/

theorem seg_congr {mem mem' : Nat → Option TqEntry} {p : Loc} {as : List Nat} {n : Option Nat}
    (hc : ∀ x ∈ as, mem' x = mem x) (h : Seg mem p as n) : Seg mem' p as n := by
  induction as generalizing p with
  | nil => trivial
  | cons a as ih =>
    exact ⟨by rw [hc a List.mem_cons_self]; exact h.1, ih (fun x hx => hc x (List.mem_cons_of_mem _ hx)) h.2⟩

theorem seg_append {mem : Nat → Option TqEntry} {p : Loc} {l1 l2 : List Nat} {n : Option Nat} :
    Seg mem p (l1 ++ l2) n ↔ Seg mem p l1 (l2.head?.or n) ∧ Seg mem (endLoc p l1) l2 n := by
  induction l1 generalizing p with
  | nil => simp [Seg, endLoc]
  | cons a l1 ih =>
    rw [List.cons_append, Seg, Seg, endLoc, ih, List.head?_append, Option.or_assoc, and_assoc]

theorem endLoc_append (p : Loc) (l1 l2 : List Nat) : endLoc p (l1 ++ l2) = endLoc (endLoc p l1) l2 := by
  induction l1 generalizing p with
  | nil => rfl
  | cons a l1 ih => rw [List.cons_append, endLoc, endLoc, ih]

/-! ## Accesses -/

theorem tq_get {q : Tailq} {a : Nat} {l : TqEntry} (h : q.mem a = some l) : q.get a = .ok l := by
  unfold Tailq.get; rw [h]

theorem tq_setNext {q : Tailq} {a : Nat} {l : TqEntry} (h : q.mem a = some l) (v : Option Nat) :
    q.setNext a v = .ok (q.set a { l with next := v }) := by
  unfold Tailq.setNext; rw [tq_get h]; rfl

theorem tq_setPrev {q : Tailq} {a : Nat} {l : TqEntry} (h : q.mem a = some l) (v : Option Loc) :
    q.setPrev a v = .ok (q.set a { l with prev := v }) := by
  unfold Tailq.setPrev; rw [tq_get h]; rfl

theorem tq_set_mem (q : Tailq) (a : Nat) (l : TqEntry) (x : Nat) : (q.set a l).mem x = if x = a then some l else q.mem x := rfl

theorem tq_ne {x a : Nat} {l : List Nat} (hx : x ∈ l) (ha : a ∉ l) : x ≠ a := fun he => ha (he ▸ hx)

theorem tq_bind {α β : Type} {r : Res α} {a : α} (h : r = .ok a) (f : α → Res β) : r.bind f = f a := by rw [h]; rfl

theorem tq_set_same (q : Tailq) (a : Nat) (l : TqEntry) (h : (q.mem a).isSome) (x : Nat) :
    ((q.set a l).mem x).isSome = (q.mem x).isSome := by
  rw [tq_set_mem]
  split
  · rename_i he; rw [he, h]; rfl
  · rfl

/-- A store through the last `next` pointer of a front part. -/
theorem tq_store {q : Tailq} {l1 : List Nat} {n : Option Nat} (hn : l1.Nodup) (hf : q.first = l1.head?.or n)
    (hs : Seg q.mem .first l1 n) (v : Option Nat) :
    ∃ q', q.store (endLoc .first l1) v = .ok q' ∧ q'.first = l1.head?.or v ∧ Seg q'.mem .first l1 v ∧ q'.last = q.last ∧
      (∀ x, x ∉ l1 → q'.mem x = q.mem x) ∧ ∀ x, (q'.mem x).isSome = (q.mem x).isSome := by
  rcases List.eq_nil_or_concat l1 with rfl | ⟨l, x, rfl⟩
  · exact ⟨{ q with first := v }, rfl, rfl, trivial, rfl, fun _ _ => rfl, fun _ => rfl⟩
  · rw [List.concat_eq_append] at hn hf hs ⊢
    rw [seg_append] at hs
    obtain ⟨hs1, hs2, -⟩ := hs
    have hx : q.mem x = some ⟨n, some (endLoc .first l)⟩ := by simpa using hs2
    rw [List.nodup_append] at hn
    have hxl : x ∉ l := fun hm => hn.2.2 x hm x (by simp) rfl
    refine ⟨q.set x ⟨v, some (endLoc .first l)⟩, ?_, ?_, ?_, rfl, ?_, ?_⟩
    · rw [endLoc_append]
      show q.setNext x v = _
      rw [tq_setNext hx]
    · show q.first = _
      rw [hf, List.head?_append]
      simp
    · rw [seg_append]
      refine ⟨seg_congr (fun y hy => ?_) hs1, ?_, trivial⟩
      · rw [tq_set_mem, if_neg (tq_ne hy hxl)]
      · rw [tq_set_mem, if_pos rfl]; simp
    · intro y hy
      rw [tq_set_mem, if_neg (fun he => hy (by rw [he]; simp))]
    · intro y
      exact tq_set_same q x _ (by rw [hx]; rfl) y

/-! ## The macros -/

theorem insertTail_spec {q : Tailq} {as : List Nat} {e : Nat} (h : IsQueue q as) (he : e ∉ as) (ha : (q.mem e).isSome) :
    ∃ q', q.insertTail e = .ok q' ∧ IsQueue q' (as ++ [e]) ∧ ∀ x, (q'.mem x).isSome = (q.mem x).isSome := by
  obtain ⟨l, hl⟩ := Option.isSome_iff_exists.mp ha
  unfold Tailq.insertTail
  rw [tq_setNext hl, Res.bind_ok]
  rw [tq_setPrev (l := { l with next := none }) (by rw [tq_set_mem, if_pos rfl]), Res.bind_ok]
  generalize hq2 : (q.set e { l with next := none }).set e { next := none, prev := some (q.set e { l with next := none }).last } = q2
  have hlast : q2.last = endLoc .first as := by rw [← hq2]; exact h.last
  have hmem : ∀ x, q2.mem x = if x = e then some ⟨none, some (endLoc .first as)⟩ else q.mem x := by
    intro x
    rw [← hq2, tq_set_mem, tq_set_mem]
    split
    · show some (⟨none, some q.last⟩ : TqEntry) = _
      rw [h.last]
    · rfl
  have hfirst : q2.first = as.head?.or none := by rw [← hq2, Option.or_none]; exact h.first
  have hne : ∀ x ∈ as, x ≠ e := fun x hx hxe => he (hxe ▸ hx)
  obtain ⟨q3, h1, h2, h3, h4, h5, h6⟩ := tq_store (q := q2) (n := none) h.nodup hfirst
    (seg_congr (fun x hx => by rw [hmem, if_neg (hne x hx)]) h.seg) (some e)
  rw [hlast, h1, Res.bind_ok]
  refine ⟨_, rfl, ⟨?_, ?_, ?_, ?_⟩, ?_⟩
  · rw [List.nodup_append]
    exact ⟨h.nodup, by simp, fun a ha b hb hab => hne a ha (by rw [hab]; simpa using hb)⟩
  · show q3.first = _
    rw [h2, List.head?_append]
    rfl
  · rw [endLoc_append]
    rfl
  · rw [seg_append]
    refine ⟨h3, ?_, trivial⟩
    show q3.mem e = _
    rw [h5 e he, hmem, if_pos rfl]
    rfl
  · intro x
    show (q3.mem x).isSome = _
    rw [h6, hmem]
    split
    · rename_i hx; rw [hx, ha]; rfl
    · rfl

theorem insertAfter_spec {q : Tailq} {l1 l2 : List Nat} {a e : Nat} (h : IsQueue q (l1 ++ a :: l2)) (he : e ∉ l1 ++ a :: l2)
    (hm : (q.mem e).isSome) :
    ∃ q', q.insertAfter a e = .ok q' ∧ IsQueue q' (l1 ++ a :: e :: l2) ∧ ∀ x, (q'.mem x).isSome = (q.mem x).isSome := by
  obtain ⟨l, hl⟩ := Option.isSome_iff_exists.mp hm
  have hs := h.seg
  rw [seg_append] at hs
  obtain ⟨hs1, hsa, hs2⟩ := hs
  have hsa : q.mem a = some ⟨l2.head?, some (endLoc .first l1)⟩ := by rw [hsa, Option.or_none]
  have hnd := h.nodup
  rw [List.nodup_append, List.nodup_cons] at hnd
  obtain ⟨hn1, ⟨ha2, hn2⟩, hd⟩ := hnd
  have ha1 : a ∉ l1 := fun hx => hd a hx a List.mem_cons_self rfl
  have hd2 : ∀ x ∈ l1, x ∉ l2 := fun x hx hx2 => hd x hx x (List.mem_cons_of_mem _ hx2) rfl
  have he1 : e ∉ l1 := fun hx => he (List.mem_append_left _ hx)
  have hea : e ≠ a := fun hx => he (by rw [hx]; simp)
  have he2 : e ∉ l2 := fun hx => he (List.mem_append_right _ (List.mem_cons_of_mem _ hx))
  -- the state before the last two assignments
  have key : ∃ q2 : Tailq, ((match l2.head? with
      | some n => (q.set e { l with next := l2.head? }).setPrev n (some (.next e))
      | none => .ok { (q.set e { l with next := l2.head? }) with last := .next e } : Res Tailq)) = .ok q2 ∧
      q2.first = q.first ∧ q2.last = endLoc (.next e) l2 ∧ (∀ x ∈ l1, q2.mem x = q.mem x) ∧ q2.mem a = q.mem a ∧
      q2.mem e = some { l with next := l2.head? } ∧ Seg q2.mem (.next e) l2 none ∧
      ∀ x, (q2.mem x).isSome = (q.mem x).isSome := by
    cases l2 with
    | nil =>
      refine ⟨_, rfl, rfl, rfl, fun x hx => ?_, ?_, ?_, trivial, ?_⟩
      · show (q.set e _).mem x = _
        rw [tq_set_mem, if_neg (tq_ne hx he1)]
      · show (q.set e _).mem a = _
        rw [tq_set_mem, if_neg (Ne.symm hea)]
      · show (q.set e _).mem e = _
        rw [tq_set_mem, if_pos rfl]
      · intro x; exact tq_set_same q e _ hm x
    | cons b l3 =>
      have hb := hs2.1
      have hbe : b ≠ e := fun hx => he2 (by rw [hx]; simp)
      have hba : a ≠ b := fun hx => ha2 (by rw [hx]; simp)
      rw [List.nodup_cons] at hn2
      have hb' : (q.set e { l with next := some b }).mem b = some ⟨l3.head?.or none, some (.next a)⟩ := by
        rw [tq_set_mem, if_neg hbe]; exact hb
      dsimp only [List.head?_cons]
      rw [tq_setPrev hb']
      refine ⟨_, rfl, rfl, ?_, fun x hx => ?_, ?_, ?_, ⟨?_, ?_⟩, ?_⟩
      · show q.last = _
        rw [h.last, endLoc_append]
        rfl
      · rw [tq_set_mem, if_neg (fun hxb => hd2 x hx (by rw [hxb]; simp)), tq_set_mem, if_neg (tq_ne hx he1)]
      · rw [tq_set_mem, if_neg hba, tq_set_mem, if_neg (Ne.symm hea)]
      · rw [tq_set_mem, if_neg (Ne.symm hbe), tq_set_mem, if_pos rfl]
      · rw [tq_set_mem, if_pos rfl]
      · refine seg_congr (fun x hx => ?_) hs2.2
        rw [tq_set_mem, if_neg (tq_ne hx hn2.1), tq_set_mem, if_neg (fun hxe => he2 (by rw [← hxe]; exact List.mem_cons_of_mem _ hx))]
      · intro x
        rw [tq_set_same _ b _ (by rw [hb']; rfl), tq_set_same q e _ hm]
  obtain ⟨q2, k1, k2, k3, k4, k5, k6, k7, k8⟩ := key
  unfold Tailq.insertAfter
  rw [tq_get hsa, Res.bind_ok]
  dsimp only
  rw [tq_setNext hl, Res.bind_ok]
  suffices hh : ∃ q', (q2.setNext a (some e)).bind (fun q => q.setPrev e (some (.next a))) = .ok q' ∧
      IsQueue q' (l1 ++ a :: e :: l2) ∧ ∀ x, (q'.mem x).isSome = (q.mem x).isSome by
    obtain ⟨q', g1, g2⟩ := hh
    exact ⟨q', (tq_bind k1 _).trans g1, g2⟩
  rw [tq_setNext (k5.trans hsa), Res.bind_ok]
  have hme : (q2.set a { next := some e, prev := some (endLoc .first l1) }).mem e = some { l with next := l2.head? } := by
    rw [tq_set_mem, if_neg hea]; exact k6
  rw [tq_setPrev hme]
  refine ⟨_, rfl, ⟨?_, ?_, ?_, ?_⟩, ?_⟩
  · rw [List.nodup_append, List.nodup_cons, List.nodup_cons]
    refine ⟨hn1, ⟨?_, he2, hn2⟩, fun x hx y hy hxy => ?_⟩
    · intro hx
      rcases List.mem_cons.mp hx with hx | hx
      · exact hea hx.symm
      · exact ha2 hx
    · rcases List.mem_cons.mp hy with hy | hy
      · exact ha1 (by rw [← hy, ← hxy]; exact hx)
      · rcases List.mem_cons.mp hy with hy | hy
        · exact he1 (by rw [← hy, ← hxy]; exact hx)
        · exact hd2 x hx (hxy ▸ hy)
  · show q2.first = _
    rw [k2, h.first]
    cases l1 <;> rfl
  · show q2.last = _
    rw [k3, endLoc_append]
    rfl
  · have hout : ∀ x, x ≠ a → x ≠ e → ((q2.set a { next := some e, prev := some (endLoc .first l1) }).set e
        { next := l2.head?, prev := some (.next a) }).mem x = q2.mem x := by
      intro x hxa hxe
      rw [tq_set_mem, if_neg hxe, tq_set_mem, if_neg hxa]
    rw [seg_append]
    refine ⟨seg_congr (fun x hx => ?_) (show Seg q.mem .first l1 (some a) from hs1), ?_, ?_, ?_⟩
    · rw [hout x (fun hxa => ha1 (hxa ▸ hx)) (fun hxe => he1 (hxe ▸ hx)), k4 x hx]
    · rw [tq_set_mem, if_neg (Ne.symm hea), tq_set_mem, if_pos rfl]
      rfl
    · rw [tq_set_mem, if_pos rfl, Option.or_none]
    · exact seg_congr (fun x hx => hout x (fun hxa => ha2 (hxa ▸ hx)) (fun hxe => he2 (hxe ▸ hx))) k7
  · intro x
    rw [tq_set_same _ e _ (by rw [hme]; rfl), tq_set_same _ a _ (by rw [k5, hsa]; rfl), k8]

theorem remove_spec {q : Tailq} {l1 l2 : List Nat} {e : Nat} (h : IsQueue q (l1 ++ e :: l2)) :
    ∃ q', q.remove e = .ok q' ∧ IsQueue q' (l1 ++ l2) ∧ ∀ x, (q'.mem x).isSome = (q.mem x).isSome := by
  have hs := h.seg
  rw [seg_append] at hs
  obtain ⟨hs1, hse, hs2⟩ := hs
  have hse : q.mem e = some ⟨l2.head?, some (endLoc .first l1)⟩ := by rw [hse, Option.or_none]
  have hnd := h.nodup
  rw [List.nodup_append, List.nodup_cons] at hnd
  obtain ⟨hn1, ⟨he2, hn2⟩, hd⟩ := hnd
  have he1 : e ∉ l1 := fun hx => hd e hx e List.mem_cons_self rfl
  have hd2 : ∀ x ∈ l1, x ∉ l2 := fun x hx hx2 => hd x hx x (List.mem_cons_of_mem _ hx2) rfl
  have key : ∃ q1 : Tailq, ((match l2.head? with
      | some n => q.setPrev n (some (endLoc .first l1))
      | none => .ok { q with last := endLoc .first l1 } : Res Tailq)) = .ok q1 ∧
      q1.first = q.first ∧ q1.last = endLoc (endLoc .first l1) l2 ∧ (∀ x ∈ l1, q1.mem x = q.mem x) ∧ q1.mem e = q.mem e ∧
      Seg q1.mem (endLoc .first l1) l2 none ∧ ∀ x, (q1.mem x).isSome = (q.mem x).isSome := by
    cases l2 with
    | nil => exact ⟨_, rfl, rfl, rfl, fun _ _ => rfl, rfl, trivial, fun _ => rfl⟩
    | cons b l3 =>
      have hb := hs2.1
      have hbe : e ≠ b := fun hx => he2 (by rw [hx]; simp)
      rw [List.nodup_cons] at hn2
      dsimp only [List.head?_cons]
      rw [tq_setPrev hb]
      refine ⟨_, rfl, rfl, ?_, fun x hx => ?_, ?_, ⟨?_, ?_⟩, ?_⟩
      · show q.last = _
        rw [h.last, endLoc_append]
        rfl
      · rw [tq_set_mem, if_neg (fun hxb => hd2 x hx (by rw [hxb]; simp))]
      · rw [tq_set_mem, if_neg hbe]
      · rw [tq_set_mem, if_pos rfl]
      · exact seg_congr (fun x hx => by rw [tq_set_mem, if_neg (tq_ne hx hn2.1)]) hs2.2
      · intro x; exact tq_set_same _ b _ (by rw [hb]; rfl) x
  obtain ⟨q1, k1, k2, k3, k4, k5, k6, k7⟩ := key
  unfold Tailq.remove
  rw [tq_get hse, Res.bind_ok]
  dsimp only
  suffices hh : ∃ q', (q1.get e).bind (fun l => q1.store (endLoc .first l1) l.next) = .ok q' ∧
      IsQueue q' (l1 ++ l2) ∧ ∀ x, (q'.mem x).isSome = (q.mem x).isSome by
    obtain ⟨q', g1, g2⟩ := hh
    exact ⟨q', (tq_bind k1 _).trans g1, g2⟩
  rw [tq_get (k5.trans hse), Res.bind_ok]
  have hf : q1.first = l1.head?.or (some e) := by
    rw [k2, h.first, List.head?_append]
    rfl
  obtain ⟨q', h1, h2, h3, h4, h5, h6⟩ := tq_store (q := q1) (n := some e) hn1 hf (seg_congr k4 hs1) l2.head?
  refine ⟨q', h1, ⟨?_, ?_, ?_, ?_⟩, fun x => by rw [h6, k7]⟩
  · rw [List.nodup_append]
    exact ⟨hn1, hn2, fun x hx y hy hxy => hd2 x hx (hxy ▸ hy)⟩
  · rw [h2, List.head?_append]
  · rw [h4, k3, endLoc_append]
  · rw [seg_append, Option.or_none]
    exact ⟨h3, seg_congr (fun x hx => h5 x (fun hx1 => hd2 x hx1 hx)) k6⟩

/-! ## Traversals -/

theorem walk_seg {q : Tailq} {p : Loc} {as : List Nat} (h : Seg q.mem p as none) {fuel : Nat} (hf : as.length ≤ fuel) :
    q.walk fuel as.head? = .ok as := by
  induction as generalizing p fuel with
  | nil => cases fuel <;> rfl
  | cons a as ih =>
    cases fuel with
    | zero => simp at hf
    | succ fuel =>
      rw [List.head?_cons, Tailq.walk, tq_get h.1, Res.bind_ok, Option.or_none, ih h.2 (by simpa using hf)]
      rfl

theorem isQueue_congr {q q' : Tailq} {as : List Nat} (h : IsQueue q as) (hf : q'.first = q.first) (hl : q'.last = q.last)
    (hm : ∀ x ∈ as, q'.mem x = q.mem x) : IsQueue q' as :=
  ⟨h.nodup, hf.trans h.first, hl.trans h.last, seg_congr hm h.seg⟩

theorem sweep_spec (dead : Nat → Bool) {q : Tailq} {kept rest : List Nat} (h : IsQueue q (kept ++ rest)) {fuel : Nat}
    (hf : rest.length ≤ fuel) :
    ∃ q', Tailq.sweep dead fuel rest.head? q = .ok q' ∧ IsQueue q' (kept ++ rest.filter (fun a => !dead a)) ∧
      ∀ x, (q'.mem x).isSome ↔ (q.mem x).isSome ∧ ¬ (x ∈ rest ∧ dead x = true) := by
  induction rest generalizing q kept fuel with
  | nil =>
    refine ⟨q, by cases fuel <;> rfl, by simpa using h, fun x => by simp⟩
  | cons a rest ih =>
    cases fuel with
    | zero => simp at hf
    | succ fuel =>
      have hf : rest.length ≤ fuel := by simpa using hf
      have hs := h.seg
      rw [seg_append] at hs
      rw [List.head?_cons, Tailq.sweep, tq_get hs.2.1, Res.bind_ok]
      dsimp only
      rw [Option.or_none]
      have hnd := h.nodup
      rw [List.nodup_append, List.nodup_cons] at hnd
      obtain ⟨-, ⟨har, -⟩, hdis⟩ := hnd
      have hak : a ∉ kept := fun hx => hdis a hx a List.mem_cons_self rfl
      cases hdead : dead a with
      | false =>
        rw [if_neg (by simp)]
        obtain ⟨q', h1, h2, h3⟩ := ih (q := q) (kept := kept ++ [a]) (by simpa using h) hf
        refine ⟨q', h1, ?_, fun x => ?_⟩
        · rw [List.filter_cons_of_pos (by simp [hdead])]
          simpa using h2
        · rw [h3 x]
          constructor
          · rintro ⟨k1, k2⟩
            refine ⟨k1, fun ⟨k3, k4⟩ => ?_⟩
            rcases List.mem_cons.mp k3 with rfl | k3
            · rw [hdead] at k4; cases k4
            · exact k2 ⟨k3, k4⟩
          · rintro ⟨k1, k2⟩
            exact ⟨k1, fun ⟨k3, k4⟩ => k2 ⟨List.mem_cons_of_mem _ k3, k4⟩⟩
      | true =>
        rw [if_pos rfl]
        obtain ⟨q1, h1, h2, h3⟩ := remove_spec h
        have hsome : (q1.mem a).isSome := by rw [h3, hs.2.1]; rfl
        obtain ⟨l, hl⟩ := Option.isSome_iff_exists.mp hsome
        rw [h1, Res.bind_ok]
        unfold Tailq.free
        rw [hl, Res.bind_ok]
        obtain ⟨q', h4, h5, h6⟩ := ih (q := { q1 with mem := fun x => if x = a then none else q1.mem x }) (kept := kept)
          (isQueue_congr h2 rfl rfl (fun x hx => by
            show (if x = a then none else q1.mem x) = _
            rw [if_neg]
            rintro rfl
            rcases List.mem_append.mp hx with hx | hx
            · exact hak hx
            · exact har hx)) hf
        refine ⟨q', h4, ?_, fun x => ?_⟩
        · rw [List.filter_cons_of_neg (by simp [hdead])]
          exact h5
        · rw [h6 x]
          show (if x = a then none else q1.mem x).isSome = true ∧ _ ↔ _
          by_cases hx : x = a
          · rw [if_pos hx]
            constructor
            · rintro ⟨k1, -⟩; cases k1
            · rintro ⟨-, k2⟩; exact absurd ⟨by rw [hx]; exact List.mem_cons_self, by rw [hx]; exact hdead⟩ k2
          · rw [if_neg hx, h3 x]
            constructor
            · rintro ⟨k1, k2⟩
              refine ⟨k1, fun ⟨k3, k4⟩ => ?_⟩
              rcases List.mem_cons.mp k3 with k3 | k3
              · exact hx k3
              · exact k2 ⟨k3, k4⟩
            · rintro ⟨k1, k2⟩
              exact ⟨k1, fun ⟨k3, k4⟩ => k2 ⟨List.mem_cons_of_mem _ k3, k4⟩⟩

/-! ## The table -/

theorem ptScan_spec (t : PTable) (index proto : Nat) (m : Bytes) (all : List Nat) (as : List Nat) (i : Nat) (hd : all.drop i = as)
    (p : Loc) (hs : Seg t.q.mem p as none) (fuel : Nat) (hf : as.length ≤ fuel) (pm : Option Nat) :
    ptScan t index proto m fuel as.head? (pm.bind (all[·]?)) =
      .ok ((queueScan index proto m (as.map t.data) i pm).1.bind (all[·]?), (queueScan index proto m (as.map t.data) i pm).2.bind (all[·]?)) := by
  induction as generalizing i p fuel pm with
  | nil => cases fuel <;> rfl
  | cons a as ih =>
    cases fuel with
    | zero => simp at hf
    | succ fuel =>
      have hf : as.length ≤ fuel := by simpa using hf
      have hd' : all.drop (i + 1) = as := by
        rw [← List.drop_drop, hd]; rfl
      have hai : all[i]? = some a := by
        have : (all.drop i)[0]? = some a := by rw [hd]; rfl
        simpa using this
      rw [List.head?_cons, List.map_cons]
      unfold ptScan queueScan
      rw [tq_get hs.1, Res.bind_ok]
      dsimp only
      rw [Option.or_none]
      split
      · exact ih (i + 1) hd' _ hs.2 fuel hf pm
      · have hpm : (if m.drop 6 = ((t.data a).msg.drop 6).take 6 then some a else pm.bind (all[·]?)) =
            (if m.drop 6 = ((t.data a).msg.drop 6).take 6 then some i else pm).bind (all[·]?) := by
          split
          · rw [Option.bind_some, hai]
          · rfl
        rw [hpm]
        generalize (if m.drop 6 = ((t.data a).msg.drop 6).take 6 then some i else pm) = pm'
        split
        · exact ih (i + 1) hd' _ hs.2 fuel hf pm'
        · split
          · exact ih (i + 1) hd' _ hs.2 fuel hf pm'
          · rw [Option.bind_some, hai]

theorem queueScan_bound (index proto : Nat) (a : Bytes) (q : List Entry) (i : Nat) (pm : Option Nat) :
    (∀ k, (queueScan index proto a q i pm).1 = some k → i ≤ k ∧ k < i + q.length) ∧
    (∀ k, (queueScan index proto a q i pm).2 = some k → k < i + q.length ∨ pm = some k) := by
  induction q generalizing i pm with
  | nil => exact ⟨fun _ hk => (nomatch hk), fun _ hk => .inr hk⟩
  | cons x q ih =>
    unfold queueScan
    rw [List.length_cons]
    have h0 := ih (i + 1) pm
    split
    · exact ⟨fun k hk => by have := h0.1 k hk; omega, fun k hk => (h0.2 k hk).imp (fun h => by omega) id⟩
    · dsimp only
      have hp : ∀ k, (if a.drop 6 = (x.msg.drop 6).take 6 then some i else pm) = some k → k < i + (q.length + 1) ∨ pm = some k := by
        intro k hk
        split at hk
        · exact .inl (by have := Option.some.inj hk; omega)
        · exact .inr hk
      generalize (if a.drop 6 = (x.msg.drop 6).take 6 then some i else pm) = pm' at hp
      have h1 := ih (i + 1) pm'
      have h1' : ∀ k, (queueScan index proto a q (i + 1) pm').2 = some k → k < i + (q.length + 1) ∨ pm = some k := by
        intro k hk
        rcases h1.2 k hk with h | h
        · exact .inl (by omega)
        · exact hp k h
      split
      · exact ⟨fun k hk => by have := h1.1 k hk; omega, h1'⟩
      · split
        · exact ⟨fun k hk => by have := h1.1 k hk; omega, h1'⟩
        · exact ⟨fun k hk => by have := Option.some.inj hk; omega, hp⟩

theorem tq_malloc {q : Tailq} {as : List Nat} {new : Nat} (h : IsQueue q as) (hx : ∀ a, (q.mem a).isSome ↔ a ∈ as)
    (hn : q.mem new = none) :
    q.malloc new = .ok (q.set new ⟨none, none⟩) ∧ IsQueue (q.set new ⟨none, none⟩) as ∧ new ∉ as := by
  have hna : new ∉ as := fun hm => by
    have := (hx new).mpr hm
    rw [hn] at this; cases this
  refine ⟨by unfold Tailq.malloc; rw [hn], isQueue_congr h rfl rfl (fun x hx => ?_), hna⟩
  rw [tq_set_mem, if_neg (tq_ne hx hna)]

/-- Storing a message. -/
theorem ptPut_spec {t : PTable} {as : List Nat} {l : List Entry} (h : Represents t as l) (e : Entry) (new : Nat) {fuel : Nat}
    (hf : as.length ≤ fuel) :
    (ptPut fuel t e new = .fail ∧ new ∈ as) ∨
      ∃ t' as', ptPut fuel t e new = .ok t' ∧ Represents t' as' (queuePut l e) ∧ as'.length ≤ as.length + 1 ∧
        ∀ a ∈ as', a ∈ as ∨ a = new := by
  have hscan := ptScan_spec t e.index e.proto (e.msg.take 12) as as 0 rfl .first h.queue.seg fuel hf none
  have hb := queueScan_bound e.index e.proto (e.msg.take 12) (as.map t.data) 0 none
  unfold ptPut queuePut
  rw [h.queue.first, show (none : Option Nat) = (none : Option Nat).bind (as[·]?) from rfl, hscan, Res.bind_ok, h.data]
  rw [h.data] at hb
  have hlen : l.length = as.length := by rw [← h.data, List.length_map]
  dsimp only [Option.bind_none]
  cases hq : queueScan e.index e.proto (e.msg.take 12) l 0 none with
  | mk m pm =>
  rw [hq] at hb
  cases m with
  | some i =>
    have hi : i < as.length := by have := hb.1 i rfl; omega
    right
    dsimp only [Option.bind_some]
    rw [List.getElem?_eq_getElem hi]
    generalize hp : as[i] = p
    have hsplit : as = as.take i ++ p :: as.drop (i + 1) := by
      rw [← hp, ← List.drop_eq_getElem_cons hi, List.take_append_drop]
    have hnd := h.queue.nodup
    rw [hsplit, List.nodup_append, List.nodup_cons] at hnd
    refine ⟨_, as, rfl, ⟨h.queue, h.exact, ?_⟩, by omega, fun a ha => .inl ha⟩
    dsimp only
    have hli : l.drop i = t.data p :: l.drop (i + 1) := by
      rw [← h.data, ← List.map_drop, ← List.map_drop, List.drop_eq_getElem_cons hi, hp, List.map_cons]
    rw [hli]
    dsimp only
    conv => lhs; rw [hsplit]
    rw [List.map_append, List.map_cons, if_pos rfl]
    congr 1
    · rw [← h.data, ← List.map_take]
      apply List.map_congr_left
      intro x hx
      rw [if_neg]
      rintro rfl
      exact hnd.2.2 x hx x List.mem_cons_self rfl
    · congr 1
      rw [← h.data, ← List.map_drop]
      apply List.map_congr_left
      intro x hx
      rw [if_neg]
      rintro rfl
      exact hnd.2.1.1 hx
  | none =>
    dsimp only [Option.bind_none]
    cases hnew : t.q.mem new with
    | some l0 =>
      left
      refine ⟨?_, (h.exact new).mp (by rw [hnew]; rfl)⟩
      unfold Tailq.malloc
      rw [hnew]
      rfl
    | none =>
      right
      obtain ⟨h1, h2, h3⟩ := tq_malloc h.queue h.exact hnew
      rw [h1, Res.bind_ok]
      have hsome : ((t.q.set new ⟨none, none⟩).mem new).isSome := by rw [tq_set_mem, if_pos rfl]; rfl
      have hmem : ∀ x, ((t.q.set new ⟨none, none⟩).mem x).isSome ↔ x ∈ as ∨ x = new := by
        intro x
        rw [tq_set_mem]
        split
        · rename_i hx; simp [hx]
        · rename_i hx; rw [h.exact x]; simp [hx]
      have hdata : ∀ l1 : List Nat, (∀ x ∈ l1, x ∈ as) → l1.map (fun x => if x = new then e else t.data x) = l1.map t.data := by
        intro l1 hl1
        apply List.map_congr_left
        intro x hx
        rw [if_neg]
        rintro rfl
        exact h3 (hl1 x hx)
      cases pm with
      | none =>
        obtain ⟨q', k1, k2, k3⟩ := insertTail_spec h2 h3 hsome
        dsimp only [Option.bind_none]
        rw [k1, Res.bind_ok]
        refine ⟨_, as ++ [new], rfl, ⟨k2, fun a => ?_, ?_⟩, by simp, fun a ha => by simpa using ha⟩
        · show (q'.mem a).isSome = true ↔ _
          rw [k3, hmem]; simp
        · unfold queueInsert
          rw [List.map_append, hdata as (fun _ hx => hx), h.data]
          simp
      | some i =>
        have hi : i < as.length := by
          rcases hb.2 i rfl with hh | hh
          · omega
          · cases hh
        dsimp only [Option.bind_some]
        rw [List.getElem?_eq_getElem hi]
        generalize hp : as[i] = p
        have hsplit : as = as.take i ++ p :: as.drop (i + 1) := by
          rw [← hp, ← List.drop_eq_getElem_cons hi, List.take_append_drop]
        have htake : as.take (i + 1) = as.take i ++ [p] := by
          rw [List.take_add_one, List.getElem?_eq_getElem hi, hp]; rfl
        rw [hsplit] at h2 h3
        obtain ⟨q', k1, k2, k3⟩ := insertAfter_spec h2 h3 hsome
        dsimp only
        rw [k1, Res.bind_ok]
        refine ⟨_, _, rfl, ⟨k2, fun a => ?_, ?_⟩, ?_, fun a ha => ?_⟩
        · show (q'.mem a).isSome = true ↔ _
          rw [k3, hmem]
          conv => lhs; rw [hsplit]
          simp only [List.mem_append, List.mem_cons]
          constructor
          · rintro ((h | h | h) | h) <;> simp [h]
          · rintro (h | h | h | h) <;> simp [h]
        · show (as.take i ++ p :: new :: as.drop (i + 1)).map (fun x => if x = new then e else t.data x) = _
          unfold queueInsert
          dsimp only
          rw [show as.take i ++ p :: new :: as.drop (i + 1) = as.take (i + 1) ++ new :: as.drop (i + 1) by rw [htake]; simp]
          rw [List.map_append, List.map_cons, if_pos rfl, hdata _ (fun x hx => List.mem_of_mem_take hx),
            hdata _ (fun x hx => List.mem_of_mem_drop hx), ← h.data, List.map_take, List.map_drop]
        · have := congrArg List.length hsplit
          simp only [List.length_append, List.length_cons] at this ⊢
          omega
        · rw [hsplit]
          simp only [List.mem_append, List.mem_cons] at ha ⊢
          rcases ha with h | h | h | h <;> simp [h]

theorem ptExpire_spec {t : PTable} {as : List Nat} {l : List Entry} (h : Represents t as l) (now : Int) {fuel : Nat}
    (hf : as.length ≤ fuel) :
    ∃ t' as', ptExpire fuel now t = .ok t' ∧ Represents t' as' (l.filter (keeps now)) ∧ as'.length ≤ as.length ∧ ∀ a ∈ as', a ∈ as := by
  obtain ⟨q', h1, h2, h3⟩ := sweep_spec (fun a => !keeps now (t.data a)) (kept := []) (rest := as) h.queue hf
  unfold ptExpire
  rw [h.queue.first, h1, Res.bind_ok]
  have hfil : as.filter (fun a => !(!keeps now (t.data a))) = as.filter (fun a => keeps now (t.data a)) := by
    apply List.filter_congr
    intro x _
    rw [Bool.not_not]
  rw [List.nil_append, hfil] at h2
  refine ⟨_, _, rfl, ⟨h2, fun a => ?_, ?_⟩, List.length_filter_le _ _, fun a ha => (List.mem_filter.mp ha).1⟩
  · show (q'.mem a).isSome = true ↔ _
    rw [h3, h.exact, List.mem_filter]
    cases keeps now (t.data a) <;> simp
  · rw [← h.data, List.filter_map]
    rfl

end Ladvd
