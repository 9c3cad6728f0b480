import Verif.Lemmas.Tailq
/-!
# C73: the linked lists are what they look like

Every other theorem treats the neighbour table, the interfaces and the raw sockets as lists.  In the code they are elements linked by
pointers that the macros of `sys-queue.h` write.
-/

namespace Ladvd.Props
open Spec

/-! ## The macros -/

/-- **C73**: `TAILQ_INSERT_TAIL` appends. -/
theorem C73_append (q : Tailq) (as : List Nat) (e : Nat) (h : IsQueue q as) (he : e ∉ as) (ha : (q.mem e).isSome) :
    ∃ q', q.insertTail e = .ok q' ∧ IsQueue q' (as ++ [e]) ∧ ∀ x, (q'.mem x).isSome = (q.mem x).isSome :=
  insertTail_spec h he ha

/-- **C73**: `TAILQ_INSERT_AFTER` inserts directly behind. -/
theorem C73_after (q : Tailq) (l1 l2 : List Nat) (a e : Nat) (h : IsQueue q (l1 ++ a :: l2)) (he : e ∉ l1 ++ a :: l2)
    (hm : (q.mem e).isSome) :
    ∃ q', q.insertAfter a e = .ok q' ∧ IsQueue q' (l1 ++ a :: e :: l2) ∧ ∀ x, (q'.mem x).isSome = (q.mem x).isSome :=
  insertAfter_spec h he hm

/-- **C73**: `TAILQ_REMOVE` removes this element only. -/
theorem C73_remove (q : Tailq) (l1 l2 : List Nat) (e : Nat) (h : IsQueue q (l1 ++ e :: l2)) :
    ∃ q', q.remove e = .ok q' ∧ IsQueue q' (l1 ++ l2) ∧ ∀ x, (q'.mem x).isSome = (q.mem x).isSome :=
  remove_spec h

/-- **C73**: `TAILQ_FOREACH` visits every element once, in order; a loop that starts behind an element visits those behind it. -/
theorem C73_foreach (q : Tailq) (as : List Nat) (h : IsQueue q as) :
    (∀ fuel, as.length ≤ fuel → q.walk fuel q.first = .ok as) ∧
    ∀ l1 a l2 fuel, as = l1 ++ a :: l2 → l2.length ≤ fuel →
      ∃ l, q.get a = .ok l ∧ q.walk fuel l.next = .ok l2 := by
  constructor
  · intro fuel hf
    rw [h.first]
    exact walk_seg h.seg hf
  · intro l1 a l2 fuel hs hf
    have hseg := h.seg
    rw [hs, seg_append] at hseg
    refine ⟨_, tq_get hseg.2.1, ?_⟩
    dsimp only
    rw [Option.or_none]
    exact walk_seg hseg.2.2 hf

/-- **C73**: `TAILQ_FOREACH_SAFE` with a body that removes and releases elements keeps the others in their order, releases exactly the
removed ones, and does not touch released memory. -/
theorem C73_sweep (dead : Nat → Bool) (q : Tailq) (as : List Nat) (h : IsQueue q as) (fuel : Nat) (hf : as.length ≤ fuel) :
    ∃ q', Tailq.sweep dead fuel q.first q = .ok q' ∧ IsQueue q' (as.filter (fun a => !dead a)) ∧
      ∀ x, (q'.mem x).isSome ↔ (q.mem x).isSome ∧ ¬ (x ∈ as ∧ dead x = true) := by
  have := sweep_spec dead (kept := []) (rest := as) h hf
  rw [h.first]
  exact this

/-! ## The neighbour table -/

/-- `malloc` returned memory that was in use during this history. -/
def Broken (fuel : Nat) (t : PTable) (ops : List PtOp) : Prop :=
  ∃ ops1 e new ops2 t', ops = ops1 ++ .put e new :: ops2 ∧ ptRun fuel t ops1 = .ok t' ∧ (t'.q.mem new).isSome

theorem ptRun_spec (fuel : Nat) (ops : List PtOp) : ∀ (t : PTable) (as : List Nat) (l : List Entry), Represents t as l →
    as.length + ops.length ≤ fuel →
    (ptRun fuel t ops = .fail ∧ Broken fuel t ops) ∨
      ∃ t' as', ptRun fuel t ops = .ok t' ∧ Represents t' as' (tableRun l ops) ∧ as'.length ≤ as.length + ops.length := by
  induction ops with
  | nil => intro t as l h hf; exact .inr ⟨t, as, rfl, h, by simp⟩
  | cons op ops ih =>
    intro t as l h hf
    rw [List.length_cons] at hf
    have step : (ptStep fuel t op = .fail ∧ ∃ e new, op = .put e new ∧ (t.q.mem new).isSome) ∨
        ∃ t' as', ptStep fuel t op = .ok t' ∧ Represents t' as' (tableStep l op) ∧ as'.length ≤ as.length + 1 := by
      cases op with
      | put e new =>
        rcases ptPut_spec h e new (fuel := fuel) (by omega) with ⟨h1, h2⟩ | ⟨t', as', h1, h2, h3, -⟩
        · exact .inl ⟨h1, e, new, rfl, (h.exact new).mpr h2⟩
        · exact .inr ⟨t', as', h1, h2, h3⟩
      | expire now =>
        obtain ⟨t', as', h1, h2, h3, -⟩ := ptExpire_spec h now (fuel := fuel) (by omega)
        exact .inr ⟨t', as', h1, h2, by omega⟩
    rcases step with ⟨h1, e, new, rfl, h2⟩ | ⟨t', as', h1, h2, h3⟩
    · refine .inl ⟨?_, [], e, new, ops, t, rfl, rfl, h2⟩
      rw [ptRun, h1]
      rfl
    · rw [ptRun, h1, Res.bind_ok]
      rcases ih t' as' _ h2 (by omega) with ⟨k1, ops1, e, new, ops2, t2, k2, k3, k4⟩ | ⟨t2, as2, k1, k2, k3⟩
      · refine .inl ⟨k1, op :: ops1, e, new, ops2, t2, by rw [k2]; rfl, ?_, k4⟩
        rw [ptRun, h1, Res.bind_ok, k3]
      · exact .inr ⟨t2, as2, k1, k2, by rw [List.length_cons]; omega⟩

theorem represents_empty (data : Nat → Entry) : Represents { data := data } [] [] :=
  ⟨⟨List.nodup_nil, rfl, rfl, trivial⟩, fun a => by simp [Tailq.init], rfl⟩

/-- **C73**: after every history of received messages and expiries the pointers form the list that the specification of the table
describes, exactly its elements are allocated, and no released memory is ever touched — unless `malloc` returns memory in use. -/
theorem C73_table (fuel : Nat) (data : Nat → Entry) (ops : List PtOp) (hf : ops.length ≤ fuel)
    (hm : ¬ Broken fuel { data := data } ops) :
    ∃ t as, ptRun fuel { data := data } ops = .ok t ∧ Represents t as (tableRun [] ops) := by
  rcases ptRun_spec fuel ops _ [] [] (represents_empty data) (by simpa using hf) with ⟨-, h⟩ | ⟨t, as, h1, h2, -⟩
  · exact absurd h hm
  · exact ⟨t, as, h1, h2⟩

/-- **C73**: a traversal of the table after any history reads exactly its entries, each once, in order. -/
theorem C73_read (fuel : Nat) (data : Nat → Entry) (ops : List PtOp) (hf : ops.length ≤ fuel)
    (hm : ¬ Broken fuel { data := data } ops) :
    ∃ t as, ptRun fuel { data := data } ops = .ok t ∧ t.q.walk fuel t.q.first = .ok as ∧
      as.map t.data = tableRun [] ops := by
  rcases ptRun_spec fuel ops _ [] [] (represents_empty data) (by simpa using hf) with ⟨-, h⟩ | ⟨t, as, h1, h2, h3⟩
  · exact absurd h hm
  · exact ⟨t, as, h1, (C73_foreach t.q as h2.queue).1 fuel (by simp at h3; omega), h2.data⟩

/-- **C73**: the number of iterations that `fuel` allows does not matter: with addresses that differ from each other every history succeeds. -/
theorem C73_total (fuel : Nat) (data : Nat → Entry) (ops : List PtOp) (hf : ops.length ≤ fuel)
    (hn : (ops.filterMap newAddr).Nodup) :
    ∃ t as, ptRun fuel { data := data } ops = .ok t ∧ Represents t as (tableRun [] ops) := by
  suffices h : ∀ (ops : List PtOp) (t : PTable) (as : List Nat) (l : List Entry), Represents t as l → as.length + ops.length ≤ fuel →
      (as ++ ops.filterMap newAddr).Nodup →
      ∃ t' as', ptRun fuel t ops = .ok t' ∧ Represents t' as' (tableRun l ops) from
    h ops _ [] [] (represents_empty data) (by simpa using hf) (by simpa using hn)
  intro ops
  induction ops with
  | nil => intro t as l h _ _; exact ⟨t, as, rfl, h⟩
  | cons op ops ih =>
    intro t as l h hf hn
    rw [List.length_cons] at hf
    cases op with
    | put e new =>
      rw [show (PtOp.put e new :: ops).filterMap newAddr = new :: ops.filterMap newAddr from rfl] at hn
      rw [List.nodup_append, List.nodup_cons] at hn
      obtain ⟨hn1, ⟨hn2, hn3⟩, hn4⟩ := hn
      rcases ptPut_spec h e new (fuel := fuel) (by omega) with ⟨-, h2⟩ | ⟨t', as', h1, h2, h3, h4⟩
      · exact absurd rfl (hn4 new h2 new List.mem_cons_self)
      · rw [ptRun, ptStep, h1, Res.bind_ok]
        refine ih t' as' _ h2 (by omega) ?_
        rw [List.nodup_append]
        refine ⟨h2.queue.nodup, hn3, fun a ha b hb hab => ?_⟩
        rcases h4 a ha with h | h
        · exact hn4 a h b (List.mem_cons_of_mem _ hb) hab
        · exact hn2 (by rw [← h, hab]; exact hb)
    | expire now =>
      rw [show (PtOp.expire now :: ops).filterMap newAddr = ops.filterMap newAddr from rfl] at hn
      rw [List.nodup_append] at hn
      obtain ⟨t', as', h1, h2, h3, h4⟩ := ptExpire_spec h now (fuel := fuel) (by omega)
      rw [ptRun, ptStep, h1, Res.bind_ok]
      refine ih t' as' _ h2 (by omega) ?_
      rw [List.nodup_append]
      exact ⟨h2.queue.nodup, hn.2.1, fun a ha => hn.2.2 a (h4 a ha)⟩

/-! ## Examples -/

/-- A message of a neighbour: the interface, the last byte of its address and the time. -/
def tqMsg (index src : Nat) (received : Int) (ttl : Nat) : Entry :=
  { id := received.toNat, index := index, proto := 0, received := received, len := 60, ttl := ttl, peer := {}, lock := 0
    msg := [1, 0x80, 0xC2, 0, 0, 0x0E, 0, 1, 2, 3, 4, UInt8.ofNat src] ++ List.replicate 48 0 }

/-- Another protocol from the same neighbour. -/
def tqCdp (index src : Nat) (received : Int) : Entry :=
  { tqMsg index src received 180 with
    proto := 1
    msg := [1, 0, 0x0C, 0xCC, 0xCC, 0xCC, 0, 1, 2, 3, 4, UInt8.ofNat src] ++ List.replicate 48 0 }

/-- Three neighbours; one is heard again, one speaks another protocol, one expires and its memory is used again. -/
def tqSample : List PtOp :=
  [.put (tqMsg 3 1 100 120) 10, .put (tqMsg 3 2 101 20) 11, .put (tqMsg 4 9 102 120) 12, .put (tqMsg 3 1 103 120) 13, .put (tqCdp 3 1 104) 14,
   .expire 130, .put (tqMsg 5 7 131 120) 11]

/-- The elements are linked in the order of insertion, except that the second protocol of a neighbour follows its first; the released
address is used again, the one of the replaced message is not allocated. -/
example : ∃ t, ptRun 7 { data := fun _ => tqMsg 0 0 0 0 } tqSample = .ok t ∧ t.q.walk 7 t.q.first = .ok [10, 14, 12, 11] ∧
    t.q.last = .next 11 ∧ t.q.mem 13 = none ∧ [10, 14, 12, 11].map t.data = tableRun [] tqSample ∧
    (tableRun [] tqSample).map (fun e => (e.index, e.proto, e.received)) = [(3, 0, 103), (3, 1, 104), (4, 0, 102), (5, 0, 131)] := by
  refine ⟨(match ptRun 7 { data := fun _ => tqMsg 0 0 0 0 } tqSample with | .ok t => t | _ => { data := fun _ => tqMsg 0 0 0 0 }), ?_⟩
  refine ⟨rfl, ?_⟩
  decide +kernel

/-- No allocation of this history returned memory in use. -/
example : ¬ Broken 7 { data := fun _ => tqMsg 0 0 0 0 } tqSample := by
  have key : ∀ n, n < 7 → (match tqSample[n]?, ptRun 7 { data := fun _ => tqMsg 0 0 0 0 } (tqSample.take n) with
      | some (.put _ new), .ok t => (t.q.mem new).isSome
      | _, _ => false) = false := by decide +kernel
  rintro ⟨ops1, e, new, ops2, t', k1, k2, k3⟩
  have hl : ops1.length < 7 := by
    have := congrArg List.length k1
    simp only [List.length_append, List.length_cons, show tqSample.length = 7 from rfl] at this
    omega
  have := key ops1.length hl
  rw [k1, List.getElem?_append_right (Nat.le_refl _), Nat.sub_self, List.take_left', k2] at this
  · dsimp only [List.getElem?_cons_zero] at this
    rw [k3] at this
    cases this
  · rfl

/-- Different addresses. -/
example : ((tqSample.take 6).filterMap newAddr).Nodup := by decide

/-- A list of three elements: the first one points nowhere before it, the last one nowhere behind. -/
def tqThree : Tailq :=
  { first := some 5, last := .next 7
    mem := fun a => if a = 5 then some ⟨some 6, some .first⟩ else if a = 6 then some ⟨some 7, some (.next 5)⟩
      else if a = 7 then some ⟨none, some (.next 6)⟩ else if a = 8 then some ⟨none, none⟩ else none }

example : IsQueue tqThree [5, 6, 7] := ⟨by decide, rfl, rfl, rfl, rfl, rfl, trivial⟩

/-- Removing the middle, the first and the last; inserting in the middle and at the end. -/
example : ((tqThree.remove 6).bind (fun q => q.walk 9 q.first) = .ok [5, 7]) ∧ ((tqThree.remove 5).bind (fun q => q.walk 9 q.first) = .ok [6, 7]) ∧
    ((tqThree.remove 7).bind (fun q => .ok (q.last, (q.walk 9 q.first))) = .ok (.next 6, .ok [5, 6])) ∧
    ((tqThree.insertAfter 5 8).bind (fun q => q.walk 9 q.first) = .ok [5, 8, 6, 7]) ∧
    ((tqThree.insertTail 8).bind (fun q => q.walk 9 q.first) = .ok [5, 6, 7, 8]) := by decide +kernel

/-- Continuing behind an element. -/
example : ∃ l, tqThree.get 6 = .ok l ∧ tqThree.walk 1 l.next = .ok [7] := ⟨⟨some 7, some (.next 5)⟩, by decide +kernel⟩

/-- Inserting an element twice makes the traversal endless: the hypothesis that it is not yet in the list is needed. -/
example : (tqThree.insertTail 7).bind (fun q => q.walk 1000 q.first) = .stuck := by decide +kernel

/-- Continuing behind an element that was released touches released memory: entries that a client still needs must be locked. -/
example : ((tqThree.remove 6).bind (fun q => (q.free 6).bind (fun q => q.get 6))) = .oob := by decide +kernel

end Ladvd.Props
