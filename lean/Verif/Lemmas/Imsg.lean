import Verif.Spec.Imsg
import Verif.Lemmas.Parent
/-!
# Lemmas for message passing
-/

namespace Ladvd

open Spec

/-! ## Streams of bytes and descriptors -/

theorem bytesIn_append (a b : List Item) : bytesIn (a ++ b) = bytesIn a ++ bytesIn b := List.filterMap_append
theorem fdsIn_append (a b : List Item) : fdsIn (a ++ b) = fdsIn a ++ fdsIn b := List.filterMap_append

theorem bytesIn_byte (d : Bytes) : bytesIn (d.map Item.byte) = d := by
  induction d with
  | nil => rfl
  | cons b d ih =>
    unfold bytesIn at ih ⊢
    simp only [List.map_cons, List.filterMap_cons]
    rw [ih]

theorem fdsIn_byte (d : Bytes) : fdsIn (d.map Item.byte) = [] := by
  induction d with
  | nil => rfl
  | cons b d ih =>
    unfold fdsIn at ih ⊢
    rw [List.map_cons, List.filterMap_cons_none rfl, ih]

theorem bytesIn_fd (d : List Nat) : bytesIn (d.map Item.fd) = [] := by
  induction d with
  | nil => rfl
  | cons b d ih =>
    unfold bytesIn at ih ⊢
    rw [List.map_cons, List.filterMap_cons_none rfl, ih]

theorem fdsIn_fd (d : List Nat) : fdsIn (d.map Item.fd) = d := by
  induction d with
  | nil => rfl
  | cons b d ih =>
    unfold fdsIn at ih ⊢
    simp only [List.map_cons, List.filterMap_cons]
    rw [ih]

/-- `t` has the same bytes and descriptors as `s`, and no descriptor comes later in `t` than in `s`. -/
structure Sooner (s t : List Item) : Prop where
  bytes : bytesIn t = bytesIn s
  fds : fdsIn t = fdsIn s
  pre : ∀ p, p <+: t → ∃ q, q <+: s ∧ (bytesIn q).length = (bytesIn p).length ∧ (fdsIn q).length ≤ (fdsIn p).length

theorem Sooner.refl (s : List Item) : Sooner s s := ⟨rfl, rfl, fun p h => ⟨p, h, rfl, Nat.le_refl _⟩⟩

theorem Sooner.trans {s t u : List Item} (h : Sooner s t) (h' : Sooner t u) : Sooner s u := by
  refine ⟨h'.bytes.trans h.bytes, h'.fds.trans h.fds, ?_⟩
  intro p hp
  obtain ⟨q, h1, h2, h3⟩ := h'.pre p hp
  obtain ⟨r, h4, h5, h6⟩ := h.pre q h1
  exact ⟨r, h4, h5.trans h2, Nat.le_trans h6 h3⟩

theorem prefix_append_cases {α : Type} {p a b : List α} (h : p <+: a ++ b) : p <+: a ∨ ∃ c, c <+: b ∧ p = a ++ c := by
  rcases Nat.le_total p.length a.length with hl | hl
  · exact Or.inl (List.prefix_of_prefix_length_le h (List.prefix_append _ _) hl)
  · obtain ⟨c, hc⟩ := List.prefix_of_prefix_length_le (List.prefix_append a b) h hl
    refine Or.inr ⟨c, ?_, hc.symm⟩
    rw [← hc] at h
    exact (List.prefix_append_right_inj a).mp h

theorem Sooner.append {s t u v : List Item} (h : Sooner s t) (h' : Sooner u v) : Sooner (s ++ u) (t ++ v) := by
  refine ⟨by rw [bytesIn_append, bytesIn_append, h.bytes, h'.bytes], by rw [fdsIn_append, fdsIn_append, h.fds, h'.fds], ?_⟩
  intro p hp
  rcases prefix_append_cases hp with hp | ⟨c, hc, rfl⟩
  · obtain ⟨q, h1, h2, h3⟩ := h.pre p hp
    exact ⟨q, h1.trans (List.prefix_append _ _), h2, h3⟩
  · obtain ⟨q, h1, h2, h3⟩ := h'.pre c hc
    refine ⟨s ++ q, (List.prefix_append_right_inj s).mpr h1, ?_, ?_⟩
    · rw [bytesIn_append, bytesIn_append, List.length_append, List.length_append, h2, h.bytes]
    · rw [fdsIn_append, fdsIn_append, List.length_append, List.length_append, h.fds]
      omega

theorem prefix_bytes (s : List Item) (j : Nat) (h : j ≤ (bytesIn s).length) : ∃ q, q <+: s ∧ (bytesIn q).length = j := by
  induction s generalizing j with
  | nil => exact ⟨[], List.nil_prefix, by
    have : (bytesIn []).length = 0 := rfl
    omega⟩
  | cons i s ih =>
    cases j with
    | zero => exact ⟨[], List.nil_prefix, rfl⟩
    | succ j =>
      cases i with
      | byte b =>
        have e : bytesIn (.byte b :: s) = b :: bytesIn s := List.filterMap_cons_some rfl
        rw [e, List.length_cons] at h
        obtain ⟨q, h1, h2⟩ := ih j (by omega)
        refine ⟨.byte b :: q, (List.cons_prefix_cons).mpr ⟨rfl, h1⟩, ?_⟩
        have e : bytesIn (.byte b :: q) = b :: bytesIn q := List.filterMap_cons_some rfl
        rw [e, List.length_cons, h2]
      | fd n =>
        have e : ∀ s, bytesIn (.fd n :: s) = bytesIn s := fun s => List.filterMap_cons_none rfl
        rw [e] at h
        obtain ⟨q, h1, h2⟩ := ih (j + 1) h
        refine ⟨.fd n :: q, (List.cons_prefix_cons).mpr ⟨rfl, h1⟩, ?_⟩
        rw [e, h2]

theorem prefix_map {α β : Type} {f : α → β} {p : List β} {l : List α} (h : p <+: l.map f) : ∃ q, q <+: l ∧ p = q.map f := by
  rw [List.prefix_iff_eq_take] at h
  refine ⟨l.take p.length, List.take_prefix _ _, ?_⟩
  rw [List.map_take]
  exact h

/-- All descriptors first. -/
theorem Sooner.sort (s : List Item) : Sooner s ((fdsIn s).map Item.fd ++ (bytesIn s).map Item.byte) := by
  refine ⟨by rw [bytesIn_append, bytesIn_fd, bytesIn_byte]; rfl, by rw [fdsIn_append, fdsIn_fd, fdsIn_byte, List.append_nil], ?_⟩
  intro p hp
  rcases prefix_append_cases hp with hp | ⟨c, hc, rfl⟩
  · obtain ⟨q, _, rfl⟩ := prefix_map hp
    exact ⟨[], List.nil_prefix, by rw [bytesIn_fd]; rfl, Nat.zero_le _⟩
  · obtain ⟨q, hq, rfl⟩ := prefix_map hc
    obtain ⟨r, h1, h2⟩ := prefix_bytes s q.length hq.length_le
    refine ⟨r, h1, ?_, ?_⟩
    · rw [bytesIn_append, bytesIn_fd, bytesIn_byte]; exact h2
    · rw [fdsIn_append, fdsIn_fd, fdsIn_byte, List.append_nil]
      obtain ⟨x, hx⟩ := h1
      rw [← hx, fdsIn_append, List.length_append]
      omega

/-! ## Messages as bytes -/

/-- The encoding of a message. -/
def encode (m : Message) : Bytes :=
  leBytes 4 m.type ++ leBytes 2 (16 + m.data.length) ++ leBytes 2 (if m.fd.isSome then 1 else 0) ++ leBytes 4 m.peerid ++ leBytes 4 m.pid ++ m.data

/-- A message that can be sent. -/
def Sendable (m : Message) : Prop := m.type < 2 ^ 32 ∧ m.peerid < 2 ^ 32 ∧ m.pid < 2 ^ 32 ∧ m.data.length ≤ 16368

theorem encode_length (m : Message) : (encode m).length = 16 + m.data.length := by
  unfold encode
  simp only [List.length_append, leBytes_length]

/-- Number of descriptors of the messages contained in the first `n` bytes. -/
def need : List Message → Nat → Nat
  | [], _ => 0
  | m :: ms, n => if 16 + m.data.length ≤ n then m.fd.toList.length + need ms (n - (16 + m.data.length)) else 0

theorem need_append (ms ns : List Message) (n : Nat) : need (ms ++ ns) n =
    need ms n + (if ((ms.map encode).flatten).length ≤ n then need ns (n - ((ms.map encode).flatten).length) else 0) := by
  induction ms generalizing n with
  | nil => simp [need]
  | cons m ms ih =>
    rw [List.cons_append, need, need, List.map_cons, List.flatten_cons, List.length_append, encode_length]
    by_cases h : 16 + m.data.length ≤ n
    · rw [if_pos h, if_pos h, ih]
      by_cases h2 : (ms.map encode).flatten.length ≤ n - (16 + m.data.length)
      · rw [if_pos h2, if_pos (by omega), Nat.sub_sub, Nat.add_assoc, ← Nat.add_assoc]
      · rw [if_neg h2, if_neg (by omega), Nat.add_assoc]
    · rw [if_neg h, if_neg h, if_neg (by omega)]

/-- Every message has its descriptor in the stream before its last byte. -/
def Ahead (s : List Item) (ms : List Message) : Prop := ∀ p, p <+: s → need ms (bytesIn p).length ≤ (fdsIn p).length

theorem Ahead.sooner {s t : List Item} {ms : List Message} (h : Ahead s ms) (hs : Sooner s t) : Ahead t ms := by
  intro p hp
  obtain ⟨q, h1, h2, h3⟩ := hs.pre p hp
  have := h q h1
  rw [h2] at this
  omega

/-- The stream is that of the messages. -/
structure Conveys (s : List Item) (ms : List Message) : Prop where
  bytes : bytesIn s = (ms.map encode).flatten
  fds : fdsIn s = fdsOf ms
  ahead : Ahead s ms

theorem Conveys.sooner {s t : List Item} {ms : List Message} (h : Conveys s ms) (hs : Sooner s t) : Conveys t ms :=
  ⟨hs.bytes.trans h.bytes, hs.fds.trans h.fds, h.ahead.sooner hs⟩

theorem Conveys.nil : Conveys [] [] := ⟨rfl, rfl, fun _ _ => Nat.zero_le _⟩

theorem fdsOf_append (a b : List Message) : fdsOf (a ++ b) = fdsOf a ++ fdsOf b := List.filterMap_append

theorem fdsOf_single (m : Message) : fdsOf [m] = m.fd.toList := by
  unfold fdsOf
  cases h : m.fd with
  | none => rw [List.filterMap_cons_none h]; rfl
  | some n => rw [List.filterMap_cons_some h]; rfl

/-- One more message at the end. -/
theorem Conveys.add {s : List Item} {ms : List Message} (h : Conveys s ms) (m : Message) :
    Conveys (s ++ (m.fd.toList.map Item.fd ++ (encode m).map Item.byte)) (ms ++ [m]) := by
  refine ⟨?_, ?_, ?_⟩
  · rw [bytesIn_append, bytesIn_append, bytesIn_fd, bytesIn_byte, h.bytes]
    simp
  · rw [fdsIn_append, fdsIn_append, fdsIn_fd, fdsIn_byte, h.fds, fdsOf_append, fdsOf_single, List.append_nil]
  · intro p hp
    rw [need_append]
    rcases prefix_append_cases hp with hp | ⟨c, hc, rfl⟩
    · have h1 := h.ahead p hp
      have h2 : (bytesIn p).length ≤ ((ms.map encode).flatten).length := by
        rw [← h.bytes]
        obtain ⟨x, hx⟩ := hp
        rw [← hx, bytesIn_append, List.length_append]
        omega
      have h3 : need [m] ((bytesIn p).length - ((ms.map encode).flatten).length) = 0 := by
        rw [need, if_neg (by omega)]
      split <;> omega
    · have h1 := h.ahead s (List.prefix_refl _)
      have hb : (bytesIn s).length = ((ms.map encode).flatten).length := by rw [h.bytes]
      have hn : need ms ((bytesIn (s ++ c)).length) ≤ (fdsIn s).length := by
        have : ∀ (ms : List Message) (n : Nat), need ms n ≤ (fdsOf ms).length := by
          intro ms
          induction ms with
          | nil => intro n; exact Nat.zero_le _
          | cons m ms ih =>
            intro n
            rw [need, show m :: ms = [m] ++ ms from rfl, fdsOf_append, fdsOf_single, List.length_append]
            have := ih (n - (16 + m.data.length))
            split <;> omega
        have := this ms (bytesIn (s ++ c)).length
        rw [h.fds]
        exact this
      rw [if_pos (by rw [bytesIn_append, List.length_append]; omega), fdsIn_append, List.length_append]
      suffices need [m] ((bytesIn (s ++ c)).length - ((ms.map encode).flatten).length) ≤ (fdsIn c).length by omega
      rw [bytesIn_append, List.length_append, hb, Nat.add_sub_cancel_left, need]
      split
      · next hl =>
        rcases prefix_append_cases hc with hc | ⟨d, hd, rfl⟩
        · obtain ⟨q, _, rfl⟩ := prefix_map hc
          rw [bytesIn_fd] at hl
          simp at hl
        · rw [fdsIn_append, fdsIn_fd, List.length_append]
          simp only [need]
          omega
      · exact Nat.zero_le _

/-! ## The queue of the sender -/

/-- What is still to be written. -/
def pending (bufs : List Ibuf) : List Item := bufs.flatMap (fun b => b.fd.toList.map Item.fd ++ (b.data.drop b.rpos).map Item.byte)

/-- Every buffer in the queue has bytes to be written. -/
def Waiting (bufs : List Ibuf) : Prop := ∀ b ∈ bufs, b.rpos < b.data.length

/-- The queue after the descriptor has been sent. -/
def cleared (i : Nat) (bufs : List Ibuf) : List Ibuf :=
  match (gatherBufs i bufs).2 with
  | some (j, some _) => bufs.modify (j - i) (fun b => { b with fd := none })
  | _ => bufs

/-- The descriptor sent. -/
def mark (i : Nat) (bufs : List Ibuf) : List Nat := ((gatherBufs i bufs).2.bind (·.2)).toList

theorem gather_ge (bufs : List Ibuf) : ∀ i j x, (gatherBufs i bufs).2 = some (j, x) → i ≤ j := by
  induction bufs with
  | nil => intro i j x h; cases h
  | cons b bs ih =>
    intro i j x h
    rw [gatherBufs] at h
    split at h
    · cases h; exact Nat.le_refl _
    · split at h
      · cases h; exact Nat.le_refl _
      · have := ih _ _ _ h; omega

theorem pending_cons (b : Ibuf) (bs : List Ibuf) : pending (b :: bs) = (b.fd.toList.map Item.fd ++ (b.data.drop b.rpos).map Item.byte) ++ pending bs := by
  unfold pending
  rw [List.flatMap_cons]

theorem cleared_spec (bufs : List Ibuf) : ∀ i, Sooner (pending bufs) ((mark i bufs).map Item.fd ++ pending (cleared i bufs)) ∧
    (∃ t, pending (cleared i bufs) = ((gatherBufs i bufs).1.flatten).map Item.byte ++ t) ∧
    (Waiting bufs → Waiting (cleared i bufs)) ∧ (cleared i bufs).length = bufs.length := by
  induction bufs with
  | nil => intro i; exact ⟨Sooner.refl _, ⟨[], rfl⟩, id, rfl⟩
  | cons b bs ih =>
    intro i
    have here : ∀ x, (gatherBufs i (b :: bs)).2 = some (i, b.fd) → (gatherBufs i (b :: bs)).1 = x →
        (x = [] ∨ (b.fd.isSome = true ∧ x = [b.data.drop b.rpos])) →
        Sooner (pending (b :: bs)) ((mark i (b :: bs)).map Item.fd ++ pending (cleared i (b :: bs))) ∧
        (∃ t, pending (cleared i (b :: bs)) = ((gatherBufs i (b :: bs)).1.flatten).map Item.byte ++ t) ∧
        (Waiting (b :: bs) → Waiting (cleared i (b :: bs))) ∧ (cleared i (b :: bs)).length = (b :: bs).length := by
      intro x h1 h2 h3
      cases hb : b.fd with
      | none =>
        rw [hb] at h1 h3
        have hc : cleared i (b :: bs) = b :: bs := by unfold cleared; rw [h1]
        have hm : mark i (b :: bs) = [] := by unfold mark; rw [h1]; rfl
        rcases h3 with h3 | ⟨h3, _⟩
        · rw [hc, hm, h2, h3]
          exact ⟨Sooner.refl _, ⟨_, rfl⟩, id, rfl⟩
        · cases h3
      | some n =>
        rw [hb] at h1 h3
        have hc : cleared i (b :: bs) = { b with fd := none } :: bs := by
          unfold cleared; rw [h1]; dsimp only; rw [Nat.sub_self]; rfl
        have hm : mark i (b :: bs) = [n] := by unfold mark; rw [h1]; rfl
        rw [hc, hm, h2]
        refine ⟨?_, ?_, ?_, rfl⟩
        · rw [pending_cons, pending_cons, hb]
          exact Sooner.refl _
        · rcases h3 with rfl | ⟨-, rfl⟩
          · exact ⟨_, rfl⟩
          · rw [pending_cons]
            refine ⟨pending bs, ?_⟩
            simp
        · intro hw x hx
          rcases List.mem_cons.mp hx with rfl | hx
          · exact hw b List.mem_cons_self
          · exact hw x (List.mem_cons_of_mem _ hx)
    by_cases hi : i ≥ IOV_MAX
    · have hg : gatherBufs i (b :: bs) = ([], some (i, b.fd)) := by rw [gatherBufs, if_pos hi]
      exact here [] (by rw [hg]) (by rw [hg]) (Or.inl rfl)
    · by_cases hb : b.fd.isSome = true
      · have hg : gatherBufs i (b :: bs) = ([b.data.drop b.rpos], some (i, b.fd)) := by rw [gatherBufs, if_neg hi, if_pos hb]
        exact here _ (by rw [hg]) (by rw [hg]) (Or.inr ⟨hb, rfl⟩)
      · have hg : gatherBufs i (b :: bs) = (b.data.drop b.rpos :: (gatherBufs (i + 1) bs).1, (gatherBufs (i + 1) bs).2) := by
          rw [gatherBufs, if_neg hi, if_neg hb]
        have hn : b.fd = none := by cases h : b.fd with
          | none => rfl
          | some n => rw [h] at hb; exact absurd rfl hb
        obtain ⟨h1, ⟨t, h2⟩, h3, h4⟩ := ih (i + 1)
        have hm : mark i (b :: bs) = mark (i + 1) bs := by unfold mark; rw [hg]
        have hc : cleared i (b :: bs) = b :: cleared (i + 1) bs := by
          unfold cleared
          rw [hg]
          dsimp only
          split
          · next j n hj =>
            have := gather_ge _ _ _ _ hj
            rw [show j - i = (j - (i + 1)) + 1 by omega]
            rfl
          · rfl
        rw [hm, hc, hg]
        refine ⟨?_, ?_, ?_, by rw [List.length_cons, List.length_cons, h4]⟩
        · rw [pending_cons, pending_cons, hn]
          simp only [Option.toList_none, List.map_nil, List.nil_append]
          refine (Sooner.append (Sooner.refl _) h1).trans ?_
          rw [← List.append_assoc, ← List.append_assoc]
          refine Sooner.append ?_ (Sooner.refl _)
          have := Sooner.sort ((b.data.drop b.rpos).map Item.byte ++ (mark (i + 1) bs).map Item.fd)
          rw [fdsIn_append, fdsIn_byte, fdsIn_fd, bytesIn_append, bytesIn_byte, bytesIn_fd, List.append_nil, List.nil_append] at this
          exact this
        · rw [pending_cons, hn, h2]
          refine ⟨t, ?_⟩
          simp
        · intro hw x hx
          rcases List.mem_cons.mp hx with rfl | hx
          · exact hw x List.mem_cons_self
          · exact h3 (fun y hy => hw y (List.mem_cons_of_mem _ hy)) x hx

theorem drain_spec (bufs : List Ibuf) : ∀ (k : Nat) (x : Bytes) (t : List Item), pending bufs = x.map Item.byte ++ t → k ≤ x.length → Waiting bufs →
    pending (drainBufs k bufs).1 = (pending bufs).drop k ∧ (drainBufs k bufs).2 = [] ∧ Waiting (drainBufs k bufs).1 ∧
    (drainBufs k bufs).1.length ≤ bufs.length := by
  induction bufs with
  | nil => intro k x t _ _ hw; exact ⟨by simp [drainBufs, pending], rfl, hw, Nat.le_refl _⟩
  | cons b bs ih =>
    intro k x t hp hk hw
    rw [drainBufs]
    by_cases h0 : k = 0
    · subst h0
      rw [if_pos rfl]
      exact ⟨rfl, rfl, hw, Nat.le_refl _⟩
    · rw [if_neg h0]
      have hn : b.fd = none := by
        cases h : b.fd with
        | none => rfl
        | some n =>
          exfalso
          rw [pending_cons, h] at hp
          cases x with
          | nil => rw [List.length_nil] at hk; omega
          | cons y x => simp at hp
      have hr := hw b List.mem_cons_self
      have hlen : (b.data.drop b.rpos).length = b.data.length - b.rpos := List.length_drop
      have hp' : (b.data.drop b.rpos).map Item.byte ++ pending bs = x.map Item.byte ++ t := by
        rw [← hp, pending_cons, hn]; rfl
      have hpc : pending (b :: bs) = (b.data.drop b.rpos).map Item.byte ++ pending bs := by rw [pending_cons, hn]; rfl
      by_cases hd : b.rpos + k ≥ b.data.length
      · rw [if_pos hd]
        dsimp only
        have hbs : pending bs = (x.drop (b.data.length - b.rpos)).map Item.byte ++ t := by
          have := congrArg (List.drop (b.data.length - b.rpos)) hp'
          rw [List.drop_append_of_le_length (by rw [List.length_map]; omega),
            List.drop_append_of_le_length (by rw [List.length_map]; omega), List.drop_of_length_le (by rw [List.length_map]; omega),
            ← List.map_drop] at this
          exact this
        obtain ⟨h1, h2, h3, h4⟩ := ih (k - (b.data.length - b.rpos)) _ t hbs (by rw [List.length_drop]; omega)
          (fun y hy => hw y (List.mem_cons_of_mem _ hy))
        refine ⟨?_, by rw [h2, hn]; rfl, h3, Nat.le_succ_of_le h4⟩
        rw [h1, hpc, List.drop_append, List.length_map, hlen,
          List.drop_of_length_le (l := (b.data.drop b.rpos).map Item.byte) (by rw [List.length_map]; omega)]
        rfl
      · rw [if_neg hd]
        refine ⟨?_, rfl, ?_, Nat.le_refl _⟩
        · rw [pending_cons, hpc, hn, List.drop_append_of_le_length (by rw [List.length_map]; omega), ← List.map_drop, List.drop_drop]
          rfl
        · intro y hy
          rcases List.mem_cons.mp hy with rfl | hy
          · show b.rpos + k < b.data.length; omega
          · exact hw y (List.mem_cons_of_mem _ hy)

/-! ## Composing -/

/-- The header of a message, with the fields set when it is created and when it is closed. -/
theorem hdr_length (h : ImsgHdr) : h.bytes.length = 16 := by
  unfold ImsgHdr.bytes
  simp only [List.length_append, leBytes_length]

/-- A buffer being filled. -/
structure Filling (b : Ibuf) : Prop where
  max : b.max = 16384
  size : b.size ≤ 16384
  len : b.data.length ≤ 16384
  rpos : b.rpos = 0
  fd : b.fd = none

theorem imsgAdd_spec {b : Ibuf} (hb : Filling b) {d : Bytes} (hd : d.length < 65536) :
    (b.data.length + d.length ≤ 16384 → ∃ b', imsgAdd b d = .ok b' ∧ Filling b' ∧ b'.data = b.data ++ d) ∧
    (16384 < b.data.length + d.length → imsgAdd b d = .fail) := by
  have hl := hb.len
  have hsz := hb.size
  have hmx := hb.max
  have ht : d.take (d.length % 65536) = d := by rw [Nat.mod_eq_of_lt hd, List.take_length]
  unfold imsgAdd
  rw [ht]
  dsimp only
  by_cases h0 : d.length = 0
  · have : d = [] := List.eq_nil_of_length_eq_zero h0
    subst this
    rw [if_neg (by simp)]
    exact ⟨fun _ => ⟨b, rfl, hb, by simp⟩, fun h => by simp at h; omega⟩
  · rw [if_pos h0]
    unfold ibufAdd ibufRealloc ibufPut
    by_cases h1 : b.data.length + d.length > b.size
    · rw [if_pos h1]
      by_cases h2 : b.data.length + d.length > b.max
      · rw [if_pos h2]
        exact ⟨fun h => by omega, fun _ => rfl⟩
      · rw [if_neg h2]
        dsimp only
        rw [if_pos (Nat.le_refl _)]
        exact ⟨fun h => ⟨_, rfl, ⟨hmx, h, by rw [List.length_append]; exact h, hb.rpos, hb.fd⟩, rfl⟩, fun h => by omega⟩
    · rw [if_neg h1, if_pos (show b.data.length + d.length ≤ b.size by omega)]
      exact ⟨fun h => ⟨_, rfl, ⟨hmx, hsz, by rw [List.length_append]; exact h, hb.rpos, hb.fd⟩, rfl⟩, fun h => by omega⟩

theorem imsgAddAll_spec (ds : List Bytes) (hd : ∀ d ∈ ds, d.length < 65536) : ∀ {b : Ibuf}, Filling b →
    (b.data.length + ds.flatten.length ≤ 16384 → ∃ b', imsgAddAll b ds = .ok b' ∧ Filling b' ∧ b'.data = b.data ++ ds.flatten) ∧
    (16384 < b.data.length + ds.flatten.length → imsgAddAll b ds = .fail) := by
  induction ds with
  | nil =>
    intro b hb
    exact ⟨fun _ => ⟨b, rfl, hb, by simp⟩, fun h => by have := hb.len; simp at h; omega⟩
  | cons d ds ih =>
    intro b hb
    obtain ⟨h1, h2⟩ := imsgAdd_spec hb (hd d List.mem_cons_self)
    rw [imsgAddAll, List.flatten_cons, List.length_append]
    by_cases hc : b.data.length + d.length ≤ 16384
    · obtain ⟨b', h3, h4, h5⟩ := h1 hc
      obtain ⟨h6, h7⟩ := ih (fun x hx => hd x (List.mem_cons_of_mem _ hx)) h4
      rw [h3]
      rw [h5, List.length_append] at h6 h7
      refine ⟨fun h => ?_, fun h => h7 (by omega)⟩
      obtain ⟨b'', h8, h9, h10⟩ := h6 (by omega)
      exact ⟨b'', h8, h9, by rw [h10, List.append_assoc]⟩
    · rw [h2 (by omega)]
      exact ⟨fun h => by omega, fun _ => rfl⟩

theorem imsgCreate_spec (own type peerid pid n : Nat) :
    (∃ b, imsgCreate own type peerid pid n = .ok b ∧ Filling b ∧
      b.data = ImsgHdr.bytes { type := type, peerid := peerid, pid := if pid = 0 then own else pid }) ∨
    (imsgCreate own type peerid pid n = .fail ∧ 16368 < n) := by
  unfold imsgCreate
  dsimp only
  by_cases h : (n % 65536 + IMSG_HEADER_SIZE) % 65536 > MAX_IMSGSIZE
  · rw [if_pos h]
    refine Or.inr ⟨rfl, ?_⟩
    unfold IMSG_HEADER_SIZE MAX_IMSGSIZE at h
    omega
  · rw [if_neg h]
    unfold MAX_IMSGSIZE at h ⊢
    unfold ibufDynamic
    rw [if_neg h, if_pos (by omega)]
    dsimp only
    have hf : Filling { ibufOpen ((n % 65536 + IMSG_HEADER_SIZE) % 65536) with max := 16384 } :=
      ⟨rfl, by show (n % 65536 + IMSG_HEADER_SIZE) % 65536 ≤ 16384; omega, Nat.zero_le _, rfl, rfl⟩
    obtain ⟨h1, _⟩ := imsgAdd_spec hf (d := ImsgHdr.bytes { type := type, peerid := peerid, pid := if pid = 0 then own else pid })
      (by rw [hdr_length]; omega)
    obtain ⟨b, h2, h3, h4⟩ := h1 (by rw [hdr_length]; show 0 + 16 ≤ _; omega)
    exact Or.inl ⟨b, h2, h3, h4⟩

theorem imsgClose_spec (w : Msgbuf) (b : Ibuf) (m : Message)
    (hd : b.data = ImsgHdr.bytes { type := m.type, peerid := m.peerid, pid := m.pid } ++ m.data) :
    imsgClose w { b with fd := m.fd } = .ok { w with bufs := w.bufs ++ [{ b with fd := m.fd, data := encode m }], queued := (w.queued + 1) % 2 ^ 32 } := by
  have e : b.data = leBytes 4 m.type ++ ([0, 0] ++ ([0, 0] ++ (leBytes 4 m.peerid ++ (leBytes 4 m.pid ++ m.data)))) := by
    rw [hd]
    unfold ImsgHdr.bytes
    simp only [List.append_assoc]
    rfl
  have hl : b.data.length = 16 + m.data.length := by
    rw [hd, List.length_append, hdr_length]
  have h4 : (leBytes 4 m.type).length = 4 := leBytes_length 4 _
  have hr : rd b.data 6 2 = .ok [0, 0] := by
    unfold rd
    rw [if_pos (by omega), e, List.drop_append, h4]
    rw [List.drop_of_length_le (by omega)]
    rfl
  have hf : leNat [0, 0] / 2 * 2 + (if m.fd.isSome = true then IMSGF_HASFD else 0) = if m.fd.isSome = true then 1 else 0 := by
    split <;> rfl
  unfold imsgClose
  dsimp only
  simp only [hr, Res.bind_eq, Res.bind_ok, hf]
  have hw : wr b.data 4 (leBytes 2 b.data.length ++ leBytes 2 (if m.fd.isSome = true then 1 else 0)) = .ok (encode m) := by
    unfold wr
    rw [if_pos (by rw [List.length_append, leBytes_length, leBytes_length]; omega)]
    rw [List.length_append, leBytes_length, leBytes_length, hl]
    conv => lhs; rw [e]
    rw [List.take_append_of_le_length (by omega), List.take_of_length_le (by omega), List.drop_append, h4, List.drop_of_length_le (by omega)]
    unfold encode
    simp [List.append_assoc]
  rw [hw]
  rfl

theorem signed_fields (own : Nat) (m : Message) : (m.signed own).type = m.type ∧ (m.signed own).peerid = m.peerid ∧ (m.signed own).fd = m.fd ∧
    (m.signed own).data = m.data := ⟨rfl, rfl, rfl, rfl⟩

/-- A buffer ready to be written. -/
def Ready (b : Ibuf) (m : Message) : Prop := b.data = encode m ∧ b.rpos = 0 ∧ b.fd = m.fd

theorem compose_spec (w : Msgbuf) (m : Message) (h : m.data.length < 65536) :
    (m.data.length ≤ 16368 → ∃ b, Ready b (m.signed w.pid) ∧
      imsgCompose w m.type m.peerid m.pid m.fd m.data = .ok { w with bufs := w.bufs ++ [b], queued := (w.queued + 1) % 2 ^ 32 }) ∧
    (16368 < m.data.length → imsgCompose w m.type m.peerid m.pid m.fd m.data = .fail) := by
  unfold imsgCompose
  rcases imsgCreate_spec w.pid m.type m.peerid m.pid m.data.length with ⟨b, h1, h2, h3⟩ | ⟨h1, h2⟩
  · have hl : b.data.length = 16 := by rw [h3, hdr_length]
    obtain ⟨h4, h5⟩ := imsgAdd_spec h2 h
    rw [h1]
    refine ⟨fun hc => ?_, fun hc => ?_⟩
    · obtain ⟨b', h6, h7, h8⟩ := h4 (by omega)
      rw [Res.bind_eq, Res.bind_ok, h6, Res.bind_eq, Res.bind_ok]
      refine ⟨{ b' with fd := m.fd, data := encode (m.signed w.pid) }, ⟨rfl, h7.rpos, rfl⟩, ?_⟩
      exact imsgClose_spec w b' (m.signed w.pid) (by rw [h8, h3]; rfl)
    · rw [Res.bind_eq, Res.bind_ok, h5 (by omega)]
      rfl
  · rw [h1]
    exact ⟨fun hc => by omega, fun _ => rfl⟩

theorem composev_spec (w : Msgbuf) (m : Message) (iov : List Bytes) (h : ∀ d ∈ iov, d.length < 65536) (he : m.data = iov.flatten) :
    (m.data.length ≤ 16368 → ∃ b, Ready b (m.signed w.pid) ∧
      imsgComposev w m.type m.peerid m.pid m.fd iov = .ok { w with bufs := w.bufs ++ [b], queued := (w.queued + 1) % 2 ^ 32 }) ∧
    (16368 < m.data.length → imsgComposev w m.type m.peerid m.pid m.fd iov = .fail) := by
  unfold imsgComposev
  have e : (iov.map List.length).sum = m.data.length := by rw [he, List.length_flatten]
  rw [e]
  rcases imsgCreate_spec w.pid m.type m.peerid m.pid m.data.length with ⟨b, h1, h2, h3⟩ | ⟨h1, h2⟩
  · have hl : b.data.length = 16 := by rw [h3, hdr_length]
    obtain ⟨h4, h5⟩ := imsgAddAll_spec iov h h2
    rw [← he] at h4 h5
    rw [h1]
    refine ⟨fun hc => ?_, fun hc => ?_⟩
    · obtain ⟨b', h6, h7, h8⟩ := h4 (by omega)
      rw [Res.bind_eq, Res.bind_ok, h6, Res.bind_eq, Res.bind_ok]
      refine ⟨{ b' with fd := m.fd, data := encode (m.signed w.pid) }, ⟨rfl, h7.rpos, rfl⟩, ?_⟩
      exact imsgClose_spec w b' (m.signed w.pid) (by rw [h8, h3]; rfl)
    · rw [Res.bind_eq, Res.bind_ok, h5 (by omega)]
      rfl
  · rw [h1]
    exact ⟨fun hc => by omega, fun _ => rfl⟩

/-! ## Taking messages apart -/

theorem ofBytes_encode (m : Message) (hm : Sendable m) : ImsgHdr.ofBytes ((encode m).take 16) =
    ⟨m.type, 16 + m.data.length, if m.fd.isSome then 1 else 0, m.peerid, m.pid⟩ := by
  obtain ⟨h1, h2, h3, h4⟩ := hm
  have e : (encode m).take 16 = leBytes 4 m.type ++ (leBytes 2 (16 + m.data.length) ++ (leBytes 2 (if m.fd.isSome then 1 else 0) ++
      (leBytes 4 m.peerid ++ leBytes 4 m.pid))) := by
    unfold encode
    rw [List.take_append_of_le_length (by simp only [List.length_append, leBytes_length]; omega),
      List.take_of_length_le (by simp only [List.length_append, leBytes_length]; omega)]
    simp only [List.append_assoc]
  rw [e]
  unfold ImsgHdr.ofBytes
  have g : ∀ (a b : Bytes) (k : Nat), a.length = k → (a ++ b).take k = a := by
    intro a b k hk; rw [List.take_append_of_le_length (by omega), List.take_of_length_le (by omega)]
  have d : ∀ (a b : Bytes) (k j : Nat), a.length = k → k ≤ j → (a ++ b).drop j = b.drop (j - k) := by
    intro a b k j hk hj; rw [List.drop_append, List.drop_of_length_le (by omega), hk]; rfl
  rw [g _ _ 4 (leBytes_length _ _), d _ _ 4 4 (leBytes_length _ _) (by omega), d _ _ 4 6 (leBytes_length _ _) (by omega),
    d _ _ 4 8 (leBytes_length _ _) (by omega), d _ _ 4 12 (leBytes_length _ _) (by omega)]
  rw [d _ _ 2 (6 - 4) (leBytes_length _ _) (by omega), d _ _ 2 (8 - 4) (leBytes_length _ _) (by omega), d _ _ 2 (12 - 4) (leBytes_length _ _) (by omega)]
  rw [d _ _ 2 (8 - 4 - 2) (leBytes_length _ _) (by omega), d _ _ 2 (12 - 4 - 2) (leBytes_length _ _) (by omega)]
  rw [d _ _ 4 (12 - 4 - 2 - 2) (leBytes_length _ _) (by omega)]
  simp only [Nat.sub_self, List.drop_zero]
  rw [g _ _ 2 (leBytes_length _ _), g _ _ 2 (leBytes_length _ _), g _ _ 4 (leBytes_length _ _),
    List.take_of_length_le (by rw [leBytes_length]; omega)]
  rw [leNat_leBytes _ _ (by omega), leNat_leBytes _ _ (by omega), leNat_leBytes _ _ (by split <;> omega), leNat_leBytes _ _ (by omega),
    leNat_leBytes _ _ (by omega)]

theorem need_small (ms : List Message) (n : Nat) (h : n < 16) : need ms n = 0 := by
  cases ms with
  | nil => rfl
  | cons m ms => rw [need, if_neg (by omega)]

/-- What `imsg_get` makes of the stream of the messages `ms`. -/
theorem get_spec (r : ImsgRd) (t : List Item) (ms : List Message) (hc : Conveys (r.fds.map Item.fd ++ r.buf.map Item.byte ++ t) ms)
    (hs : ∀ m ∈ ms, Sendable m) :
    (imsgGet r = .ok (r, none) ∧ r.buf.length < 16384 ∧ ∀ m ms', ms = m :: ms' → r.buf.length < 16 + m.data.length) ∨
    (∃ m ms' r' g, ms = m :: ms' ∧ imsgGet r = .ok (r', some g) ∧ 16 + m.data.length ≤ r.buf.length ∧ r'.buf.length ≤ r.buf.length ∧ r'.closed = r.closed ∧
      r.fds = m.fd.toList ++ r'.fds ∧
      (⟨g.hdr.type, g.hdr.peerid, g.hdr.pid, g.fd, g.data⟩ : Message) = m ∧ Conveys (r'.fds.map Item.fd ++ r'.buf.map Item.byte ++ t) ms') := by
  have hb : r.buf ++ bytesIn t = (ms.map encode).flatten := by
    have := hc.bytes
    rw [bytesIn_append, bytesIn_append, bytesIn_fd, bytesIn_byte] at this
    exact this
  have hf : r.fds ++ fdsIn t = fdsOf ms := by
    have := hc.fds
    rw [fdsIn_append, fdsIn_append, fdsIn_fd, fdsIn_byte, List.append_nil] at this
    exact this
  cases ms with
  | nil =>
    have h0 : r.buf = [] := by
      rw [List.map_nil, List.flatten_nil] at hb
      exact (List.append_eq_nil_iff.mp hb).1
    refine Or.inl ⟨?_, by rw [h0]; decide, fun m ms' h => by cases h⟩
    unfold imsgGet
    rw [if_pos (by rw [h0]; decide)]
  | cons m ms =>
    have hm := hs m List.mem_cons_self
    have h16 : m.data.length ≤ 16368 := hm.2.2.2
    rw [List.map_cons, List.flatten_cons] at hb
    have hel := encode_length m
    unfold imsgGet
    dsimp only
    by_cases h1 : IMSG_HEADER_SIZE > r.buf.length
    · rw [if_pos h1]
      unfold IMSG_HEADER_SIZE at h1
      exact Or.inl ⟨rfl, by omega, fun m' ms' h => by cases h; omega⟩
    · rw [if_neg h1]
      unfold IMSG_HEADER_SIZE at h1
      have htk : r.buf.take 16 = (encode m).take 16 := by
        have := congrArg (List.take 16) hb
        rw [List.take_append_of_le_length (by omega), List.take_append_of_le_length (by omega)] at this
        exact this
      rw [htk, ofBytes_encode m hm]
      dsimp only
      rw [if_neg (by unfold IMSG_HEADER_SIZE MAX_IMSGSIZE; omega)]
      by_cases h2 : 16 + m.data.length > r.buf.length
      · rw [if_pos h2]
        exact Or.inl ⟨rfl, by omega, fun m' ms' h => by cases h; omega⟩
      · rw [if_neg h2]
        have hpre : r.buf.take (16 + m.data.length) = encode m := by
          have := congrArg (List.take (16 + m.data.length)) hb
          rw [List.take_append_of_le_length (by omega), List.take_append_of_le_length (by omega), List.take_of_length_le (by omega : (encode m).length ≤ _)] at this
          exact this
        have hbuf : r.buf = encode m ++ r.buf.drop (16 + m.data.length) := by
          rw [← hpre, List.take_append_drop]
        have hrest : r.buf.drop (16 + m.data.length) ++ bytesIn t = (ms.map encode).flatten := by
          rw [hbuf, List.append_assoc] at hb
          exact List.append_cancel_left hb
        have hdata : (encode m).drop 16 = m.data := by
          unfold encode
          rw [List.drop_append_of_le_length (by simp only [List.length_append, leBytes_length]; omega),
            List.drop_of_length_le (by simp only [List.length_append, leBytes_length]; omega)]
          rfl
        have hrd : rd r.buf IMSG_HEADER_SIZE (16 + m.data.length - IMSG_HEADER_SIZE) = .ok m.data := by
          unfold rd IMSG_HEADER_SIZE
          rw [if_pos (by omega)]
          rw [show 16 + m.data.length - 16 = m.data.length by omega]
          congr 1
          conv => lhs; rw [hbuf]
          rw [List.drop_append_of_le_length (by omega), hdata, List.take_append_of_le_length (Nat.le_refl _), List.take_length]
        rw [hrd, Res.bind_eq, Res.bind_ok]
        have hdrop : (if 16 + m.data.length < r.buf.length then r.buf.drop (16 + m.data.length) else []) = r.buf.drop (16 + m.data.length) := by
          split
          · rfl
          · rw [List.drop_of_length_le (by omega)]
        rw [hdrop]
        have hfl : fdsOf (m :: ms) = m.fd.toList ++ fdsOf ms := by
          rw [show m :: ms = [m] ++ ms from rfl, fdsOf_append, fdsOf_single]
        rw [hfl] at hf
        have hahead : m.fd.toList.length ≤ r.fds.length := by
          have := hc.ahead (r.fds.map Item.fd ++ (r.buf.take (16 + m.data.length)).map Item.byte)
            ((((List.prefix_append_right_inj _).mpr (by rw [List.map_take]; exact List.take_prefix _ _))).trans (List.prefix_append _ _))
          rw [bytesIn_append, bytesIn_fd, bytesIn_byte, fdsIn_append, fdsIn_fd, fdsIn_byte, List.append_nil, List.nil_append,
            List.length_take, Nat.min_eq_left (by omega), need, if_pos (Nat.le_refl _)] at this
          omega
        obtain ⟨fs, hfs⟩ : ∃ fs, r.fds = m.fd.toList ++ fs := by
          have h1 : r.fds <+: m.fd.toList ++ fdsOf ms := ⟨_, hf⟩
          obtain ⟨fs, hfs⟩ := List.prefix_of_prefix_length_le (List.prefix_append m.fd.toList (fdsOf ms)) h1 hahead
          exact ⟨fs, hfs.symm⟩
        have hfs1 : (if (if m.fd.isSome = true then 1 else 0) % 2 = 1 then r.fds.drop 1 else r.fds) = fs := by
          rw [hfs]
          cases m.fd <;> rfl
        have hfs2 : (if (if m.fd.isSome = true then 1 else 0) % 2 = 1 then r.fds.head? else none) = m.fd := by
          rw [hfs]
          cases m.fd <;> rfl
        refine Or.inr ⟨m, ms, _, _, rfl, rfl, by omega, ?_, rfl, ?_, ?_, ?_⟩
        · dsimp only
          rw [List.length_drop]
          omega
        · dsimp only
          rw [hfs1]
          exact hfs
        · dsimp only
          rw [hfs2]
        · dsimp only
          rw [hfs1]
          refine ⟨?_, ?_, ?_⟩
          · rw [bytesIn_append, bytesIn_append, bytesIn_fd, bytesIn_byte]
            exact hrest
          · rw [fdsIn_append, fdsIn_append, fdsIn_fd, fdsIn_byte, List.append_nil]
            rw [hfs, List.append_assoc] at hf
            exact List.append_cancel_left hf
          · intro p hp
            rw [List.append_assoc] at hp
            rcases prefix_append_cases hp with hp | ⟨c, hcp, rfl⟩
            · obtain ⟨q, _, rfl⟩ := prefix_map hp
              rw [bytesIn_fd, need_small _ _ (by decide)]
              exact Nat.zero_le _
            · have := hc.ahead (r.fds.map Item.fd ++ ((encode m).map Item.byte ++ c)) (by
                rw [List.append_assoc]
                refine (List.prefix_append_right_inj _).mpr ?_
                conv => rhs; rw [hbuf]
                rw [List.map_append, List.append_assoc]
                exact (List.prefix_append_right_inj _).mpr hcp)
              rw [bytesIn_append, bytesIn_append, bytesIn_fd, bytesIn_byte, fdsIn_append, fdsIn_append, fdsIn_fd, fdsIn_byte, List.nil_append,
                List.nil_append, List.length_append, List.length_append, hel, need, if_pos (by omega), Nat.add_sub_cancel_left, hfs, List.length_append] at this
              rw [bytesIn_append, bytesIn_fd, List.nil_append, fdsIn_append, fdsIn_fd, List.length_append]
              omega

/-! ## Any run -/

/-- What holds at any time between the two processes. -/
structure Intact (l : Line) : Prop where
  own : l.w.pid < 2 ^ 32
  rest : ∃ rest, l.sent = l.got ++ rest ∧ Conveys (l.r.fds.map Item.fd ++ l.r.buf.map Item.byte ++ (l.wire ++ pending l.w.bufs)) rest ∧ ∀ m ∈ rest, Sendable m
  waiting : Waiting l.w.bufs
  room : l.r.buf.length ≤ 65535
  keep : l.r.closed = []
  closed : l.w.closed ++ fdsIn (pending l.w.bufs) = fdsOf l.sent
  queued : l.w.queued = l.w.bufs.length % 2 ^ 32

theorem pending_append (a b : List Ibuf) : pending (a ++ b) = pending a ++ pending b := by
  unfold pending
  rw [List.flatMap_append]

theorem intact_add {l : Line} (hi : Intact l) (m : Message) (b : Ibuf) (hb : Ready b m) (hm : Sendable m) :
    Intact { l with w := { l.w with bufs := l.w.bufs ++ [b], queued := (l.w.queued + 1) % 2 ^ 32 }, sent := l.sent ++ [m] } := by
  obtain ⟨h1, h2, h3⟩ := hb
  have hp : pending (l.w.bufs ++ [b]) = pending l.w.bufs ++ (m.fd.toList.map Item.fd ++ (encode m).map Item.byte) := by
    rw [pending_append, pending_cons, h1, h2, h3, List.drop_zero, show pending [] = [] from rfl, List.append_nil]
  obtain ⟨rest, hr1, hr2, hr3⟩ := hi.rest
  refine ⟨hi.own, ⟨rest ++ [m], ?_, ?_, ?_⟩, ?_, hi.room, hi.keep, ?_, ?_⟩
  · rw [hr1, List.append_assoc]
  · have := hr2.add m
    dsimp only
    rw [hp]
    simp only [List.append_assoc] at this ⊢
    exact this
  · intro x hx
    rcases List.mem_append.mp hx with hx | hx
    · exact hr3 x hx
    · rw [List.mem_singleton.mp hx]; exact hm
  · intro x hx
    rcases List.mem_append.mp hx with hx | hx
    · exact hi.waiting x hx
    · rw [List.mem_singleton.mp hx, h1, h2, encode_length]; omega
  · dsimp only
    rw [hp, fdsIn_append, fdsIn_append, fdsIn_fd, fdsIn_byte, List.append_nil, fdsOf_append, fdsOf_single, ← List.append_assoc, hi.closed]
  · dsimp only
    rw [hi.queued, List.length_append, List.length_singleton]
    omega

theorem sent_eq (w : Msgbuf) : msgbufSent w = { w with bufs := cleared 0 w.bufs, closed := w.closed ++ mark 0 w.bufs } := by
  unfold msgbufSent cleared mark
  cases h : (gatherBufs 0 w.bufs).2 with
  | none => dsimp only [Option.bind_none, Option.toList_none]; rw [List.append_nil]
  | some x =>
    obtain ⟨i, fd⟩ := x
    cases fd with
    | none => dsimp only [Option.bind_some, Option.toList_none]; rw [List.append_nil]
    | some n => rfl

theorem intact_write {l : Line} (hi : Intact l) (n : Nat) : ∃ l', l.step (.write n) = .ok l' ∧ Intact l' := by
  show ∃ l', (match msgbufWrite l.w (l.w.sendArgs.1.take n).length with
    | .ok w => Res.ok { l with w := w, wire := l.wire ++ (l.w.sendArgs.2.toList.map Item.fd ++ (l.w.sendArgs.1.take n).map Item.byte) }
    | .fail => .ok l
    | .oob => .oob
    | .abort => .abort
    | .stuck => .stuck) = .ok l' ∧ Intact l'
  unfold msgbufWrite
  by_cases h0 : (l.w.sendArgs.1.take n).length = 0
  · rw [if_pos h0]
    exact ⟨l, rfl, hi⟩
  · rw [if_neg h0]
    dsimp only
    refine ⟨_, rfl, ?_⟩
    obtain ⟨h1, ⟨t, h2⟩, h3, h4⟩ := cleared_spec l.w.bufs 0
    have hx : (gatherBufs 0 l.w.bufs).1.flatten = l.w.sendArgs.1 := rfl
    have hm : mark 0 l.w.bufs = l.w.sendArgs.2.toList := rfl
    rw [hx] at h2
    obtain ⟨h5, h6, h7, h8⟩ := drain_spec (cleared 0 l.w.bufs) (l.w.sendArgs.1.take n).length _ t h2 (by rw [List.length_take]; omega) (h3 hi.waiting)
    have hpre : (pending (cleared 0 l.w.bufs)).take (l.w.sendArgs.1.take n).length = (l.w.sendArgs.1.take n).map Item.byte := by
      rw [h2, List.take_append_of_le_length (by rw [List.length_map, List.length_take]; omega), ← List.map_take, List.length_take]
      congr 1
      rcases Nat.le_total n l.w.sendArgs.1.length with h | h
      · rw [Nat.min_eq_left h]
      · rw [Nat.min_eq_right h, List.take_length, List.take_of_length_le h]
    have hsplit : (l.w.sendArgs.1.take n).map Item.byte ++ pending (drainBufs (l.w.sendArgs.1.take n).length (cleared 0 l.w.bufs)).1 =
        pending (cleared 0 l.w.bufs) := by
      rw [h5, ← hpre, List.take_append_drop]
    have hfd : fdsIn (pending (drainBufs (l.w.sendArgs.1.take n).length (cleared 0 l.w.bufs)).1) = fdsIn (pending (cleared 0 l.w.bufs)) := by
      rw [← hsplit, fdsIn_append, fdsIn_byte, List.nil_append]
    generalize hk : (l.w.sendArgs.1.take n).length = k at *
    rw [sent_eq]
    unfold msgbufDrain
    dsimp only
    obtain ⟨rest, hr1, hr2, hr3⟩ := hi.rest
    refine ⟨hi.own, ⟨rest, hr1, ?_, hr3⟩, h7, hi.room, hi.keep, ?_, ?_⟩
    · refine hr2.sooner (Sooner.append (Sooner.refl _) ?_)
      rw [← hm, List.append_assoc, List.append_assoc, hsplit]
      exact Sooner.append (Sooner.refl _) h1
    · dsimp only
      rw [h6, List.append_nil, hfd, ← hi.closed]
      have := h1.fds
      rw [fdsIn_append, fdsIn_fd] at this
      rw [List.append_assoc, this]
    · dsimp only
      rw [hi.queued, h4]
      rw [h4] at h8
      omega

theorem intact_read {l : Line} (hi : Intact l) (k : Nat) : ∃ l', l.step (.read k) = .ok l' ∧ Intact l' := by
  show ∃ l', (if (bytesIn (l.wire.take k)).length ≤ l.r.room ∧ (fdsIn (l.wire.take k)).length ≤ 1 then do
      let r ← imsgRead l.r (bytesIn (l.wire.take k)) (fdsIn (l.wire.take k))
      pure { l with r := r, wire := l.wire.drop k }
    else .ok l) = .ok l' ∧ Intact l'
  by_cases h : (bytesIn (l.wire.take k)).length ≤ l.r.room ∧ (fdsIn (l.wire.take k)).length ≤ 1
  · rw [if_pos h]
    obtain ⟨h1, h2⟩ := h
    have hroom := hi.room
    unfold ImsgRd.room IBUF_READ_SIZE at h1
    unfold imsgRead IBUF_READ_SIZE
    rw [if_pos (by omega), Res.bind_eq, Res.bind_ok]
    refine ⟨_, rfl, ?_⟩
    rw [List.take_of_length_le (l := fdsIn (l.wire.take k)) h2, List.drop_of_length_le (l := fdsIn (l.wire.take k)) h2, List.append_nil]
    obtain ⟨rest, hr1, hr2, hr3⟩ := hi.rest
    refine ⟨hi.own, ⟨rest, hr1, ?_, hr3⟩, hi.waiting, ?_, hi.keep, hi.closed, hi.queued⟩
    · refine hr2.sooner ?_
      dsimp only
      have hw : l.r.fds.map Item.fd ++ l.r.buf.map Item.byte ++ (l.wire ++ pending l.w.bufs) =
          (l.r.fds.map Item.fd ++ l.r.buf.map Item.byte ++ l.wire.take k) ++ (l.wire.drop k ++ pending l.w.bufs) := by
        conv => lhs; rw [← List.take_append_drop k l.wire]
        simp only [List.append_assoc]
      rw [hw]
      refine Sooner.append ?_ (Sooner.refl _)
      have := Sooner.sort (l.r.fds.map Item.fd ++ l.r.buf.map Item.byte ++ l.wire.take k)
      rw [fdsIn_append, fdsIn_append, fdsIn_fd, fdsIn_byte, List.append_nil, bytesIn_append, bytesIn_append, bytesIn_fd, bytesIn_byte, List.nil_append] at this
      exact this
    · dsimp only
      rw [List.length_append]
      omega
  · rw [if_neg h]
    exact ⟨l, rfl, hi⟩

theorem intact_get {l : Line} (hi : Intact l) : ∃ l', l.step .get = .ok l' ∧ Intact l' := by
  obtain ⟨rest, hr1, hr2, hr3⟩ := hi.rest
  rcases get_spec l.r _ rest hr2 hr3 with ⟨h1, _, _⟩ | ⟨m, ms, r', g, rfl, h1, _, h3, h4, h5, h6, h7⟩
  · refine ⟨l, ?_, hi⟩
    show (imsgGet l.r).bind _ = _
    rw [h1]
    show Res.ok { l with got := l.got ++ [] } = _
    rw [List.append_nil]
  · refine ⟨{ l with r := r', got := l.got ++ [m] }, ?_, ?_⟩
    · show (imsgGet l.r).bind _ = _
      rw [h1]
      show Res.ok { l with r := r', got := l.got ++ [_] } = _
      dsimp only
      rw [h6]
    · have hroom := hi.room
      exact ⟨hi.own, ⟨ms, by rw [hr1, List.append_assoc]; rfl, h7, fun x hx => hr3 x (List.mem_cons_of_mem _ hx)⟩, hi.waiting, Nat.le_trans h3 hroom,
        h4.trans hi.keep, hi.closed, hi.queued⟩

theorem signed_sendable {l : Line} (hi : Intact l) {m : Message} (h : m.type < 2 ^ 32 ∧ m.peerid < 2 ^ 32 ∧ m.pid < 2 ^ 32) (hd : m.data.length ≤ 16368) :
    Sendable (m.signed l.w.pid) := by
  refine ⟨h.1, h.2.1, ?_, hd⟩
  show (if m.pid = 0 then l.w.pid else m.pid) < 2 ^ 32
  split
  · exact hi.own
  · exact h.2.2

theorem intact_step {l : Line} (hi : Intact l) {o : LineOp} (ho : o.Ok) : ∃ l', l.step o = .ok l' ∧ Intact l' := by
  cases o with
  | compose m =>
    obtain ⟨h1, h2⟩ := compose_spec l.w m ho.2.2.2
    show ∃ l', l.queue m _ = .ok l' ∧ Intact l'
    by_cases hd : m.data.length ≤ 16368
    · obtain ⟨b, hb, e⟩ := h1 hd
      rw [e]
      exact ⟨_, rfl, intact_add hi _ b hb (signed_sendable hi ⟨ho.1, ho.2.1, ho.2.2.1⟩ hd)⟩
    · rw [h2 (by omega)]
      exact ⟨l, rfl, hi⟩
  | composev m iov =>
    show ∃ l', l.queue { m with data := iov.flatten } (imsgComposev l.w m.type m.peerid m.pid m.fd iov) = .ok l' ∧ Intact l'
    obtain ⟨m', hm'⟩ : ∃ m' : Message, m' = { m with data := iov.flatten } := ⟨_, rfl⟩
    obtain ⟨h1, h2⟩ := composev_spec l.w m' iov ho.2.2.2 (by rw [hm'])
    rw [← hm', show m.type = m'.type by rw [hm'], show m.peerid = m'.peerid by rw [hm'], show m.pid = m'.pid by rw [hm'], show m.fd = m'.fd by rw [hm']]
    have hl : m'.type < 2 ^ 32 ∧ m'.peerid < 2 ^ 32 ∧ m'.pid < 2 ^ 32 := by rw [hm']; exact ⟨ho.1, ho.2.1, ho.2.2.1⟩
    by_cases hd : m'.data.length ≤ 16368
    · obtain ⟨b, hb, e⟩ := h1 hd
      rw [e]
      exact ⟨_, rfl, intact_add hi _ b hb (signed_sendable hi hl hd)⟩
    · rw [h2 (by omega)]
      exact ⟨l, rfl, hi⟩
  | write n => exact intact_write hi n
  | read k => exact intact_read hi k
  | get => exact intact_get hi

theorem intact_start (own : Nat) (h : own < 2 ^ 32) : Intact { w := { pid := own } } :=
  ⟨h, ⟨[], rfl, Conveys.nil, (fun m hm => by cases hm)⟩, (fun b hb => by cases hb), Nat.zero_le _, rfl, rfl, rfl⟩

theorem intact_run (os : List LineOp) : ∀ {l : Line}, Intact l → (∀ o ∈ os, o.Ok) → ∃ l', l.run os = .ok l' ∧ Intact l' := by
  induction os with
  | nil => intro l hi _; exact ⟨l, rfl, hi⟩
  | cons o os ih =>
    intro l hi ho
    obtain ⟨l', h1, h2⟩ := intact_step hi (ho o List.mem_cons_self)
    obtain ⟨l'', h3, h4⟩ := ih h2 (fun x hx => ho x (List.mem_cons_of_mem _ hx))
    exact ⟨l'', by rw [Line.run, h1]; exact h3, h4⟩

end Ladvd
