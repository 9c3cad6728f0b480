import Verif.Props.Imsg
/-!
# C92: Flushing and clearing queues of messages, and the room in a buffer
-/

namespace Ladvd.Props
open Ladvd.Spec

/-! ## Flushing -/

theorem flush_write (l : Line) (n : Nat) : ∃ l', l.step (.write n) = .ok l' ∧ l'.sent = l.sent ∧
    (match msgbufWrite l.w (l.w.sendArgs.1.take n).length with | .ok w => l'.w = w | _ => l' = l) := by
  have e : l.step (.write n) = (match msgbufWrite l.w (l.w.sendArgs.1.take n).length with
      | .ok w => Res.ok { l with w := w, wire := l.wire ++ (l.w.sendArgs.2.toList.map Item.fd ++ (l.w.sendArgs.1.take n).map Item.byte) }
      | .fail => .ok l
      | .oob => .oob
      | .abort => .abort
      | .stuck => .stuck) := rfl
  rw [e]
  unfold msgbufWrite
  by_cases h : (l.w.sendArgs.1.take n).length = 0
  · rw [if_pos h]
    exact ⟨l, rfl, rfl, rfl⟩
  · rw [if_neg h]
    exact ⟨_, rfl, rfl, rfl⟩

theorem flush_intact (as : List (Option Nat)) : ∀ {l : Line}, Intact l → l.w.bufs.length < 2 ^ 32 →
    ∃ (ns : List Nat) (l' : Line), l.run (ns.map LineOp.write) = .ok l' ∧ Intact l' ∧ l'.sent = l.sent ∧
      ((imsgFlush l.w as = .ok (0, l'.w) ∧ l'.w.bufs = [] ∧ ns.map some <+: as) ∨
       (imsgFlush l.w as = .ok (-1, l'.w) ∧ l'.w.bufs ≠ [] ∧ ns.map some ++ [none] <+: as) ∨
       (imsgFlush l.w as = .stuck ∧ l'.w.bufs ≠ [] ∧ ns.map some = as)) := by
  have hq : ∀ {l : Line}, Intact l → l.w.bufs.length < 2 ^ 32 → (l.w.queued = 0 ↔ l.w.bufs = []) := by
    intro l hi hb
    rw [hi.queued, Nat.mod_eq_of_lt hb]
    exact List.length_eq_zero_iff
  induction as with
  | nil =>
    intro l hi hb
    refine ⟨[], l, rfl, hi, rfl, ?_⟩
    by_cases h : l.w.queued = 0
    · exact .inl ⟨by rw [imsgFlush, if_pos h], (hq hi hb).mp h, List.nil_prefix⟩
    · exact .inr (.inr ⟨by rw [imsgFlush, if_neg h], fun e => h ((hq hi hb).mpr e), rfl⟩)
  | cons a as ih =>
    intro l hi hb
    by_cases h : l.w.queued = 0
    · refine ⟨[], l, rfl, hi, rfl, .inl ⟨by unfold imsgFlush; rw [if_pos h], (hq hi hb).mp h, List.nil_prefix⟩⟩
    · have hne : l.w.bufs ≠ [] := fun e => h ((hq hi hb).mpr e)
      cases a with
      | none => exact ⟨[], l, rfl, hi, rfl, .inr (.inl ⟨by rw [imsgFlush, if_neg h], hne, List.cons_prefix_cons.mpr ⟨rfl, List.nil_prefix⟩⟩)⟩
      | some n =>
        obtain ⟨l1, h1, h2, h3⟩ := flush_write l n
        obtain ⟨l1', h4, hi1⟩ := intact_step hi (o := .write n) trivial
        rw [h1] at h4
        cases h4
        have hlen : l1.w.bufs.length ≤ l.w.bufs.length := by
          unfold msgbufWrite at h3
          split at h3
          · next w hw =>
            split at hw
            · cases hw
            · cases hw
              rw [h3, sent_eq]
              unfold msgbufDrain
              dsimp only
              obtain ⟨_, ⟨t, h6⟩, h7, h8⟩ := cleared_spec l.w.bufs 0
              have hx : (gatherBufs 0 l.w.bufs).1.flatten = l.w.sendArgs.1 := rfl
              rw [hx] at h6
              have := (drain_spec (cleared 0 l.w.bufs) (l.w.sendArgs.1.take n).length _ t h6 (by rw [List.length_take]; omega) (h7 hi.waiting)).2.2.2
              omega
          · rw [h3]; exact Nat.le_refl _
        obtain ⟨ns, l2, h5, hi2, h6, h7⟩ := ih hi1 (by omega)
        have hf : imsgFlush l.w (some n :: as) = imsgFlush l1.w as := by
          rw [imsgFlush, if_neg h]
          split
          · next w hw => rw [hw] at h3; rw [h3]
          · next x hx =>
            split at h3
            · next w hw => exact absurd hw (hx w)
            · rw [h3]
        refine ⟨n :: ns, l2, ?_, hi2, h6.trans h2, ?_⟩
        · rw [List.map_cons, Line.run, h1]; exact h5
        · rw [hf]
          rcases h7 with ⟨x, y, z⟩ | ⟨x, y, z⟩ | ⟨x, y, z⟩
          · exact .inl ⟨x, y, List.cons_prefix_cons.mpr ⟨rfl, z⟩⟩
          · exact .inr (.inl ⟨x, y, List.cons_prefix_cons.mpr ⟨rfl, z⟩⟩)
          · exact .inr (.inr ⟨x, y, by rw [List.map_cons, z]⟩)

/-- C92: A flush does what single writes do, one for each answer of the kernel: it ends successfully once nothing is queued any more, and with an error
exactly at the first error of the kernel while something is; what the kernel has taken until then is on its way, the rest stays queued, so
that `C59_order_partial` and `C59_complete` apply. -/
theorem C92_flush (own : Nat) (hown : own < 2 ^ 32) (os : List LineOp) (hos : ∀ o ∈ os, o.Ok) (l : Line)
    (hl : Line.run { w := { pid := own } } os = .ok l) (hb : l.w.bufs.length < 2 ^ 32) (as : List (Option Nat)) :
    ∃ (ns : List Nat) (l' : Line), Line.run { w := { pid := own } } (os ++ ns.map LineOp.write) = .ok l' ∧ l'.sent = l.sent ∧
      ((imsgFlush l.w as = .ok (0, l'.w) ∧ l'.w.bufs = [] ∧ ns.map some <+: as) ∨
       (imsgFlush l.w as = .ok (-1, l'.w) ∧ l'.w.bufs ≠ [] ∧ ns.map some ++ [none] <+: as) ∨
       (imsgFlush l.w as = .stuck ∧ l'.w.bufs ≠ [] ∧ ns.map some = as)) := by
  obtain ⟨l', h1, hi⟩ := intact_run os (intact_start own hown) hos
  rw [hl] at h1
  cases h1
  obtain ⟨ns, l', h1, _, h2, h3⟩ := flush_intact as hi hb
  refine ⟨ns, l', ?_, h2, h3⟩
  have : ∀ (xs ys : List LineOp) (a b : Line), a.run xs = .ok b → a.run (xs ++ ys) = b.run ys := by
    intro xs ys
    induction xs with
    | nil => intro a b h; cases h; rfl
    | cons x xs ih =>
      intro a b h
      rw [Line.run] at h
      rw [List.cons_append, Line.run]
      cases hs : a.step x with
      | ok c => rw [hs] at h; exact ih c b h
      | fail => rw [hs] at h; cases h
      | oob => rw [hs] at h; cases h
      | abort => rw [hs] at h; cases h
      | stuck => rw [hs] at h; cases h
  rw [this os _ _ _ hl]
  exact h1

/-- The number of bytes queued. -/
def unsent (w : Msgbuf) : Nat := (w.bufs.map (fun b => b.data.length - b.rpos)).sum

theorem unsent_eq (w : Msgbuf) : unsent w = (bytesIn (pending w.bufs)).length := by
  unfold unsent
  induction w.bufs with
  | nil => rfl
  | cons b bs ih => rw [pending_cons, bytesIn_append, bytesIn_append, bytesIn_fd, bytesIn_byte, List.map_cons, List.sum_cons, ih, List.length_append,
      List.nil_append, List.length_drop]

/-- A write takes bytes off the queue. -/
theorem write_unsent {l : Line} (hi : Intact l) (hb : l.w.bufs ≠ []) {n : Nat} (hn : 0 < n) {l' : Line} (h : l.step (.write n) = .ok l') :
    unsent l'.w < unsent l.w := by
  obtain ⟨l1, h1, h2, h3⟩ := flush_write l n
  rw [h] at h1
  cases h1
  have hne : l.w.sendArgs.1 ≠ [] := by
    unfold Msgbuf.sendArgs
    cases hbb : l.w.bufs with
    | nil => exact absurd hbb hb
    | cons b bs =>
      have hw := hi.waiting b (by rw [hbb]; exact List.mem_cons_self)
      have hd : b.data.drop b.rpos ≠ [] := by
        intro e
        have := congrArg List.length e
        rw [List.length_drop, List.length_nil] at this
        omega
      dsimp only
      rw [gatherBufs, if_neg (by decide)]
      split
      · simpa using hd
      · intro e
        rw [List.flatten_cons] at e
        exact hd (List.append_eq_nil_iff.mp e).1
  have hpos := List.length_pos_iff.mpr hne
  have hk : (l.w.sendArgs.1.take n).length ≠ 0 := by
    rw [List.length_take]
    omega
  unfold msgbufWrite at h3
  rw [if_neg hk] at h3
  have h3 : l'.w = msgbufDrain (msgbufSent l.w) (l.w.sendArgs.1.take n).length := h3
  obtain ⟨h5, ⟨t, h6⟩, h7, _⟩ := cleared_spec l.w.bufs 0
  have hx : (gatherBufs 0 l.w.bufs).1.flatten = l.w.sendArgs.1 := rfl
  rw [hx] at h6
  obtain ⟨h8, _⟩ := drain_spec (cleared 0 l.w.bufs) (l.w.sendArgs.1.take n).length _ t h6 (by rw [List.length_take]; omega) (h7 hi.waiting)
  rw [unsent_eq, unsent_eq, ← h5.bytes, bytesIn_append, bytesIn_fd, List.nil_append, h3, sent_eq]
  unfold msgbufDrain
  dsimp only
  rw [h8, h6, List.drop_append_of_le_length (by rw [List.length_map, List.length_take]; omega), bytesIn_append, bytesIn_append, bytesIn_byte,
    ← List.map_drop, bytesIn_byte, List.length_append, List.length_append, List.length_drop]
  omega

/-- C92: If the kernel always takes something, a flush ends after at most as many calls as there are bytes queued, and all is sent. -/
theorem C92_flushed (own : Nat) (hown : own < 2 ^ 32) (os : List LineOp) (hos : ∀ o ∈ os, o.Ok) (l : Line)
    (hl : Line.run { w := { pid := own } } os = .ok l) (hb : l.w.bufs.length < 2 ^ 32) (ns : List Nat) (hn : ∀ n ∈ ns, 0 < n)
    (hlen : unsent l.w ≤ ns.length) : ∃ w, imsgFlush l.w (ns.map some) = .ok (0, w) ∧ w.bufs = [] := by
  obtain ⟨l', h1, hi⟩ := intact_run os (intact_start own hown) hos
  rw [hl] at h1
  cases h1
  obtain ⟨ms, l', h1, _, _, h2⟩ := flush_intact (ns.map some) hi hb
  have key : ∀ (ms : List Nat) (a b : Line), Intact a → (∀ n ∈ ms, 0 < n) → a.run (ms.map LineOp.write) = .ok b → b.w.bufs ≠ [] →
      unsent b.w + ms.length ≤ unsent a.w := by
    intro ms
    induction ms with
    | nil => intro a b _ _ h _; cases h; exact Nat.le_refl _
    | cons m ms ih =>
      intro a b ha hm h hne
      rw [List.map_cons, Line.run] at h
      obtain ⟨c, h3, h4, h5⟩ := flush_write a m
      obtain ⟨c', h6, hc⟩ := intact_step ha (o := .write m) trivial
      rw [h3] at h6
      cases h6
      rw [h3] at h
      have h7 := ih c b hc (fun n hn => hm n (List.mem_cons_of_mem _ hn)) h hne
      have hane : a.w.bufs ≠ [] := by
        intro e
        have hs : a.w.sendArgs.1 = [] := by unfold Msgbuf.sendArgs; rw [e]; rfl
        rw [hs, List.take_nil] at h5
        have h5 : c = a := h5
        rw [h5] at h
        have : ∀ (ms : List Nat), a.run (ms.map LineOp.write) = .ok a := by
          intro ms
          induction ms with
          | nil => rfl
          | cons m ms ih =>
            rw [List.map_cons, Line.run]
            obtain ⟨c, h3, _, h5⟩ := flush_write a m
            rw [hs, List.take_nil] at h5
            have h5 : c = a := h5
            rw [h3, h5]
            exact ih
        have h8 : Line.run a (ms.map LineOp.write) = .ok b := h
        rw [this ms] at h8
        cases h8
        exact hne e
      have := write_unsent ha hane (hm m List.mem_cons_self) h3
      rw [List.length_cons]
      omega
  rcases h2 with ⟨h3, h4, _⟩ | ⟨_, _, h5⟩ | ⟨_, h4, h5⟩
  · exact ⟨_, h3, h4⟩
  · have := h5.subset (List.mem_append_right _ (List.mem_singleton.mpr rfl))
    obtain ⟨_, _, h⟩ := List.mem_map.mp this
    cases h
  · have : ms = ns := List.map_inj_right (fun _ _ h => Option.some.inj h) |>.mp h5
    subst this
    have h6 := key ms l l' hi hn h1 h4
    have h7 : 0 < unsent l'.w := by
      obtain ⟨c, hc1, hc⟩ := intact_run (ms.map LineOp.write) hi (by intro o ho; obtain ⟨_, _, rfl⟩ := List.mem_map.mp ho; trivial)
      rw [h1] at hc1
      cases hc1
      have := write_unsent hc h4 (n := 1) (by omega) (flush_write l' 1).choose_spec.1
      omega
    omega

/-- C92, where the claim fails: if the kernel takes nothing, which the code reads as a closed connection, the flush repeats the call for ever. -/
theorem C92_zero (w : Msgbuf) (h : w.queued ≠ 0) (n : Nat) : imsgFlush w (List.replicate n (some 0)) = .stuck := by
  induction n with
  | zero => rw [List.replicate_zero, imsgFlush, if_neg h]
  | succ n ih =>
    rw [List.replicate_succ, imsgFlush, if_neg h, List.take_zero]
    exact ih

theorem gather_plain (bufs : List Ibuf) (h : ∀ b ∈ bufs, b.fd = none) : ∀ i,
    (gatherBufs i bufs).1 = (bufs.take (IOV_MAX - i)).map (fun b => b.data.drop b.rpos) ∧ (gatherBufs i bufs).2.bind (·.2) = none := by
  induction bufs with
  | nil => intro i; rw [List.take_nil]; exact ⟨rfl, rfl⟩
  | cons b bs ih =>
    intro i
    obtain ⟨h1, h2⟩ := ih (fun b hb => h b (List.mem_cons_of_mem _ hb)) (i + 1)
    have hb := h b List.mem_cons_self
    rw [gatherBufs]
    split
    · next hi =>
      rw [Nat.sub_eq_zero_of_le hi, List.take_zero]
      exact ⟨rfl, by dsimp only [Option.bind_some]; exact hb⟩
    · next hi =>
      rw [hb, if_neg (by decide), h1]
      refine ⟨?_, h2⟩
      rw [show IOV_MAX - i = (IOV_MAX - (i + 1)) + 1 by omega, List.take_succ_cons, List.map_cons]

/-- C92: As long as no descriptors are queued, `ibuf_write` hands the kernel the same bytes as `msgbuf_write` and keeps the same rest. -/
theorem C92_plain_write (w : Msgbuf) (h : ∀ b ∈ w.bufs, b.fd = none) (n : Nat) :
    (w.writeArgs, none) = w.sendArgs ∧ ibufWrite w n = msgbufWrite w n := by
  obtain ⟨h1, h2⟩ := gather_plain w.bufs h 0
  refine ⟨?_, ?_⟩
  · unfold Msgbuf.writeArgs Msgbuf.sendArgs
    rw [h1, h2, Nat.sub_zero]
  · have : msgbufSent w = w := by
      unfold msgbufSent
      split
      · next hg => rw [hg] at h2; cases h2
      · rfl
    unfold ibufWrite msgbufWrite
    rw [this]

/-- With a descriptor they differ: `ibuf_write` closes the descriptor of a message it has written without passing it on. -/
example : ibufWrite { bufs := [{ size := 2, max := 2, data := [1, 2], fd := some 9 }], queued := 1, pid := 42 } 2 = .ok { closed := [9], pid := 42 } ∧
    ({ bufs := [{ size := 2, max := 2, data := [1, 2], fd := some 9 }], queued := 1, pid := 42 } : Msgbuf).sendArgs = ([1, 2], some 9) ∧
    ({ bufs := [{ size := 2, max := 2, data := [1, 2] }, { size := 2, max := 2, data := [3, 4], rpos := 1 }], queued := 2, pid := 42 } : Msgbuf).writeArgs = [1, 2, 4] ∧
    ibufWrite { bufs := [{ size := 2, max := 2, data := [1, 2] }, { size := 2, max := 2, data := [3, 4], rpos := 1 }], queued := 2, pid := 42 } 2 =
      .ok { bufs := [{ size := 2, max := 2, data := [3, 4], rpos := 1 }], queued := 1, pid := 42 } := by
  decide +kernel

/-! ## Clearing -/

theorem clearLoop_spec (n : Nat) : ∀ w : Msgbuf, w.bufs.length = n → (msgbufClearLoop n w).bufs = [] ∧
    (msgbufClearLoop n w).closed = w.closed ++ w.bufs.filterMap (·.fd) ∧ ((msgbufClearLoop n w).queued + n) % 2 ^ 32 = w.queued % 2 ^ 32 ∧
    (w.queued < 2 ^ 32 → (msgbufClearLoop n w).queued < 2 ^ 32) := by
  induction n with
  | zero =>
    intro w h
    rw [List.length_eq_zero_iff] at h
    rw [msgbufClearLoop, h]
    exact ⟨rfl, by simp, rfl, id⟩
  | succ n ih =>
    intro w h
    rw [msgbufClearLoop]
    cases hb : w.bufs with
    | nil => rw [hb] at h; cases h
    | cons b bs =>
      have e : ibufDequeue w = { w with bufs := bs, queued := (w.queued + (2 ^ 32 - 1)) % 2 ^ 32, closed := w.closed ++ b.fd.toList } := by
        unfold ibufDequeue; rw [hb]
      obtain ⟨h1, h2, h3, h4⟩ := ih (ibufDequeue w) (by rw [e]; rw [hb, List.length_cons] at h; dsimp only; omega)
      refine ⟨h1, ?_, ?_, fun _ => h4 (by rw [e]; exact Nat.mod_lt _ (by decide))⟩
      · rw [h2, e]
        dsimp only
        cases hf : b.fd with
        | none => rw [List.filterMap_cons_none hf]; simp
        | some x => rw [List.filterMap_cons_some hf]; simp
      · rw [e] at h3 ⊢
        dsimp only at h3
        omega

theorem clearFds_spec (fds : List Nat) : ∀ r : ImsgRd, r.fds = fds → imsgClearFds fds r = { r with fds := [], closed := r.closed ++ fds } := by
  induction fds with
  | nil => intro r h; rw [imsgClearFds, List.append_nil, ← h]
  | cons f fs ih =>
    intro r h
    rw [imsgClearFds, ih _ rfl]
    simp

/-- C92: Clearing the sender's end closes the descriptors of all messages not yet passed on, each once, and leaves nothing queued; clearing the receiver's end
closes those held for messages still incomplete, so that afterwards every descriptor that was passed on is with a message obtained, closed, or on its way. -/
theorem C92_clear (own : Nat) (hown : own < 2 ^ 32) (os : List LineOp) (hos : ∀ o ∈ os, o.Ok) (l : Line)
    (hl : Line.run { w := { pid := own } } os = .ok l) :
    ((imsgClear l.w l.r).1.bufs = [] ∧ (imsgClear l.w l.r).1.queued = 0 ∧ (imsgClear l.w l.r).1.closed = fdsOf l.sent) ∧
    (imsgClear l.w l.r).2.fds = [] ∧ l.w.closed = fdsOf l.got ++ (imsgClear l.w l.r).2.closed ++ fdsIn l.wire := by
  obtain ⟨d1, d2, d3⟩ := C59_descriptors own hown os hos l hl
  obtain ⟨l', h1, hi⟩ := intact_run os (intact_start own hown) hos
  rw [hl] at h1
  cases h1
  obtain ⟨h1, h2, h3, h4⟩ := clearLoop_spec l.w.bufs.length l.w rfl
  have hq := hi.queued
  unfold imsgClear msgbufClear
  refine ⟨⟨h1, ?_, by rw [h2]; exact d1⟩, ?_, ?_⟩
  · have := h4 (by rw [hq]; exact Nat.mod_lt _ (by decide))
    dsimp only
    omega
  · rw [clearFds_spec _ _ rfl]
  · rw [clearFds_spec _ _ rfl, d3, List.nil_append]
    exact d2

/-! ## The room in a buffer -/

/-- Buffers as made and filled by callers. -/
inductive Made : Ibuf → Prop
  | opened (len : Nat) : len < 2 ^ 64 → Made (ibufOpen len)
  | dynamic {len max : Nat} {b : Ibuf} : max < 2 ^ 64 → ibufDynamic len max = some b → Made b
  | added {b b' : Ibuf} {d : Bytes} : Made b → ibufAdd b d = .ok b' → Made b'
  | reserved {b b' : Ibuf} {d : Bytes} : Made b → ibufReserve b d = .ok b' → Made b'

theorem made_ok {b : Ibuf} (h : Made b) : b.data.length ≤ b.size ∧ b.size ≤ b.max ∧ b.max < 2 ^ 64 := by
  have add : ∀ {b b' : Ibuf} {d : Bytes}, b.data.length ≤ b.size ∧ b.size ≤ b.max ∧ b.max < 2 ^ 64 → ibufAdd b d = .ok b' →
      b'.data.length ≤ b'.size ∧ b'.size ≤ b'.max ∧ b'.max < 2 ^ 64 := by
    intro b b' d hb h
    unfold ibufAdd at h
    split at h
    · unfold ibufRealloc at h
      split at h
      · cases h
      · next hr =>
        split at hr
        · cases hr
        · cases hr
          unfold ibufPut at h
          rw [if_pos (Nat.le_refl _)] at h
          cases h
          dsimp only
          rw [List.length_append]
          omega
    · unfold ibufPut at h
      split at h
      · cases h
        dsimp only
        rw [List.length_append]
        omega
      · cases h
  induction h with
  | opened len h => exact ⟨Nat.zero_le _, Nat.le_refl _, h⟩
  | dynamic hm h =>
    unfold ibufDynamic at h
    split at h
    · cases h
    · next hl =>
      cases h
      split
      · exact ⟨Nat.zero_le _, by unfold ibufOpen; dsimp only; omega, hm⟩
      · exact ⟨Nat.zero_le _, Nat.le_refl _, by unfold ibufOpen; dsimp only; omega⟩
  | added _ h ih => exact add ih h
  | reserved _ h ih => exact add ih h

/-- C92: What `ibuf_left` says is the room there is: bytes are accepted exactly if they are not more, and are then behind those before. -/
theorem C92_room (b : Ibuf) (h : Made b) (d : Bytes) :
    (d.length ≤ ibufLeft b → ∃ b', ibufAdd b d = .ok b' ∧ b'.data = b.data ++ d ∧ ibufSize b' = ibufSize b + d.length ∧ ibufLeft b' + d.length = ibufLeft b) ∧
    (ibufLeft b < d.length → ibufAdd b d = .fail) := by
  obtain ⟨h1, h2, h3⟩ := made_ok h
  have left : ∀ c : Ibuf, c.data.length ≤ c.max → c.max < 2 ^ 64 → ibufLeft c = c.max - c.data.length := by
    intro c hc hm
    unfold ibufLeft
    omega
  have hl := left b (by omega) h3
  constructor
  · intro hd
    rw [hl] at hd
    by_cases hs : b.data.length + d.length > b.size
    · refine ⟨{ b with size := b.data.length + d.length, data := b.data ++ d }, ?_, rfl, ?_, ?_⟩
      · unfold ibufAdd ibufRealloc ibufPut
        rw [if_pos hs, if_neg (by omega)]
        dsimp only
        rw [if_pos (Nat.le_refl _)]
      · unfold ibufSize; dsimp only; rw [List.length_append]
      · rw [hl, left { b with size := b.data.length + d.length, data := b.data ++ d } (by dsimp only; rw [List.length_append]; omega) h3]
        dsimp only
        rw [List.length_append]
        omega
    · refine ⟨{ b with data := b.data ++ d }, ?_, rfl, ?_, ?_⟩
      · unfold ibufAdd ibufPut
        rw [if_neg hs, if_pos (by omega)]
      · unfold ibufSize; dsimp only; rw [List.length_append]
      · rw [hl, left { b with data := b.data ++ d } (by dsimp only; rw [List.length_append]; omega) h3]
        dsimp only
        rw [List.length_append]
        omega
  · intro hd
    rw [hl] at hd
    unfold ibufAdd ibufRealloc
    rw [if_pos (by omega), if_pos (by omega)]

/-- C92: The same for room reserved and filled afterwards. -/
theorem C92_reserve (b : Ibuf) (h : Made b) (d : Bytes) :
    (d.length ≤ ibufLeft b → ∃ b', ibufReserve b d = .ok b' ∧ b'.data = b.data ++ d ∧ ibufSize b' = ibufSize b + d.length ∧
      ibufLeft b' + d.length = ibufLeft b) ∧
    (ibufLeft b < d.length → ibufReserve b d = .fail) :=
  C92_room b h d

/-- C92: A place in the buffer is found exactly if it lies within the bytes written.  What is missing: positions and lengths whose sum exceeds a `size_t`
(`C92_seek_wraps`). -/
theorem C92_seek_partial (b : Ibuf) (pos len : Nat) (h : pos + len < 2 ^ 64) : ibufSeek b pos len = some pos ↔ pos + len ≤ ibufSize b := by
  unfold ibufSeek ibufSize
  rw [Nat.mod_eq_of_lt h]
  split
  · constructor
    · intro h; cases h
    · omega
  · exact ⟨fun _ => by omega, fun _ => rfl⟩

/-- The missing case: a pointer in front of the buffer is returned. -/
theorem C92_seek_wraps : Made (ibufOpen 8) ∧ ibufSeek (ibufOpen 8) (2 ^ 64 - 1) 1 = some (2 ^ 64 - 1) := ⟨.opened 8 (by decide), by decide⟩

/-! ## Cases -/

/-- Two messages are queued, one of them with a descriptor, and a part is written. -/
def queuedOps : List LineOp := [.compose { type := 1, data := [10, 11, 12] }, .composev { type := 2, fd := some 9 } [[1], [2, 3]], .write 5]

example : (∀ o ∈ queuedOps, o.Ok) ∧
    (match Line.run { w := { pid := 42 } } queuedOps with
      | .ok l => l.w.bufs.length == 2 && unsent l.w == 33 && imsgFlush l.w [some 20, none] == .ok (-1, (match l.step (.write 20) with | .ok l => l.w | _ => {})) &&
          imsgFlush l.w [some 100] == .ok (0, { pid := 42, closed := [9] }) && imsgFlush l.w [some 20] == .stuck
      | _ => false) = true ∧
    (match Line.run { w := { pid := 42 } } queuedOps.dropLast with
      | .ok l => (imsgClear l.w { l.r with fds := [4] }) == ({ pid := 42, closed := [9] }, { fds := [], closed := [4] })
      | _ => false) = true := by
  refine ⟨?_, by decide +kernel, by decide +kernel⟩
  intro o ho
  unfold queuedOps at ho
  simp only [List.mem_cons, List.not_mem_nil, or_false] at ho
  rcases ho with rfl | rfl | rfl <;> simp [LineOp.Ok]

example : ∃ b, ibufDynamic 2 5 = some b ∧ Made b ∧ ibufLeft b = 5 ∧ ibufAdd b [1, 2, 3, 4, 5, 6] = .fail ∧
    ibufAdd b [1, 2, 3] = .ok { size := 3, max := 5, data := [1, 2, 3] } :=
  ⟨{ size := 2, max := 5 }, by decide, .dynamic (len := 2) (max := 5) (by decide) (by decide), by decide, by decide, by decide⟩

end Ladvd.Props
