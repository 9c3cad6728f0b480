import Verif.Lemmas.Imsg
/-!
# C59: Message passing
-/

namespace Ladvd.Props
open Ladvd.Spec

/-- C59: Whatever the order of composing, writing, reading and asking, and however the kernel splits the bytes: nothing is read or written out of
bounds, no message is taken for a broken one, and the messages obtained are the first of those accepted, unchanged and in order, with their
descriptors.  `C59_wrapped` shows why pieces of 65536 bytes and more are excluded. -/
theorem C59_order_partial (own : Nat) (hown : own < 2 ^ 32) (os : List LineOp) (hos : ∀ o ∈ os, o.Ok) :
    ∃ l, Line.run { w := { pid := own } } os = .ok l ∧ l.got <+: l.sent := by
  obtain ⟨l, h1, h2⟩ := intact_run os (intact_start own hown) hos
  obtain ⟨rest, h3, _⟩ := h2.rest
  exact ⟨l, h1, rest, h3.symm⟩

/-- C59: Once all is written, read and asked for, every message has been obtained, and nothing is left over. -/
theorem C59_complete (own : Nat) (hown : own < 2 ^ 32) (os : List LineOp) (hos : ∀ o ∈ os, o.Ok) (l : Line)
    (hl : Line.run { w := { pid := own } } os = .ok l) (hw : l.w.bufs = []) (hs : l.wire = []) (hg : imsgGet l.r = .ok (l.r, none)) :
    l.got = l.sent ∧ l.r.buf = [] ∧ l.r.fds = [] := by
  obtain ⟨l', h1, hi⟩ := intact_run os (intact_start own hown) hos
  rw [hl] at h1
  cases h1
  obtain ⟨rest, h2, h3, h4⟩ := hi.rest
  rw [hw, hs, show pending [] = [] from rfl, List.append_nil] at h3
  have hb := h3.bytes
  have hf := h3.fds
  rw [List.append_nil, bytesIn_append, bytesIn_fd, bytesIn_byte, List.nil_append] at hb
  rw [List.append_nil, fdsIn_append, fdsIn_fd, fdsIn_byte, List.append_nil] at hf
  rcases get_spec l.r [] rest h3 h4 with ⟨_, _, h7⟩ | ⟨m, ms, r', g, rfl, h6, _⟩
  · cases rest with
    | nil => exact ⟨by rw [h2, List.append_nil], hb, hf⟩
    | cons m ms =>
      have := h7 m ms rfl
      rw [hb, List.map_cons, List.flatten_cons, List.length_append, encode_length] at this
      omega
  · rw [hg] at h6
    cases h6

private theorem step_get {l : Line} (hi : Intact l) :
    (imsgGet l.r = .ok (l.r, none) ∧ l.r.buf.length < 16384) ∨
    ∃ l', l.step .get = .ok l' ∧ l'.w = l.w ∧ l'.wire = l.wire ∧ l'.sent = l.sent ∧ l'.got.length = l.got.length + 1 := by
  obtain ⟨rest, hr1, hr2, hr3⟩ := hi.rest
  rcases get_spec l.r _ rest hr2 hr3 with ⟨h1, h2, _⟩ | ⟨m, ms, r', g, rfl, h1, _⟩
  · exact Or.inl ⟨h1, h2⟩
  · refine Or.inr ⟨{ l with r := r', got := l.got ++ [⟨g.hdr.type, g.hdr.peerid, g.hdr.pid, g.fd, g.data⟩] }, ?_, rfl, rfl, rfl, ?_⟩
    · show (imsgGet l.r).bind _ = _
      rw [h1]
      rfl
    · dsimp only
      rw [List.length_append, List.length_singleton]

private theorem step_read {l : Line} (hr : l.r.buf.length < 16384) (hw : l.wire ≠ []) :
    ∃ l', l.step (.read 1) = .ok l' ∧ l'.w = l.w ∧ l'.wire = l.wire.drop 1 ∧ l'.sent = l.sent ∧ l'.got = l.got := by
  cases h : l.wire with
  | nil => exact absurd h hw
  | cons i t =>
    have hc : (bytesIn (l.wire.take 1)).length ≤ l.r.room ∧ (fdsIn (l.wire.take 1)).length ≤ 1 := by
      rw [h]
      unfold ImsgRd.room IBUF_READ_SIZE
      cases i with
      | byte b => exact ⟨by show 1 ≤ _; omega, Nat.zero_le _⟩
      | fd n => exact ⟨Nat.zero_le _, Nat.le_refl _⟩
    refine ⟨{ l with r := ⟨l.r.buf ++ bytesIn (l.wire.take 1), l.r.fds ++ (fdsIn (l.wire.take 1)).take 1, l.r.closed ++ (fdsIn (l.wire.take 1)).drop 1⟩, wire := l.wire.drop 1 }, ?_, rfl, by rw [h], rfl, rfl⟩
    show (if (bytesIn (l.wire.take 1)).length ≤ l.r.room ∧ (fdsIn (l.wire.take 1)).length ≤ 1 then do
      let r ← imsgRead l.r (bytesIn (l.wire.take 1)) (fdsIn (l.wire.take 1))
      pure { l with r := r, wire := l.wire.drop 1 }
    else .ok l) = _
    rw [if_pos hc]
    unfold imsgRead
    rw [if_pos (by have := hc.1; unfold ImsgRd.room at this; unfold IBUF_READ_SIZE at this ⊢; omega), Res.bind_eq, Res.bind_ok]
    rfl

private theorem args_some {l : Line} (hi : Intact l) (hb : l.w.bufs ≠ []) : l.w.sendArgs.1 ≠ [] := by
  unfold Msgbuf.sendArgs
  cases h : l.w.bufs with
  | nil => exact absurd h hb
  | cons b bs =>
    have hw := hi.waiting b (by rw [h]; exact List.mem_cons_self)
    have hd : b.data.drop b.rpos ≠ [] := by
      intro e
      have := congrArg List.length e
      rw [List.length_drop, List.length_nil] at this
      omega
    dsimp only
    rw [gatherBufs, if_neg (by decide)]
    split
    · simpa using hd
    · intro e
      rw [List.flatten_cons] at e
      exact hd (List.append_eq_nil_iff.mp e).1

/-- C59: While messages are queued, a write hands something to a kernel that takes anything; it neither adds nor obtains messages. -/
theorem C59_written (own : Nat) (hown : own < 2 ^ 32) (os : List LineOp) (hos : ∀ o ∈ os, o.Ok) (l : Line)
    (hl : Line.run { w := { pid := own } } os = .ok l) (hb : l.w.bufs ≠ []) (n : Nat) (hn : 0 < n) :
    ∃ l', l.step (.write n) = .ok l' ∧ l.wire.length < l'.wire.length ∧ l'.sent = l.sent ∧ l'.got = l.got := by
  obtain ⟨l', h1, hi⟩ := intact_run os (intact_start own hown) hos
  rw [hl] at h1
  cases h1
  have hk : (l.w.sendArgs.1.take n).length ≠ 0 := by
    rw [List.length_take]
    have := List.length_pos_iff.mpr (args_some hi hb)
    omega
  refine ⟨{ l with w := msgbufDrain (msgbufSent l.w) (l.w.sendArgs.1.take n).length, wire := l.wire ++ (l.w.sendArgs.2.toList.map Item.fd ++ (l.w.sendArgs.1.take n).map Item.byte) }, ?_, ?_, rfl, rfl⟩
  · show (match msgbufWrite l.w (l.w.sendArgs.1.take n).length with
      | .ok w => Res.ok { l with w := w, wire := l.wire ++ (l.w.sendArgs.2.toList.map Item.fd ++ (l.w.sendArgs.1.take n).map Item.byte) }
      | .fail => .ok l
      | .oob => .oob
      | .abort => .abort
      | .stuck => .stuck) = _
    unfold msgbufWrite
    rw [if_neg hk]
  · dsimp only
    rw [List.length_append, List.length_append, List.length_map, List.length_map]
    omega

private theorem step_write {l : Line} (hi : Intact l) (hb : l.w.bufs ≠ []) :
    ∃ l', l.step (.write 1) = .ok l' ∧ l'.sent = l.sent ∧ l'.got = l.got ∧
      2 * (pending l'.w.bufs).length + l'.wire.length < 2 * (pending l.w.bufs).length + l.wire.length := by
  have hne := args_some hi hb
  have hk : (l.w.sendArgs.1.take 1).length = 1 := by
    rw [List.length_take]
    have := List.length_pos_iff.mpr hne
    omega
  refine ⟨{ l with w := msgbufDrain (msgbufSent l.w) 1, wire := l.wire ++ (l.w.sendArgs.2.toList.map Item.fd ++ (l.w.sendArgs.1.take 1).map Item.byte) }, ?_, rfl, rfl, ?_⟩
  · show (match msgbufWrite l.w (l.w.sendArgs.1.take 1).length with
      | .ok w => Res.ok { l with w := w, wire := l.wire ++ (l.w.sendArgs.2.toList.map Item.fd ++ (l.w.sendArgs.1.take 1).map Item.byte) }
      | .fail => .ok l
      | .oob => .oob
      | .abort => .abort
      | .stuck => .stuck) = _
    unfold msgbufWrite
    rw [hk, if_neg (by omega)]
  · obtain ⟨h1, ⟨t, h2⟩, h3, h4⟩ := cleared_spec l.w.bufs 0
    have hx : (gatherBufs 0 l.w.bufs).1.flatten = l.w.sendArgs.1 := rfl
    have hm : mark 0 l.w.bufs = l.w.sendArgs.2.toList := rfl
    rw [hx] at h2
    obtain ⟨h5, _, _, _⟩ := drain_spec (cleared 0 l.w.bufs) 1 _ t h2 (by have := List.length_pos_iff.mpr hne; omega) (h3 hi.waiting)
    have hlen : ∀ s : List Item, s.length = (bytesIn s).length + (fdsIn s).length := by
      intro s
      induction s with
      | nil => rfl
      | cons i s ih =>
        cases i with
        | byte b =>
          rw [show bytesIn (.byte b :: s) = b :: bytesIn s from List.filterMap_cons_some rfl, show fdsIn (.byte b :: s) = fdsIn s from List.filterMap_cons_none rfl,
            List.length_cons, List.length_cons, ih]
          omega
        | fd n =>
          rw [show bytesIn (.fd n :: s) = bytesIn s from List.filterMap_cons_none rfl, show fdsIn (.fd n :: s) = n :: fdsIn s from List.filterMap_cons_some rfl,
            List.length_cons, List.length_cons, ih]
          omega
    have hl1 : (pending l.w.bufs).length = l.w.sendArgs.2.toList.length + (pending (cleared 0 l.w.bufs)).length := by
      rw [hlen, ← h1.bytes, ← h1.fds, ← hlen, List.length_append, List.length_map, hm]
    have hpos : 0 < (pending (cleared 0 l.w.bufs)).length := by
      rw [h2, List.length_append, List.length_map]
      have := List.length_pos_iff.mpr hne
      omega
    rw [sent_eq]
    unfold msgbufDrain
    dsimp only
    rw [h5, List.length_append, List.length_append, List.length_map, List.length_map, List.length_drop, hk]
    omega

private theorem finish (n : Nat) : ∀ l : Line, Intact l → 2 * (pending l.w.bufs).length + l.wire.length + (l.sent.length - l.got.length) = n →
    ∃ os l', (∀ o ∈ os, o = .write 1 ∨ o = .read 1 ∨ o = .get) ∧ l.run os = .ok l' ∧ l'.sent = l.sent ∧ l'.got = l.sent := by
  induction n using Nat.strongRecOn with
  | _ n ih =>
    intro l hi hn
    have next : ∀ o l', o = .write 1 ∨ o = .read 1 ∨ o = LineOp.get → o.Ok → l.step o = .ok l' → l'.sent = l.sent →
        2 * (pending l'.w.bufs).length + l'.wire.length + (l'.sent.length - l'.got.length) < n →
        ∃ os l', (∀ o ∈ os, o = .write 1 ∨ o = .read 1 ∨ o = .get) ∧ l.run os = .ok l' ∧ l'.sent = l.sent ∧ l'.got = l.sent := by
      intro o l' ho hok hs hsent hlt
      obtain ⟨l1, h1, h2⟩ := intact_step hi hok
      rw [hs] at h1
      cases h1
      obtain ⟨os, l2, h3, h4, h5, h6⟩ := ih _ hlt l' h2 rfl
      refine ⟨o :: os, l2, ?_, ?_, h5.trans hsent, h6.trans hsent⟩
      · intro x hx
        rcases List.mem_cons.mp hx with rfl | hx
        · exact ho
        · exact h3 x hx
      · rw [Line.run, hs]
        exact h4
    obtain ⟨rest, hr1, hr2, hr3⟩ := hi.rest
    have hlen : l.sent.length = l.got.length + rest.length := by rw [hr1, List.length_append]
    rcases step_get hi with ⟨hg, hroom⟩ | ⟨l', h1, h2, h3, h4, h5⟩
    · by_cases hw : l.wire = []
      · by_cases hb : l.w.bufs = []
        · refine ⟨[], l, ?_, rfl, rfl, ?_⟩
          · intro o ho; cases ho
          · rcases get_spec l.r _ rest hr2 hr3 with ⟨_, _, h7⟩ | ⟨m, ms, r', g, rfl, h6, _⟩
            · cases rest with
              | nil => rw [hr1, List.append_nil]
              | cons m ms =>
                exfalso
                have hbt := hr2.bytes
                rw [hw, hb, show pending [] = [] from rfl, List.append_nil, List.append_nil, bytesIn_append, bytesIn_fd, bytesIn_byte, List.nil_append] at hbt
                have := h7 m ms rfl
                rw [hbt, List.map_cons, List.flatten_cons, List.length_append, encode_length] at this
                omega
            · rw [hg] at h6
              cases h6
        · obtain ⟨l', h1, h2, h3, h4⟩ := step_write hi hb
          exact next _ l' (Or.inl rfl) trivial h1 h2 (by rw [h2, h3]; omega)
      · obtain ⟨l', h1, h2, h3, h4, h5⟩ := step_read hroom hw
        refine next _ l' (Or.inr (Or.inl rfl)) trivial h1 h4 ?_
        have := List.length_pos_iff.mpr hw
        rw [h2, h3, h4, h5, List.length_drop]
        omega
    · refine next _ l' (Or.inr (Or.inr rfl)) trivial h1 h4 ?_
      obtain ⟨l1, h6, h7⟩ := intact_get hi
      rw [h1] at h6
      cases h6
      obtain ⟨rest', h8, _⟩ := h7.rest
      have : l'.sent.length = l'.got.length + rest'.length := by rw [h8, List.length_append]
      rw [h2, h3]
      rw [h4] at this ⊢
      omega

/-- C59: No state is a dead end: from every state reached, writing, reading and asking go on until every message accepted has been obtained, even if
the kernel takes and delivers one byte at a time. -/
theorem C59_arrives (own : Nat) (hown : own < 2 ^ 32) (os : List LineOp) (hos : ∀ o ∈ os, o.Ok) (l : Line)
    (hl : Line.run { w := { pid := own } } os = .ok l) :
    ∃ os' l', (∀ o ∈ os', o = .write 1 ∨ o = .read 1 ∨ o = .get) ∧ l.run os' = .ok l' ∧ l'.sent = l.sent ∧ l'.got = l.sent := by
  obtain ⟨l', h1, hi⟩ := intact_run os (intact_start own hown) hos
  rw [hl] at h1
  cases h1
  exact finish _ l hi rfl

/-- C59: A message is refused, and nothing queued, exactly if its data exceeds 16368 bytes.  Otherwise it is queued in the name given, or the own. -/
theorem C59_accepted (l : Line) (m : Message) (h : m.data.length < 65536) (d : Bytes) (ds : List Bytes) (hd : m.data = d ++ ds.flatten) :
    (m.data.length ≤ 16368 →
      (∃ l', l.step (.compose m) = .ok l' ∧ l'.sent = l.sent ++ [m.signed l.w.pid]) ∧
      (∃ l', l.step (.composev m (d :: ds)) = .ok l' ∧ l'.sent = l.sent ++ [m.signed l.w.pid])) ∧
    (16368 < m.data.length → l.step (.compose m) = .ok l ∧ l.step (.composev m (d :: ds)) = .ok l) := by
  have hp : ∀ x ∈ d :: ds, x.length < 65536 := by
    intro x hx
    have := (List.sublist_flatten_of_mem hx).length_le
    rw [List.flatten_cons, ← hd] at this
    omega
  have hd' : m.data = (d :: ds).flatten := by rw [List.flatten_cons, hd]
  obtain ⟨h1, h2⟩ := compose_spec l.w m h
  obtain ⟨h3, h4⟩ := composev_spec l.w m (d :: ds) hp hd'
  have hm : ({ m with data := (d :: ds).flatten } : Message) = m := by rw [← hd']
  have hv : l.step (.composev m (d :: ds)) = l.queue m (imsgComposev l.w m.type m.peerid m.pid m.fd (d :: ds)) := by
    show l.queue _ _ = _
    rw [hm]
  have hc : l.step (.compose m) = l.queue m (imsgCompose l.w m.type m.peerid m.pid m.fd m.data) := rfl
  rw [hc, hv]
  refine ⟨fun hl => ?_, fun hl => ?_⟩
  · obtain ⟨b, _, e⟩ := h1 hl
    obtain ⟨b', _, e'⟩ := h3 hl
    rw [e, e']
    exact ⟨⟨_, rfl, rfl⟩, ⟨_, rfl, rfl⟩⟩
  · rw [h2 hl, h4 hl]
    exact ⟨rfl, rfl⟩

/-- C59: Descriptors: the sender keeps a descriptor open while the message with it is queued, and closes it once it has been passed on; every
descriptor closed is with a message obtained, held by the receiver for one still incomplete, or on its way; the receiver loses none. -/
theorem C59_descriptors (own : Nat) (hown : own < 2 ^ 32) (os : List LineOp) (hos : ∀ o ∈ os, o.Ok) (l : Line)
    (hl : Line.run { w := { pid := own } } os = .ok l) :
    l.w.closed ++ l.w.bufs.filterMap (·.fd) = fdsOf l.sent ∧ l.w.closed = fdsOf l.got ++ l.r.fds ++ fdsIn l.wire ∧ l.r.closed = [] := by
  obtain ⟨l', h1, hi⟩ := intact_run os (intact_start own hown) hos
  rw [hl] at h1
  cases h1
  have hp : ∀ bufs : List Ibuf, fdsIn (pending bufs) = bufs.filterMap (·.fd) := by
    intro bufs
    induction bufs with
    | nil => rfl
    | cons b bs ih =>
      rw [pending_cons, fdsIn_append, fdsIn_append, fdsIn_fd, fdsIn_byte, List.append_nil, ih]
      cases h : b.fd with
      | none => rw [List.filterMap_cons_none h]; rfl
      | some n => rw [List.filterMap_cons_some h]; rfl
  have hc := hi.closed
  rw [hp] at hc
  refine ⟨hc, ?_, hi.keep⟩
  obtain ⟨rest, hr1, hr2, _⟩ := hi.rest
  have hf := hr2.fds
  rw [fdsIn_append, fdsIn_append, fdsIn_append, fdsIn_fd, fdsIn_byte, List.append_nil, hp] at hf
  rw [hr1, fdsOf_append, ← hf] at hc
  have : l.w.closed ++ l.w.bufs.filterMap (·.fd) = (fdsOf l.got ++ l.r.fds ++ fdsIn l.wire) ++ l.w.bufs.filterMap (·.fd) := by
    rw [hc]
    simp only [List.append_assoc]
  exact List.append_cancel_right this

/-- C59: The number of messages queued, which tells the caller whether to go on writing, is right below 2^32. -/
theorem C59_queued (own : Nat) (hown : own < 2 ^ 32) (os : List LineOp) (hos : ∀ o ∈ os, o.Ok) (l : Line)
    (hl : Line.run { w := { pid := own } } os = .ok l) (h : l.w.bufs.length < 2 ^ 32) : l.w.queued = l.w.bufs.length := by
  obtain ⟨l', h1, hi⟩ := intact_run os (intact_start own hown) hos
  rw [hl] at h1
  cases h1
  rw [hi.queued, Nat.mod_eq_of_lt h]

private theorem wrapped (w : Msgbuf) (d : Bytes) (h : d.length % 65536 = 0) : imsgComposev w 0 0 0 none [d] = imsgCompose w 0 0 0 none [] := by
  have e0 : d.take (d.length % 65536) = [] := by rw [h, List.take_zero]
  have e1 : (([d].map List.length).sum % 65536 + IMSG_HEADER_SIZE) % 65536 = (List.length ([] : Bytes) % 65536 + IMSG_HEADER_SIZE) % 65536 := by
    rw [List.map_cons, List.map_nil, List.sum_cons, List.sum_nil, Nat.add_zero, h, List.length_nil, Nat.zero_mod]
  have e2 : ∀ b, imsgAddAll b [d] = .ok b := by
    intro b
    rw [imsgAddAll]
    unfold imsgAdd
    rw [e0]
    rfl
  have e3 : ∀ b, imsgAdd b [] = .ok b := fun _ => rfl
  unfold imsgComposev imsgCompose imsgCreate
  rw [e1]
  simp only [e2, e3]

/-- C59, why partial: a piece of 65536 bytes is reported as sent, yet what is queued is an empty message. -/
theorem C59_wrapped (l : Line) (d : Bytes) (h : d.length = 65536) :
    ∃ a b, l.step (.composev {} [d]) = .ok a ∧ a.sent = l.sent ++ [⟨0, 0, l.w.pid, none, d⟩] ∧
      l.step (.compose {}) = .ok b ∧ b.sent = l.sent ++ [⟨0, 0, l.w.pid, none, []⟩] ∧ a.w = b.w := by
  obtain ⟨h1, _⟩ := compose_spec l.w {} (by decide)
  obtain ⟨b, _, e⟩ := h1 (by decide)
  have hv := (wrapped l.w d (by omega)).trans e
  generalize ({ l.w with bufs := l.w.bufs ++ [b], queued := (l.w.queued + 1) % 2 ^ 32 } : Msgbuf) = w at e hv
  refine ⟨{ l with w := w, sent := l.sent ++ [⟨0, 0, l.w.pid, none, d⟩] }, { l with w := w, sent := l.sent ++ [⟨0, 0, l.w.pid, none, []⟩] }, ?_, rfl, ?_, rfl, rfl⟩
  · show Line.queue l { data := [d].flatten } (imsgComposev l.w 0 0 0 none [d]) = _
    rw [hv, List.flatten_cons, List.flatten_nil, List.append_nil]
    rfl
  · show Line.queue l {} (imsgCompose l.w 0 0 0 none []) = _
    have e' : imsgCompose l.w 0 0 0 none [] = .ok w := e
    rw [e']
    rfl

/-- A case: two messages, the second with a descriptor, written and read in pieces that do not match them. -/
def passing : List LineOp :=
  [.compose { type := 1, data := [10, 11, 12] }, .composev { type := 2, peerid := 5, pid := 77, fd := some 9 } [[1], [2, 3]], .get, .write 25, .read 10, .get,
   .read 100, .get, .write 100, .get, .read 40, .get, .get]

example : (∀ o ∈ passing, o.Ok) ∧
    (match Line.run { w := { pid := 42 } } passing with
      | .ok l => l.got == [⟨1, 0, 42, none, [10, 11, 12]⟩, ⟨2, 5, 77, some 9, [1, 2, 3]⟩] && l.got == l.sent && l.w.closed == [9] && l.w.queued == 0 &&
          l.w.bufs == [] && l.wire == [] && imsgGet l.r == .ok (l.r, none)
      | _ => false) = true := by
  refine ⟨?_, by decide +kernel⟩
  intro o ho
  unfold passing at ho
  simp only [List.mem_cons, List.not_mem_nil, or_false] at ho
  rcases ho with rfl | rfl | rfl | rfl | rfl | rfl | rfl | rfl | rfl | rfl | rfl | rfl | rfl <;> simp [LineOp.Ok]

/-- After the first four steps messages are queued, on their way and held. -/
example : (match Line.run { w := { pid := 42 } } (passing.take 6) with
      | .ok l => l.w.bufs.length == 1 && l.w.closed == [9] && l.got == [] && l.r.fds == [9] && l.r.buf.length == 9 && l.wire.length == 16
      | _ => false) = true := by decide +kernel

example : (List.replicate 65536 (0 : UInt8)).length = 65536 := List.length_replicate

end Ladvd.Props
