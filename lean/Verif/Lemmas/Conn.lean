import Verif.Model.Conn
import Verif.Spec.Conn
import Verif.Lemmas.Cli
import Verif.Lemmas.Keep
import Verif.Lemmas.Parent
/-!
# Lemmas about the control connection
-/

namespace Ladvd
open Spec

/-! ## The layout -/

/-- An entry whose members have their C types. -/
structure EntryFits (e : Entry) : Prop where
  index : e.index < 2 ^ 32
  name : IfName e.name
  proto : e.proto < 256
  received : Time64 e.received
  len : e.len ≤ 1518
  msg : e.msg.length = 1518

theorem int64Of_bytes {i : Int} (h : Time64 i) : int64Of (int64Bytes i) = i := by
  obtain ⟨h1, h2⟩ := h
  unfold int64Of int64Bytes
  rw [leNat_leBytes 8 _ (by rw [show (256 : Nat) ^ 8 = 2 ^ 64 by decide]; omega)]
  by_cases hi : 0 ≤ i
  · have : (i % 2 ^ 64).toNat = i.toNat := by omega
    rw [this, if_pos (by omega)]
    omega
  · have : (i % 2 ^ 64).toNat = (i + 2 ^ 64).toNat := by omega
    rw [this, if_neg (by omega)]
    omega

theorem nameField_length (n : Bytes) : ((n.take 15 ++ List.replicate 16 0).take 16 : Bytes).length = 16 := by
  rw [List.length_take, List.length_append, List.length_replicate]
  omega

theorem nameField {n : Bytes} (h : IfName n) : ((n.take 15 ++ List.replicate 16 0).take 16 : Bytes).takeWhile (· ≠ 0) = n := by
  obtain ⟨h1, h2⟩ := h
  rw [List.take_of_length_le (l := n) h1, List.take_append, List.take_of_length_le (l := n) (by omega), List.take_replicate,
    List.takeWhile_append_of_pos (by simpa using h2)]
  rw [show min (16 - n.length) 16 = (15 - n.length) + 1 by omega, List.replicate_succ]
  simp

theorem entryBytes_length {e : Entry} (h : EntryFits e) : (entryBytes e).length = 1558 := by
  unfold entryBytes int64Bytes
  simp only [List.length_append, leBytes_length, nameField_length, List.length_replicate, h.msg]

theorem drop_at (a b : Bytes) {n k : Nat} (h : a.length = k) (hk : k ≤ n) : (a ++ b).drop n = b.drop (n - k) := by
  subst h
  rw [List.drop_append, List.drop_of_length_le hk]
  rfl

theorem take_at (a b : Bytes) {k : Nat} (h : a.length = k) : (a ++ b).take k = a := by
  subst h; exact List.take_left

/-- What is written for an entry is what is read. -/
theorem cliInOf_entryBytes {e : Entry} (h : EntryFits e) : cliInOf (entryBytes e) = CliIn.ofEntry e := by
  have hl4 := leBytes_length 4 e.index
  have hn := nameField_length e.name
  have hl1 := leBytes_length 1 e.proto
  have hr3 : (List.replicate 3 0 : Bytes).length = 3 := rfl
  have hr : (int64Bytes e.received).length = 8 := leBytes_length _ _
  have hlen : (int64Bytes e.len).length = 8 := leBytes_length _ _
  have d4 : (entryBytes e).drop 4 = ((e.name.take 15 ++ List.replicate 16 0).take 16 ++ (leBytes 1 e.proto ++ (List.replicate 3 0 ++
    (int64Bytes e.received ++ (int64Bytes e.len ++ e.msg))))) := by
    unfold entryBytes; rw [drop_at _ _ hl4 (by omega)]; rfl
  have d20 : (entryBytes e).drop 20 = (leBytes 1 e.proto ++ (List.replicate 3 0 ++ (int64Bytes e.received ++ (int64Bytes e.len ++ e.msg)))) := by
    rw [show 20 = 4 + 16 by rfl, ← List.drop_drop, d4, drop_at _ _ hn (by omega)]; rfl
  have d24 : (entryBytes e).drop 24 = (int64Bytes e.received ++ (int64Bytes e.len ++ e.msg)) := by
    rw [show 24 = 20 + 4 by rfl, ← List.drop_drop, d20, drop_at _ _ hl1 (by omega), drop_at _ _ hr3 (by omega)]; rfl
  have d32 : (entryBytes e).drop 32 = (int64Bytes e.len ++ e.msg) := by
    rw [show 32 = 24 + 8 by rfl, ← List.drop_drop, d24, drop_at _ _ hr (by omega)]; rfl
  have d40 : (entryBytes e).drop 40 = e.msg := by
    rw [show 40 = 32 + 8 by rfl, ← List.drop_drop, d32, drop_at _ _ hlen (by omega)]; rfl
  unfold cliInOf CliIn.ofEntry
  rw [d4, d20, d24, d32, d40, take_at _ _ hn, take_at _ _ hl1, take_at _ _ hr, take_at _ _ hlen, nameField h.name, int64Of_bytes h.received,
    int64Of_bytes (i := (e.len : Int)) ⟨by omega, by have := h.len; omega⟩,
    leNat_leBytes 1 _ (by have := h.proto; omega)]
  have : (entryBytes e).take 4 = leBytes 4 e.index := by unfold entryBytes; exact take_at _ _ hl4
  rw [this, leNat_leBytes 4 _ (by have := h.index; omega)]

/-! ## Entries keep their types -/

theorem netifByIndex_mem' {l : List Netif} {i : Nat} {n : Netif} (h : netifByIndex l i = some n) : n ∈ l := by
  unfold netifByIndex at h
  exact List.mem_of_find?_eq_some h

theorem bare_names {l l' : List Netif} (h : l'.map bare = l.map bare) (hl : ∀ n ∈ l, IfName n.name) : ∀ n ∈ l', IfName n.name := by
  intro n hn
  have : bare n ∈ l.map bare := by rw [← h]; exact List.mem_map_of_mem hn
  obtain ⟨m, hm, he⟩ := List.mem_map.mp this
  have := congrArg (·.name) he
  simp only [bare] at this
  rw [← this]
  exact hl m hm

/-- Invariant: members have their types. -/
structure Typed (st : Child) : Prop where
  names : ∀ n ∈ st.netifs, IfName n.name
  queue : ∀ e ∈ st.queue, EntryFits e
  sent : ∀ x ∈ st.sent, EntryFits x.2

theorem typed_step {o : Opts} {st st' : Child} {op : ChildOp} (ht : Typed st) (hp : Possible op) (h : childStep o st op = .ok st') :
    Typed st' := by
  have he := entries_step (P := EntryFits) (fun e i l h => ⟨h.index, h.name, h.proto, h.received, h.len, h.msg⟩)
    (fun t r subif m ho hT => ?_) ht.queue ht.sent h
  · refine ⟨?_, he.1, he.2⟩
    cases op with
    | recv now r => exact bare_names (childQueue_bare h) ht.names
    | expire now => exact bare_names (childExpire_bare h) ht.names
    | fetch l => cases h; exact hp
    | accept => cases h; exact ht.names
    | write sid ws =>
      rcases cliWrite_frame h with ⟨rfl, -⟩ | ⟨sess, hse, -, ⟨-, rfl⟩ | ⟨wl, queue, suffix, -, hst, h⟩⟩
      · exact ht.names
      · exact ht.names
      · rcases h with ⟨x, -, rfl⟩ | ⟨-, rfl⟩ <;> exact ht.names
  · subst ho
    obtain ⟨h1, h2, h3, h4, h5⟩ := hp
    obtain ⟨p, _, _, hpr, -⟩ := (taken_decodes h4 h5 hT).dec
    have hlen := hT.len
    have hsz := hT.size
    refine ⟨h2, ht.names _ (netifByIndex_mem' hT.known), ?_, ?_, ?_, h4⟩
    · have := Proto.ofNum_num hpr
      rw [this]
      cases p <;> decide
    · show Time64 (if m.ttl ≠ 0 then t else r.received)
      split
      · exact h1 t rfl
      · exact h3
    · show r.len.toNat ≤ 1518
      unfold ETHER_MAX_LEN at hlen
      omega

/-! ## Writing -/

/-- No `write` of the history is cut short. -/
def WholeOp : ServOp → Prop
  | .write _ (some ws) => ∀ n, ConnRes.wrote n ∈ ws → PARENT_MSG_MAX ≤ n
  | _ => True

theorem connData_whole {k : ConnKind} {n : Nat} {e : Entry} (h : EntryFits e) (hn : k = .packets ∨ PARENT_MSG_MAX ≤ n) :
    connData k n (entryBytes e) = entryBytes e := by
  cases k with
  | packets => rfl
  | stream =>
    rcases hn with hn | hn
    · cases hn
    · show (entryBytes e).take n = _
      rw [List.take_of_length_le]
      rw [entryBytes_length h]; exact hn

theorem connLoop_data {k : ConnKind} {pipe : Bool} : ∀ {es : List Entry} {ws : List ConnRes}, (∀ e ∈ es, EntryFits e) →
    (k = .packets ∨ ∀ n, ConnRes.wrote n ∈ ws → PARENT_MSG_MAX ≤ n) →
    (connLoop k pipe es ws).2 = (cliLoop es (ws.map ConnRes.seen)).2.map entryBytes := by
  intro es
  induction es with
  | nil => intro ws _ _; cases ws <;> rfl
  | cons e es ih =>
    intro ws he hw
    cases ws with
    | nil => rfl
    | cons w ws =>
      cases w with
      | wrote n =>
        have := ih (ws := ws) (fun e h => he e (List.mem_cons_of_mem _ h))
          (hw.imp id (fun h n hn => h n (List.mem_cons_of_mem _ hn)))
        show connData k n (entryBytes e) :: (connLoop k pipe es ws).2 = entryBytes e :: (cliLoop es (ws.map ConnRes.seen)).2.map entryBytes
        rw [this, connData_whole (he e List.mem_cons_self) (hw.imp id (fun h => h n List.mem_cons_self))]
      | again => rfl
      | gone => rfl
      | err => rfl

/-- The connections carry the entries recorded as sent. -/
def ConnCarries (s : Server) : Prop := s.data = s.child.sent.map (fun p => (p.1, entryBytes p.2))

theorem cliStart_fits {st : Child} {sess : Session} {queue suffix : List Entry} (hq : ∀ e ∈ st.queue, EntryFits e)
    (h : cliStart st sess = .ok (queue, suffix)) : ∀ e ∈ suffix, EntryFits e := by
  rcases cliStart_spec h with ⟨_, e1, e2⟩ | ⟨id, pre, _, e1, e2, _⟩
  · rw [e2]; exact hq
  · have : ∀ x ∈ queue, EntryFits x := by
      rw [e1]
      exact setLock_all (fun e i l h => ⟨h.index, h.name, h.proto, h.received, h.len, h.msg⟩) hq _ _
    exact fun x hx => this x (by rw [e2]; exact List.mem_append_right _ hx)

theorem of_on {s s' : Server} {d : List (Nat × Bytes)} {r : Res Child} (h : Served.of s d r = .on s') :
    r = .ok s'.child ∧ s'.data = s.data ++ d := by
  cases r with
  | ok c => cases h; exact ⟨rfl, rfl⟩
  | fail => cases h
  | oob => cases h
  | abort => cases h
  | stuck => cases h

theorem connWrite_on {k : ConnKind} {pipe : Bool} {sid : Nat} {ws : Option (List ConnRes)} {s s' : Server}
    (h : connWrite k pipe sid ws s = .on s') : cliWrite sid (ws.map (·.map ConnRes.seen)) s.child = .ok s'.child ∧
      s'.data = s.data ++ (connPlan k pipe sid ws s.child).2.map (fun b => (sid, b)) := by
  unfold connWrite at h
  split at h
  · cases h
  · exact of_on h

theorem connWrite_carries {k : ConnKind} {pipe : Bool} {sid : Nat} {ws : Option (List ConnRes)} {s s' : Server}
    (hq : ∀ e ∈ s.child.queue, EntryFits e) (hw : k = .packets ∨ WholeOp (.write sid ws)) (hc : ConnCarries s)
    (h : connWrite k pipe sid ws s = .on s') : ConnCarries s' := by
  obtain ⟨hcw, hd⟩ := connWrite_on h
  unfold ConnCarries at hc ⊢
  rw [hd, hc]
  unfold cliWrite at hcw
  unfold connPlan
  cases hf : s.child.sessions.find? (fun t => t.sid == sid) with
  | none =>
    rw [hf] at hcw
    injection hcw with hcw
    rw [← hcw]
    simp
  | some sess =>
    rw [hf] at hcw
    cases ws with
    | none => injection hcw with hcw; rw [← hcw]; simp
    | some ws =>
      simp only [Option.map_some] at hcw ⊢
      cases hst : cliStart s.child sess with
      | ok x =>
        obtain ⟨queue, suffix⟩ := x
        rw [hst] at hcw
        have hd := connLoop_data (k := k) (pipe := pipe) (es := suffix) (ws := ws) (cliStart_fits hq hst) hw
        simp only [Res.bind_ok] at hcw ⊢
        rw [hd]
        split at hcw
        · injection hcw with hcw; rw [← hcw]; simp [List.map_map, Function.comp_def]
        · injection hcw with hcw; rw [← hcw]; simp [List.map_map, Function.comp_def]
      | fail => rw [hst] at hcw; cases hcw
      | oob => rw [hst] at hcw; cases hcw
      | abort => rw [hst] at hcw; cases hcw
      | stuck => rw [hst] at hcw; cases hcw

theorem servStep_on {o : Opts} {k : ConnKind} {pipe : Bool} {s s' : Server} {op : ServOp} (h : servStep o k pipe s op = .on s') :
    childStep o s.child op.seen = .ok s'.child := by
  cases op with
  | write sid ws => exact (connWrite_on h).1
  | recv now r => exact (of_on h).1
  | expire now => exact (of_on h).1
  | fetch l => cases h; rfl
  | accept => cases h; rfl

theorem servStep_carries {o : Opts} {k : ConnKind} {pipe : Bool} {s s' : Server} {op : ServOp} (hq : ∀ e ∈ s.child.queue, EntryFits e)
    (hw : k = .packets ∨ WholeOp op) (hc : ConnCarries s) (h : servStep o k pipe s op = .on s') : ConnCarries s' := by
  cases op with
  | write sid ws => exact connWrite_carries hq hw hc h
  | recv now r =>
    obtain ⟨hs, d⟩ := of_on h
    have e : s'.child.sent = s.child.sent := by
      rcases childQueue_frame hs with ⟨e, _⟩ | ⟨_, _, _, _, _, _, _, _, e⟩
      · rw [e]
      · exact e
    unfold ConnCarries at hc ⊢
    rw [e, d, hc, List.append_nil]
  | expire now =>
    obtain ⟨hs, d⟩ := of_on h
    have e := (childExpire_frame hs).2.2.2
    unfold ConnCarries at hc ⊢
    rw [e, d, hc, List.append_nil]
  | fetch l => cases h; show _ ++ [] = _; rw [List.append_nil]; exact hc
  | accept => cases h; show _ ++ [] = _; rw [List.append_nil]; exact hc

/-- Over a history, the process is the one of the model without connections, and the connections carry what it sent. -/
theorem servRun_carries {o : Opts} {k : ConnKind} {pipe : Bool} {ops : List ServOp} : ∀ {s s' : Server}, Typed s.child → ConnCarries s →
    (∀ op ∈ ops, Possible op.seen) → (k = .packets ∨ ∀ op ∈ ops, WholeOp op) → servRun o k pipe s ops = .on s' →
    childRun o s.child (ops.map ServOp.seen) = .ok s'.child ∧ Typed s'.child ∧ ConnCarries s' := by
  induction ops with
  | nil => intro s s' ht hc _ _ h; cases h; exact ⟨rfl, ht, hc⟩
  | cons op ops ih =>
    intro s s' ht hc hp hw h
    rw [servRun] at h
    cases hs : servStep o k pipe s op with
    | on t =>
      rw [hs] at h
      have h1 := servStep_on hs
      have h2 := servStep_carries ht.queue (hw.imp id (fun h => h op List.mem_cons_self)) hc hs
      obtain ⟨a, b, c⟩ := ih (typed_step ht (hp op List.mem_cons_self) h1) h2 (fun op h => hp op (List.mem_cons_of_mem _ h))
        (hw.imp id (fun h op hm => h op (List.mem_cons_of_mem _ hm))) h
      refine ⟨?_, b, c⟩
      rw [List.map_cons, childRun, h1]
      exact a
    | killed => rw [hs] at h; cases h
    | wrong => rw [hs] at h; cases h

/-! ## Reading -/

theorem readPackets_whole : ∀ {bs : List Bytes}, (∀ b ∈ bs, b.length = 1558) → readPackets bs = bs := by
  intro bs
  induction bs with
  | nil => intro _; rfl
  | cons b bs ih =>
    intro h
    have hb := h b List.mem_cons_self
    have ht : b.take PARENT_MSG_MAX = b := List.take_of_length_le (by rw [hb]; decide)
    rw [readPackets, ht, if_pos (by rw [hb]; decide), ih (fun b hm => h b (List.mem_cons_of_mem _ hm))]

theorem readStream_whole {avail : Nat → Nat} (ha : ∀ i, PARENT_MSG_MAX ≤ avail i) : ∀ {bs : List Bytes} {fuel i : Nat},
    (∀ b ∈ bs, b.length = 1558) → bs.flatten.length < fuel → readStream avail fuel i bs.flatten = bs := by
  intro bs
  induction bs with
  | nil =>
    intro fuel i _ hf
    cases fuel with
    | zero => omega
    | succ fuel =>
      rw [readStream]
      simp only [List.flatten_nil, List.take_nil, List.length_nil]
      rw [if_neg (by decide)]
  | cons b bs ih =>
    intro fuel i h hf
    have hb := h b List.mem_cons_self
    cases fuel with
    | zero => omega
    | succ fuel =>
      rw [List.flatten_cons, List.length_append, hb] at hf
      rw [readStream, List.flatten_cons]
      have hm : min (avail i) PARENT_MSG_MAX = 1558 := by have := ha i; unfold PARENT_MSG_MAX PARENT_MSG_MIN at *; omega
      rw [hm]
      rw [take_at _ _ hb, drop_at _ _ hb (by decide), hb, if_pos (by decide)]
      rw [show PARENT_MSG_MAX - 1558 = 0 by decide, List.drop_zero,
        ih (fun b hm => h b (List.mem_cons_of_mem _ hm)) (by omega)]

theorem allTold_map : ∀ es : List Entry, AllTold es (es.map CliIn.ofEntry)
  | [] => trivial
  | _ :: es => ⟨⟨rfl, rfl, rfl, rfl, rfl, rfl⟩, allTold_map es⟩

/-- Reading the data of entries gives the entries. -/
theorem connRead_entries {k : ConnKind} {avail : Nat → Nat} (ha : k = .packets ∨ ∀ i, PARENT_MSG_MAX ≤ avail i) {es : List Entry}
    (h : ∀ e ∈ es, EntryFits e) : connRead k avail (es.map entryBytes) = es.map CliIn.ofEntry := by
  have hl : ∀ b ∈ es.map entryBytes, b.length = 1558 := by
    intro b hb
    obtain ⟨e, he, rfl⟩ := List.mem_map.mp hb
    exact entryBytes_length (h e he)
  have hm : (es.map entryBytes).map cliInOf = es.map CliIn.ofEntry := by
    rw [List.map_map]
    exact List.map_congr_left (fun e he => cliInOf_entryBytes (h e he))
  cases k with
  | packets => show (readPackets _).map cliInOf = _; rw [readPackets_whole hl, hm]
  | stream =>
    rcases ha with ha | ha
    · cases ha
    · show (readStream avail _ 0 _).map cliInOf = _
      rw [readStream_whole ha hl (Nat.lt_succ_self _), hm]

end Ladvd
