import Verif.Lemmas.Queue
/-!
# Invariants of the client sessions
-/

namespace Ladvd

open Spec

/-! ## Lists of identifiers -/

theorem takeWhile_filter_sublist {α : Type} (p q : α → Bool) (l : List α) :
    ((l.takeWhile p).filter q).Sublist ((l.filter q).takeWhile p) := by
  induction l with
  | nil => simp
  | cons a l ih =>
    by_cases hp : p a <;> by_cases hq : q a <;> simp [hp, hq, ih]

theorem filter_takeWhile_subset (c : Nat) (q : Nat → Bool) (l : List Nat) (hc : c ∈ l.filter q) :
    ∀ i ∈ (l.filter q).takeWhile (· != c), i ∈ l.takeWhile (· != c) := by
  induction l with
  | nil => simp
  | cons a l ih =>
    by_cases ha : a = c
    · subst ha
      have : q a = true := (List.mem_filter.mp hc).2
      simp [this]
    · have hc' : c ∈ l.filter q := by
        rw [List.filter_cons] at hc
        split at hc
        · rcases List.mem_cons.mp hc with h | h
          · exact absurd h.symm ha
          · exact h
        · exact hc
      intro i hi
      rw [List.filter_cons] at hi
      split at hi
      · simp only [List.takeWhile_cons, bne_iff_ne, ne_eq, ha, not_false_eq_true, if_true, List.mem_cons] at hi ⊢
        rcases hi with h | h
        · left; exact h
        · right; exact ih hc' i h
      · simp only [List.takeWhile_cons, bne_iff_ne, ne_eq, ha, not_false_eq_true, if_true, List.mem_cons]
        right; exact ih hc' i hi

theorem takeWhile_insert {α : Type} (p : α → Bool) (a b : List α) (n : α) (hn : p n = true) :
    ((a ++ b).takeWhile p).Sublist ((a ++ n :: b).takeWhile p) ∧
    ∀ i ∈ (a ++ n :: b).takeWhile p, i = n ∨ i ∈ (a ++ b).takeWhile p := by
  induction a with
  | nil => simp [hn]
  | cons x a ih =>
    by_cases hx : p x
    · simp only [List.cons_append, List.takeWhile_cons, hx, if_true]
      refine ⟨ih.1.cons_cons x, ?_⟩
      intro i hi
      rcases List.mem_cons.mp hi with h | h
      · right; simp [h]
      · rcases ih.2 i h with h | h
        · left; exact h
        · right; simp [h]
    · simp [hx]

theorem sublist_eq_filter {a b : List Nat} (h : a.Sublist b) (hb : b.Nodup) :
    a = b.filter (fun i => decide (i ∈ a)) := by
  induction h with
  | slnil => rfl
  | @cons a b x hs ih =>
    have hx : x ∉ a := fun hc => (List.nodup_cons.mp hb).1 (hs.subset hc)
    rw [List.filter_cons, if_neg (by simpa using hx)]
    exact ih (List.nodup_cons.mp hb).2
  | @cons_cons a b x hs ih =>
    have hb' := List.nodup_cons.mp hb
    rw [List.filter_cons, if_pos (by simp)]
    congr 1
    conv => lhs; rw [ih hb'.2]
    apply List.filter_congr
    intro i hi
    have : i ≠ x := fun hc => hb'.1 (hc ▸ hi)
    simp [this]

theorem takeWhile_split (pre suf : List Nat) (c : Nat) (hn : (pre ++ suf).Nodup) (hc : suf.head? = some c) :
    (pre ++ suf).takeWhile (· != c) = pre := by
  cases suf with
  | nil => cases hc
  | cons x s =>
    cases hc
    have : ∀ i ∈ pre, (i != c) = true := by
      intro i hi
      simp only [bne_iff_ne, ne_eq]
      rintro rfl
      exact (List.nodup_append.mp hn).2.2 i hi i (by simp) rfl
    rw [List.takeWhile_append_of_pos this]
    simp

/-- The progress of a client: `s` are the identifiers sent, `pre` the part of the table `ids` passed, `sid` separates
entries older and newer than the session. -/
structure Progress (sid : Nat) (s ids pre : List Nat) : Prop where
  nodup : s.Nodup
  order : (s.filter (fun i => decide (i ∈ ids))).Sublist pre
  all : ∀ i ∈ pre, i < sid → i ∈ s

theorem progress_start (sid : Nat) (ids : List Nat) : Progress sid [] ids [] := ⟨by simp, by simp, by simp⟩

theorem progress_advance {sid : Nat} {s pre suf : List Nat} (k : Nat) (hn : (pre ++ suf).Nodup)
    (h : Progress sid s (pre ++ suf) pre) :
    Progress sid (s ++ suf.take k) (pre ++ suf) (pre ++ suf.take k) := by
  have hsuf := (List.nodup_append.mp hn)
  refine ⟨?_, ?_, ?_⟩
  · rw [List.nodup_append]
    refine ⟨h.nodup, (List.take_sublist k suf).nodup hsuf.2.1, ?_⟩
    rintro a ha b hb rfl
    have hb' := List.mem_of_mem_take hb
    have : a ∈ pre := h.order.subset (List.mem_filter.mpr ⟨ha, by simp [hb']⟩)
    exact hsuf.2.2 a this a hb' rfl
  · rw [List.filter_append]
    apply h.order.append
    exact List.filter_sublist
  · intro i hi hlt
    rcases List.mem_append.mp hi with hi | hi
    · exact List.mem_append_left _ (h.all i hi hlt)
    · exact List.mem_append_right _ hi

/-! ## The invariant -/

/-- The identifiers of the entries sent to a client. -/
def sentIds (sent : List (Nat × Entry)) (sid : Nat) : List Nat :=
  (sent.filter (fun p => p.1 == sid)).map (·.2.id)

/-- The identifiers in the table. -/
def idsOf (q : List Entry) : List Nat := q.map (·.id)

structure Inv (st : Child) : Prop where
  keys : (st.queue.map neighbour).Nodup
  grouped : Grouped st.queue
  ids : (idsOf st.queue).Nodup
  idLt : ∀ i ∈ idsOf st.queue, i < st.nextId
  sids : (st.sessions.map (·.sid)).Nodup
  sidLt : ∀ s ∈ st.sessions, s.sid < st.nextId
  curLt : ∀ s ∈ st.sessions, ∀ c, s.msg = some c → c < st.nextId
  sentLt : ∀ p ∈ st.sent, p.1 < st.nextId ∧ p.2.id < st.nextId
  sentNodup : ∀ sid, (sentIds st.sent sid).Nodup
  sentOrder : ∀ sid, ((sentIds st.sent sid).filter (fun i => decide (i ∈ idsOf st.queue))).Sublist (idsOf st.queue)
  fresh : ∀ s ∈ st.sessions, s.msg = none → sentIds st.sent s.sid = []
  cur : ∀ s ∈ st.sessions, ∀ c, s.msg = some c →
    ((sentIds st.sent s.sid).filter (fun i => decide (i ∈ idsOf st.queue))).Sublist
      ((idsOf st.queue).takeWhile (· != c)) ∧
    (c ∈ idsOf st.queue → ∀ i ∈ (idsOf st.queue).takeWhile (· != c), i < s.sid → i ∈ sentIds st.sent s.sid)

theorem inv_init (l : List Netif) : Inv { netifs := l } := by
  constructor <;> simp [idsOf, sentIds, Grouped]

/-- Only the interfaces or the log of description requests change. -/
theorem inv_congr {st st' : Child} (h : Inv st) (hq : st'.queue = st.queue) (hs : st'.sessions = st.sessions)
    (hn : st'.nextId = st.nextId) (ht : st'.sent = st.sent) : Inv st' := by
  obtain ⟨a, b, c, d, e⟩ := st
  obtain ⟨a', b', c', d', e'⟩ := st'
  simp only at hq hs hn ht
  subst hq hs hn ht
  exact ⟨h.keys, h.grouped, h.ids, h.idLt, h.sids, h.sidLt, h.curLt, h.sentLt, h.sentNodup, h.sentOrder, h.fresh, h.cur⟩

/-- Entries are removed. -/
theorem inv_remove {st st' : Child} (h : Inv st) (hq : st'.queue.Sublist st.queue) (hs : st'.sessions = st.sessions)
    (hn : st'.nextId = st.nextId) (ht : st'.sent = st.sent) : Inv st' := by
  have hids : (idsOf st'.queue).Sublist (idsOf st.queue) := hq.map _
  have hf := sublist_eq_filter hids h.ids
  have hff : ∀ s : List Nat, (s.filter (fun i => decide (i ∈ idsOf st'.queue))) =
      (s.filter (fun i => decide (i ∈ idsOf st.queue))).filter (fun i => decide (i ∈ idsOf st'.queue)) := by
    intro s
    rw [List.filter_filter]
    apply List.filter_congr
    intro i _
    by_cases hi : i ∈ idsOf st'.queue
    · simp [hi, hids.subset hi]
    · simp [hi]
  refine ⟨(hq.map _).nodup h.keys, ?_, hids.nodup h.ids, ?_, hs ▸ h.sids, ?_, ?_, ?_, ?_, ?_, ?_, ?_⟩
  · rw [grouped_iff]
    exact groupedK_sublist ((grouped_iff _).mp h.grouped) (hq.map _)
  · intro i hi; rw [hn]; exact h.idLt i (hids.subset hi)
  · intro s hs'; rw [hn]; rw [hs] at hs'; exact h.sidLt s hs'
  · intro s hs'; rw [hn]; rw [hs] at hs'; exact h.curLt s hs'
  · intro p hp; rw [hn]; rw [ht] at hp; exact h.sentLt p hp
  · intro sid; rw [ht]; exact h.sentNodup sid
  · intro sid
    rw [ht, hff]
    conv => rhs; rw [hf]
    exact (h.sentOrder sid).filter _
  · intro s hs'; rw [ht]; rw [hs] at hs'; exact h.fresh s hs'
  · intro s hs' c hc
    rw [hs] at hs'
    obtain ⟨h1, h2⟩ := h.cur s hs' c hc
    rw [ht, hff]
    refine ⟨?_, ?_⟩
    · refine (h1.filter _).trans ?_
      refine (takeWhile_filter_sublist _ _ _).trans ?_
      rw [← hf]
      exact List.Sublist.refl _
    · intro hc' i hi hlt
      apply h2 (hids.subset hc') i _ hlt
      have := filter_takeWhile_subset c (fun i => decide (i ∈ idsOf st'.queue)) (idsOf st.queue)
      rw [← hf] at this
      exact this hc' i hi

/-- An entry is put. -/
theorem inv_put {st st' : Child} (h : Inv st) (e : Entry) (he : e.id = st.nextId)
    (hq : st'.queue = queuePut st.queue e) (hs : st'.sessions = st.sessions)
    (hn : st'.nextId = st.nextId + 1) (ht : st'.sent = st.sent) : Inv st' := by
  have hkeys : (st'.queue.map neighbour).Nodup := by rw [hq]; exact queuePut_nodup _ _ h.keys
  have hgr : Grouped st'.queue := by rw [hq]; exact queuePut_grouped _ _ h.grouped
  have hfresh : ∀ x ∈ st.queue, x.id ≠ e.id := by
    intro x hx hc
    have := h.idLt x.id (List.mem_map.mpr ⟨x, hx, rfl⟩)
    omega
  have hnd : (idsOf st'.queue).Nodup := by
    rw [idsOf, hq]
    exact queuePut_ids _ _ h.ids hfresh
  have hidl : ∀ i ∈ idsOf st'.queue, i < st'.nextId := by
    intro i hi
    obtain ⟨x, hx, rfl⟩ := List.mem_map.mp hi
    rw [hq] at hx
    rw [hn]
    rcases queuePut_mem _ _ _ hx with h1 | h1 | ⟨p, hp, h1⟩
    · have := h.idLt x.id (List.mem_map.mpr ⟨x, h1, rfl⟩); omega
    · omega
    · have := h.idLt p.id (List.mem_map.mpr ⟨p, hp, rfl⟩); omega
  -- the identifiers: unchanged, or one inserted
  have hids : idsOf st'.queue = idsOf st.queue ∨
      ∃ a b, idsOf st.queue = a ++ b ∧ idsOf st'.queue = a ++ st.nextId :: b := by
    rcases queuePut_cases st.queue e with ⟨l1, o, l2, h1, h2, _, h4⟩ | ⟨_, l1, l2, h1, h2, _, _⟩
    · left
      rw [hq, h4, h1]
      simp [idsOf]
    · right
      refine ⟨idsOf l1, idsOf l2, by rw [h1]; simp [idsOf], ?_⟩
      rw [hq, h2]
      simp [idsOf, he]
  have hsid : ∀ sid, st.nextId ∉ sentIds st.sent sid := by
    intro sid hc
    obtain ⟨p, hp, hpe⟩ := List.mem_map.mp hc
    have := (h.sentLt p (List.mem_filter.mp hp).1).2
    omega
  have hsfilter : ∀ sid, (sentIds st.sent sid).filter (fun i => decide (i ∈ idsOf st'.queue)) =
      (sentIds st.sent sid).filter (fun i => decide (i ∈ idsOf st.queue)) := by
    intro sid
    apply List.filter_congr
    intro i hi
    rcases hids with hids | ⟨a, b, h1, h2⟩
    · rw [hids]
    · have hne : i ≠ st.nextId := fun hc => hsid sid (hc ▸ hi)
      rw [h1, h2]
      simp [hne]
  refine ⟨hkeys, hgr, hnd, hidl, hs ▸ h.sids, ?_, ?_, ?_, ?_, ?_, ?_, ?_⟩
  · intro s hs'; rw [hs] at hs'; have := h.sidLt s hs'; omega
  · intro s hs' c hc; rw [hs] at hs'; have := h.curLt s hs' c hc; omega
  · intro p hp; rw [ht] at hp; have := h.sentLt p hp; omega
  · intro sid; rw [ht]; exact h.sentNodup sid
  · intro sid
    rw [ht, hsfilter]
    rcases hids with hids | ⟨a, b, h1, h2⟩
    · rw [hids]; exact h.sentOrder sid
    · refine (h.sentOrder sid).trans ?_
      rw [h1, h2]
      exact List.Sublist.append_left (List.sublist_cons_self _ _) _
  · intro s hs'; rw [ht]; rw [hs] at hs'; exact h.fresh s hs'
  · intro s hs' c hc
    rw [hs] at hs'
    obtain ⟨hc1, hc2⟩ := h.cur s hs' c hc
    rw [ht, hsfilter]
    rcases hids with hids | ⟨a, b, h1, h2⟩
    · rw [hids]; exact ⟨hc1, hc2⟩
    · have hclt := h.curLt s hs' c hc
      have hne : (st.nextId != c) = true := by simp; omega
      obtain ⟨t1, t2⟩ := takeWhile_insert (fun i => i != c) a b st.nextId hne
      rw [h1] at hc1 hc2
      rw [h1] at *
      rw [h2]
      refine ⟨?_, ?_⟩
      · exact hc1.trans t1
      · intro hcm i hi hlt
        have hcm' : c ∈ a ++ b := by
          simp only [List.mem_append, List.mem_cons] at hcm ⊢
          rcases hcm with hcm | hcm | hcm
          · left; exact hcm
          · omega
          · right; exact hcm
        rcases t2 i hi with hi | hi
        · have := h.sidLt s hs'
          omega
        · exact hc2 hcm' i hi hlt

theorem inv_accept {st : Child} (h : Inv st) : Inv (cliAccept st) := by
  have hnew : sentIds st.sent st.nextId = [] := by
    unfold sentIds
    rw [List.map_eq_nil_iff, List.filter_eq_nil_iff]
    intro p hp
    have := (h.sentLt p hp).1
    simp only [beq_iff_eq]
    omega
  refine ⟨h.keys, h.grouped, h.ids, ?_, ?_, ?_, ?_, ?_, h.sentNodup, h.sentOrder, ?_, ?_⟩
  · intro i hi; have := h.idLt i hi; simp only [cliAccept]; omega
  · simp only [cliAccept, List.map_append, List.map_cons, List.map_nil]
    rw [List.nodup_append]
    refine ⟨h.sids, by simp, ?_⟩
    rintro a ha b hb rfl
    obtain ⟨s, hs, rfl⟩ := List.mem_map.mp ha
    have := h.sidLt s hs
    simp only [List.mem_singleton] at hb
    omega
  · intro s hs
    rcases List.mem_append.mp hs with hs | hs
    · have := h.sidLt s hs; simp only [cliAccept]; omega
    · simp only [List.mem_singleton] at hs; subst hs; simp [cliAccept]
  · intro s hs c hc
    rcases List.mem_append.mp hs with hs | hs
    · have := h.curLt s hs c hc; simp only [cliAccept]; omega
    · simp only [List.mem_singleton] at hs; subst hs; cases hc
  · intro p hp; have := h.sentLt p hp; simp only [cliAccept]; omega
  · intro s hs hm
    rcases List.mem_append.mp hs with hs | hs
    · exact h.fresh s hs hm
    · simp only [List.mem_singleton] at hs; subst hs; exact hnew
  · intro s hs c hc
    rcases List.mem_append.mp hs with hs | hs
    · exact h.cur s hs c hc
    · simp only [List.mem_singleton] at hs; subst hs; cases hc


theorem sentIds_append (sent : List (Nat × Entry)) (l : List Entry) (sid s : Nat) :
    sentIds (sent ++ l.map (fun e => (sid, e))) s = if s = sid then sentIds sent s ++ idsOf l else sentIds sent s := by
  unfold sentIds idsOf
  rw [List.filter_append, List.map_append]
  split
  · next h =>
    subst h
    congr 1
    rw [List.filter_eq_self.mpr (by simp), List.map_map]
    rfl
  · next h =>
    have : (l.map (fun e => (sid, e))).filter (fun p => p.1 == s) = [] := by
      rw [List.filter_eq_nil_iff]
      intro p hp
      obtain ⟨e, _, rfl⟩ := List.mem_map.mp hp
      simpa using fun hc : sid = s => h hc.symm
    rw [this]
    simp

theorem find_mem {l : List Session} {sid : Nat} {s : Session} (h : l.find? (fun s => s.sid == sid) = some s) :
    s ∈ l ∧ s.sid = sid := by
  have h1 := List.mem_of_find?_eq_some h
  have h2 := List.find?_some h
  exact ⟨h1, by simpa using h2⟩

/-- What a write event does. -/
theorem cliWrite_frame {sid : Nat} {ws : Option (List WriteRes)} {st st' : Child} (h : cliWrite sid ws st = .ok st') :
    (st' = st ∧ ∀ s ∈ st.sessions, s.sid ≠ sid) ∨
    ∃ sess ∈ st.sessions, sess.sid = sid ∧
      ((ws = none ∧ st' = { st with sessions := st.sessions.filter (fun s => s.sid != sid) }) ∨
       ∃ wl queue suffix, ws = some wl ∧ cliStart st sess = .ok (queue, suffix) ∧
        ((∃ c, (cliLoop suffix wl).1 = .blocked c ∧
          st' = { st with
            queue := setLock queue c (fun n => n + 1),
            sessions := st.sessions.map (fun t => if t.sid = sid then { t with msg := some c } else t),
            sent := st.sent ++ (cliLoop suffix wl).2.map (fun e => (sid, e)) }) ∨
         ((∀ c, (cliLoop suffix wl).1 ≠ .blocked c) ∧
          st' = { st with
            queue := queue,
            sessions := st.sessions.filter (fun s => s.sid != sid),
            sent := st.sent ++ (cliLoop suffix wl).2.map (fun e => (sid, e)) }))) := by
  unfold cliWrite at h
  split at h
  · next hf =>
    left
    cases h
    refine ⟨rfl, fun s hs hc => ?_⟩
    have := List.find?_eq_none.mp hf s hs
    simp [hc] at this
  · next sess hf =>
    right
    obtain ⟨hm, hsid⟩ := find_mem hf
    refine ⟨sess, hm, hsid, ?_⟩
    dsimp only at h
    split at h
    · left; cases h; exact ⟨rfl, rfl⟩
    · next wl =>
      right
      cases hst : cliStart st sess with
      | ok qs =>
        obtain ⟨queue, suffix⟩ := qs
        rw [hst] at h
        simp only [Res.bind_ok] at h
        refine ⟨wl, queue, suffix, rfl, rfl, ?_⟩
        split at h
        · next c hc => left; cases h; exact ⟨c, hc, rfl⟩
        · next hc => right; cases h; exact ⟨hc, rfl⟩
      | fail => rw [hst] at h; cases h
      | oob => rw [hst] at h; cases h
      | abort => rw [hst] at h; cases h
      | stuck => rw [hst] at h; cases h

theorem setLock_ids (q : List Entry) (id : Nat) (f : Nat → Nat) : idsOf (setLock q id f) = idsOf q :=
  setLock_map q id f _ (fun _ _ => rfl)

theorem cliStart_ids {st : Child} {sess : Session} {queue suffix : List Entry}
    (h : cliStart st sess = .ok (queue, suffix)) :
    idsOf queue = idsOf st.queue ∧ queue.map neighbour = st.queue.map neighbour ∧
      queue.map system = st.queue.map system := by
  rcases cliStart_spec h with ⟨_, rfl, _⟩ | ⟨id, pre, _, rfl, _⟩
  · exact ⟨rfl, rfl, rfl⟩
  · exact ⟨setLock_ids _ _ _, setLock_map _ _ _ _ (fun _ _ => rfl), setLock_map _ _ _ _ (fun _ _ => rfl)⟩

/-- Progress of the session that gets a write event. -/
theorem cliStart_progress {st : Child} (h : Inv st) {sess : Session} (hs : sess ∈ st.sessions)
    {queue suffix : List Entry} (hst : cliStart st sess = .ok (queue, suffix)) :
    ∃ pre, idsOf st.queue = pre ++ idsOf suffix ∧
      Progress sess.sid (sentIds st.sent sess.sid) (idsOf st.queue) pre := by
  rcases cliStart_spec hst with ⟨hm, rfl, rfl⟩ | ⟨id, pre, hm, hq, hsplit, hpre, hhead⟩
  · refine ⟨[], by simp, ?_⟩
    rw [h.fresh sess hs hm]
    exact progress_start _ _
  · have hi : idsOf st.queue = idsOf pre ++ idsOf suffix := by
      rw [← setLock_ids st.queue id (fun n => n + 255), ← hq, hsplit]
      simp [idsOf]
    refine ⟨idsOf pre, hi, ?_⟩
    obtain ⟨h1, h2⟩ := h.cur sess hs id hm
    have hh : (idsOf suffix).head? = some id := by
      rw [idsOf, List.head?_map]; exact hhead
    have htw : (idsOf st.queue).takeWhile (· != id) = idsOf pre := by
      rw [hi]
      exact takeWhile_split _ _ _ (hi ▸ h.ids) hh
    rw [htw] at h1 h2
    refine ⟨h.sentNodup _, h1, ?_⟩
    apply h2
    rw [hi]
    apply List.mem_append_right
    exact List.mem_of_mem_head? hh

theorem inv_write {sid : Nat} {ws : Option (List WriteRes)} {st st' : Child} (h : Inv st)
    (hw : cliWrite sid ws st = .ok st') : Inv st' := by
  rcases cliWrite_frame hw with ⟨rfl, _⟩ | ⟨sess, hsess, hsid, hh⟩
  · exact h
  have hsub : ∀ s ∈ st.sessions.filter (fun s => s.sid != sid), s ∈ st.sessions ∧ s.sid ≠ sid := by
    intro s hs
    have := List.mem_filter.mp hs
    exact ⟨this.1, by simpa using this.2⟩
  have hnds : ((st.sessions.filter (fun s => s.sid != sid)).map (·.sid)).Nodup :=
    (List.filter_sublist.map _).nodup h.sids
  rcases hh with ⟨rfl, rfl⟩ | ⟨wl, queue, suffix, rfl, hst, hh⟩
  · refine ⟨h.keys, h.grouped, h.ids, h.idLt, hnds, ?_, ?_, h.sentLt, h.sentNodup, h.sentOrder, ?_, ?_⟩
    · intro s hs; exact h.sidLt s (hsub s hs).1
    · intro s hs; exact h.curLt s (hsub s hs).1
    · intro s hs; exact h.fresh s (hsub s hs).1
    · intro s hs; exact h.cur s (hsub s hs).1
  · obtain ⟨hi, hk, hg⟩ := cliStart_ids hst
    obtain ⟨pre, hpre, hprog⟩ := cliStart_progress h hsess hst
    obtain ⟨hl1, hl2⟩ := cliLoop_spec suffix wl
    generalize hcs : cliLoop suffix wl = cs at *
    obtain ⟨c, s⟩ := cs
    simp only at hl1 hl2 hh
    have hnd : (pre ++ idsOf suffix).Nodup := hpre ▸ h.ids
    have htake : idsOf s = (idsOf suffix).take s.length := by
      conv => lhs; rw [hl1]
      simp only [idsOf, List.map_take]
    have hadv : Progress sess.sid (sentIds st.sent sess.sid ++ idsOf s) (idsOf st.queue) (pre ++ idsOf s) := by
      rw [hpre] at hprog ⊢
      rw [htake]
      exact progress_advance s.length hnd hprog
    rw [hsid] at hadv
    have hsnd : ∀ x, (sentIds (st.sent ++ s.map (fun e => (sid, e))) x).Nodup := by
      intro x
      rw [sentIds_append]
      split
      · next hx => subst hx; exact hadv.nodup
      · exact h.sentNodup x
    have hpres : (pre ++ idsOf s).Sublist (idsOf st.queue) := by
      rw [hpre, htake]
      exact List.Sublist.append_left (List.take_sublist _ _) _
    have hord : ∀ x, ((sentIds (st.sent ++ s.map (fun e => (sid, e))) x).filter
        (fun i => decide (i ∈ idsOf st.queue))).Sublist (idsOf st.queue) := by
      intro x
      rw [sentIds_append]
      split
      · next hx => subst hx; exact hadv.order.trans hpres
      · exact h.sentOrder x
    have hslt : ∀ p ∈ st.sent ++ s.map (fun e => (sid, e)), p.1 < st.nextId ∧ p.2.id < st.nextId := by
      intro p hp
      rcases List.mem_append.mp hp with hp | hp
      · exact h.sentLt p hp
      · obtain ⟨e, he, rfl⟩ := List.mem_map.mp hp
        refine ⟨hsid ▸ h.sidLt sess hsess, ?_⟩
        apply h.idLt
        apply hpres.subset
        exact List.mem_append_right _ (List.mem_map.mpr ⟨e, he, rfl⟩)
    have hgr : ∀ q : List Entry, q.map system = st.queue.map system → Grouped q := by
      intro q hq
      rw [grouped_iff, hq, ← grouped_iff]
      exact h.grouped
    rcases hh with ⟨cid, hc, rfl⟩ | ⟨hc, rfl⟩
    · subst hc
      simp only at hl2
      have hi' : idsOf (setLock queue cid (fun n => n + 1)) = idsOf st.queue := by rw [setLock_ids, hi]
      have hk' : (setLock queue cid (fun n => n + 1)).map neighbour = st.queue.map neighbour := by
        rw [setLock_map _ _ _ _ (fun _ _ => rfl), hk]
      have hg' : (setLock queue cid (fun n => n + 1)).map system = st.queue.map system := by
        rw [setLock_map _ _ _ _ (fun _ _ => rfl), hg]
      have hhead : ((idsOf suffix).drop s.length).head? = some cid := by
        rw [← hl2, idsOf, ← List.map_drop, List.head?_map]
      have hmem : cid ∈ idsOf st.queue := by
        rw [hpre]
        apply List.mem_append_right
        exact List.mem_of_mem_drop (List.mem_of_mem_head? hhead)
      have htw : (idsOf st.queue).takeWhile (· != cid) = pre ++ idsOf s := by
        rw [hpre, htake]
        rw [← List.take_append_drop s.length (idsOf suffix), ← List.append_assoc]
        rw [List.take_append_drop]
        apply takeWhile_split _ _ _ _ hhead
        rw [List.append_assoc, List.take_append_drop]
        exact hnd
      have hcases : ∀ t ∈ st.sessions.map (fun t => if t.sid = sid then { t with msg := some cid } else t),
          (t ∈ st.sessions ∧ t.sid ≠ sid) ∨ (t.sid = sid ∧ t.msg = some cid) := by
        intro t ht
        obtain ⟨u, hu, rfl⟩ := List.mem_map.mp ht
        by_cases hus : u.sid = sid
        · right; simp [hus]
        · left; simp [hus, hu]
      refine ⟨?_, hgr _ hg', ?_, ?_, ?_, ?_, ?_, hslt, hsnd, ?_, ?_, ?_⟩
      · simp only; rw [hk']; exact h.keys
      · simp only; rw [hi']; exact h.ids
      · simp only; rw [hi']; exact h.idLt
      · simp only
        have : (st.sessions.map (fun t => if t.sid = sid then { t with msg := some cid } else t)).map (·.sid) =
            st.sessions.map (·.sid) := by
          rw [List.map_map]
          apply List.map_congr_left
          intro t _
          simp only [Function.comp]
          split <;> rfl
        rw [this]
        exact h.sids
      · intro t ht
        rcases hcases t ht with ⟨h1, _⟩ | ⟨h1, _⟩
        · exact h.sidLt t h1
        · rw [h1]; exact hsid ▸ h.sidLt sess hsess
      · intro t ht c hc
        rcases hcases t ht with ⟨h1, _⟩ | ⟨_, h1⟩
        · exact h.curLt t h1 c hc
        · rw [h1] at hc; cases hc; exact h.idLt _ hmem
      · intro x; simp only; rw [hi']; exact hord x
      · intro t ht hm
        rcases hcases t ht with ⟨h1, h2⟩ | ⟨_, h1⟩
        · simp only; rw [sentIds_append, if_neg h2]; exact h.fresh t h1 hm
        · rw [h1] at hm; cases hm
      · intro t ht c hc
        simp only
        rw [hi']
        rcases hcases t ht with ⟨h1, h2⟩ | ⟨h2, h1⟩
        · rw [sentIds_append, if_neg h2]; exact h.cur t h1 c hc
        · rw [h1] at hc; cases hc
          rw [sentIds_append, if_pos h2, htw, h2]
          exact ⟨hadv.order, fun _ => hadv.all⟩
    · refine ⟨?_, hgr _ hg, ?_, ?_, hnds, ?_, ?_, hslt, hsnd, ?_, ?_, ?_⟩
      · simp only; rw [hk]; exact h.keys
      · simp only; rw [hi]; exact h.ids
      · simp only; rw [hi]; exact h.idLt
      · intro s hs; exact h.sidLt s (hsub s hs).1
      · intro s hs; exact h.curLt s (hsub s hs).1
      · intro x; simp only; rw [hi]; exact hord x
      · intro t ht hm
        have := hsub t ht
        simp only; rw [sentIds_append, if_neg this.2]; exact h.fresh t this.1 hm
      · intro t ht c hc
        have := hsub t ht
        simp only; rw [sentIds_append, if_neg this.2, hi]; exact h.cur t this.1 c hc

theorem inv_step {o : Opts} {st st' : Child} {op : ChildOp} (h : Inv st) (hs : childStep o st op = .ok st') :
    Inv st' := by
  cases op with
  | recv now r =>
    rcases childQueue_frame hs with ⟨rfl, _⟩ | ⟨t, subif, m, _, _, hq, h1, h2, h3⟩
    · exact h
    · have hput : Inv { st with queue := queuePut st.queue (entryOf st t r subif m), nextId := st.nextId + 1 } :=
        inv_put h (entryOf st t r subif m) rfl rfl rfl rfl rfl
      split at hq
      · exact inv_remove hput (by rw [hq]; exact List.filter_sublist) h1 h2 h3
      · exact inv_congr hput hq h1 h2 h3
  | expire now =>
    obtain ⟨hq, h1, h2, h3⟩ := childExpire_frame hs
    exact inv_remove h (by rw [hq]; exact List.filter_sublist) h1 h2 h3
  | fetch l => cases hs; exact inv_congr h rfl rfl rfl rfl
  | accept => cases hs; exact inv_accept h
  | write sid ws => exact inv_write h hs

theorem childRun_append (o : Opts) (st : Child) (a b : List ChildOp) :
    childRun o st (a ++ b) = (childRun o st a).bind (fun st => childRun o st b) := by
  induction a generalizing st with
  | nil => rfl
  | cons x a ih =>
    simp only [List.cons_append, childRun]
    cases childStep o st x with
    | ok s => simp only [Res.bind_ok]; exact ih s
    | fail => rfl
    | oob => rfl
    | abort => rfl
    | stuck => rfl

theorem inv_run {o : Opts} {ops : List ChildOp} : ∀ {st st' : Child}, Inv st → childRun o st ops = .ok st' → Inv st' := by
  induction ops with
  | nil => intro st st' h hr; cases hr; exact h
  | cons op ops ih =>
    intro st st' h hr
    rw [childRun] at hr
    cases hs : childStep o st op with
    | ok s => rw [hs] at hr; exact ih (inv_step h hs) hr
    | fail => rw [hs] at hr; cases hr
    | oob => rw [hs] at hr; cases hr
    | abort => rw [hs] at hr; cases hr
    | stuck => rw [hs] at hr; cases hr

end Ladvd
