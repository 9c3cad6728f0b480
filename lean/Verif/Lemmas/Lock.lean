import Verif.Lemmas.Session
/-!
# Lock counts

Correct only for calm histories, see `Calm`.
-/

namespace Ladvd

open Spec

/-- How many sessions hold an entry. -/
def holders (l : List Session) (id : Nat) : Nat := l.countP (fun s => decide (s.msg = some id))

structure LockInv (st : Child) : Prop where
  held : ∀ s ∈ st.sessions, ∀ c, s.msg = some c → c ∈ idsOf st.queue
  count : ∀ e ∈ st.queue, e.lock = holders st.sessions e.id
  few : st.sessions.length ≤ 255

theorem holders_le (l : List Session) (id : Nat) : holders l id ≤ l.length := List.countP_le_length

theorem holders_pos {l : List Session} {s : Session} {c : Nat} (hs : s ∈ l) (hc : s.msg = some c) :
    0 < holders l c := List.countP_pos_iff.mpr ⟨s, hs, by simpa using hc⟩

theorem holders_zero {l : List Session} {c : Nat} (h : ∀ s ∈ l, s.msg ≠ some c) : holders l c = 0 := by
  apply List.countP_eq_zero.mpr
  intro s hs
  simpa using h s hs

/-- Expiry keeps the entries in use. -/
theorem lock_filter {st st' : Child} (h : LockInv st) (now : Int) (hq : st'.queue = st.queue.filter (keeps now))
    (hs : st'.sessions = st.sessions) : LockInv st' := by
  refine ⟨?_, ?_, by rw [hs]; exact h.few⟩
  · intro s hsm c hc
    rw [hs] at hsm
    obtain ⟨e, he, hid⟩ := List.mem_map.mp (h.held s hsm c hc)
    refine List.mem_map.mpr ⟨e, ?_, hid⟩
    rw [hq, List.mem_filter]
    refine ⟨he, ?_⟩
    have h1 := h.count e he
    rw [hid] at h1
    have h2 := holders_pos hsm hc
    unfold keeps
    rw [Bool.or_eq_true]
    right
    simp only [decide_eq_true_iff]
    omega
  · intro e he
    rw [hq] at he
    rw [hs]
    exact h.count e (List.mem_filter.mp he).1

theorem lock_put {st st' : Child} (hi : Inv st) (h : LockInv st) (e : Entry) (hid : e.id = st.nextId)
    (hl : e.lock = 0) (hcalm : ∀ o ∈ st.queue, neighbour o = neighbour e → ∀ s ∈ st.sessions, s.msg ≠ some o.id)
    (hq : st'.queue = queuePut st.queue e) (hs : st'.sessions = st.sessions) : LockInv st' := by
  refine ⟨?_, ?_, by rw [hs]; exact h.few⟩
  · intro s hsm c hc
    rw [hs] at hsm
    have := h.held s hsm c hc
    rw [hq]
    rcases queuePut_cases st.queue e with ⟨l1, o, l2, h1, h2, _, h4⟩ | ⟨_, l1, l2, h1, h2, _, _⟩
    · rw [h4]; rw [h1] at this; simpa [idsOf] using this
    · rw [h2]; rw [h1] at this
      simp only [idsOf, List.map_append, List.map_cons, List.mem_append, List.mem_cons] at this ⊢
      rcases this with h | h
      · left; exact h
      · right; right; exact h
  · intro x hx
    rw [hs]
    rw [hq] at hx
    rcases queuePut_cases st.queue e with ⟨l1, o, l2, h1, h2, _, h4⟩ | ⟨_, l1, l2, h1, h2, _, _⟩
    · rw [h4] at hx
      rcases List.mem_append.mp hx with hx | hx
      · exact h.count x (by rw [h1]; simp [hx])
      · rcases List.mem_cons.mp hx with rfl | hx
        · simp only
          rw [hl]
          symm
          exact holders_zero (hcalm o (by rw [h1]; simp) h2)
        · exact h.count x (by rw [h1]; simp [hx])
    · rw [h2] at hx
      rcases List.mem_append.mp hx with hx | hx
      · exact h.count x (by rw [h1]; simp [hx])
      · rcases List.mem_cons.mp hx with rfl | hx
        · rw [hl]
          symm
          apply holders_zero
          intro s hs hc
          have := hi.curLt s hs _ hc
          omega
        · exact h.count x (by rw [h1]; simp [hx])

theorem lock_accept {st : Child} (h : LockInv st) (hf : st.sessions.length < 255) : LockInv (cliAccept st) := by
  refine ⟨?_, ?_, ?_⟩
  · intro s hs c hc
    rcases List.mem_append.mp hs with hs | hs
    · exact h.held s hs c hc
    · simp only [List.mem_singleton] at hs; subst hs; cases hc
  · intro e he
    rw [h.count e he]
    simp [cliAccept, holders]
  · simp only [cliAccept, List.length_append, List.length_singleton]
    omega

theorem setLock_mem {q : List Entry} {id : Nat} {f : Nat → Nat} {x : Entry} (hx : x ∈ setLock q id f) :
    ∃ e ∈ q, x.id = e.id ∧ x.lock = if e.id = id then f e.lock % 256 else e.lock := by
  obtain ⟨e, he, rfl⟩ := List.mem_map.mp hx
  refine ⟨e, he, ?_⟩
  split <;> simp_all

/-- The sessions around the one with a given address. -/
theorem sessions_split {st : Child} (hi : Inv st) {sess : Session} (hs : sess ∈ st.sessions) :
    ∃ l1 l2, st.sessions = l1 ++ sess :: l2 ∧ st.sessions.filter (fun s => s.sid != sess.sid) = l1 ++ l2 ∧
      ∀ c, st.sessions.map (fun t => if t.sid = sess.sid then { t with msg := c } else t) =
        l1 ++ { sess with msg := c } :: l2 := by
  obtain ⟨l1, l2, hl⟩ := List.append_of_mem hs
  have hn := hi.sids
  rw [hl] at hn
  simp only [List.map_append, List.map_cons] at hn
  obtain ⟨_, h2, h3⟩ := List.nodup_append.mp hn
  have d1 : ∀ s ∈ l1, s.sid ≠ sess.sid := fun s hs => h3 s.sid (List.mem_map.mpr ⟨s, hs, rfl⟩) sess.sid (by simp)
  have d2 : ∀ s ∈ l2, s.sid ≠ sess.sid := by
    intro s hs hc
    exact (List.nodup_cons.mp h2).1 (List.mem_map.mpr ⟨s, hs, hc⟩)
  refine ⟨l1, l2, hl, ?_, ?_⟩
  · rw [hl, List.filter_append, List.filter_cons, if_neg (by simp)]
    rw [List.filter_eq_self.mpr (by simpa using d1), List.filter_eq_self.mpr (by simpa using d2)]
  · intro c
    rw [hl, List.map_append, List.map_cons, if_pos rfl]
    have e1 : l1.map (fun t => if t.sid = sess.sid then { t with msg := c } else t) = l1 := by
      conv => rhs; rw [← List.map_id l1]
      apply List.map_congr_left
      intro t ht; rw [if_neg (d1 t ht)]; rfl
    have e2 : l2.map (fun t => if t.sid = sess.sid then { t with msg := c } else t) = l2 := by
      conv => rhs; rw [← List.map_id l2]
      apply List.map_congr_left
      intro t ht; rw [if_neg (d2 t ht)]; rfl
    rw [e1, e2]

theorem holders_cons (l1 l2 : List Session) (s : Session) (i : Nat) :
    holders (l1 ++ s :: l2) i = holders (l1 ++ l2) i + if s.msg = some i then 1 else 0 := by
  unfold holders
  rw [List.countP_append, List.countP_append, List.countP_cons]
  simp only [decide_eq_true_eq]
  omega

/-- The table after releasing the entry a session held. -/
theorem lock_release {st : Child} (hi : Inv st) (h : LockInv st) {sess : Session} (hs : sess ∈ st.sessions)
    {queue suffix : List Entry} (hst : cliStart st sess = .ok (queue, suffix)) :
    ∀ e ∈ queue, e.lock = holders (st.sessions.filter (fun s => s.sid != sess.sid)) e.id := by
  obtain ⟨l1, l2, hl, hf, _⟩ := sessions_split hi hs
  rw [hf]
  intro e he
  have hfew := h.few
  rcases cliStart_spec hst with ⟨hm, rfl, _⟩ | ⟨id, pre, hm, rfl, _⟩
  · rw [h.count e he, hl, holders_cons, hm]
    simp
  · obtain ⟨x, hx, hid, hlk⟩ := setLock_mem he
    have hc := h.count x hx
    rw [hl, holders_cons, hm] at hc
    rw [hlk, hid]
    have hle := holders_le (l1 ++ l2) x.id
    rw [hl] at hfew
    simp only [List.length_append, List.length_cons] at hfew hle
    by_cases hxi : x.id = id
    · rw [if_pos hxi, hc, if_pos (by rw [hxi])]
      omega
    · rw [if_neg hxi, hc, if_neg (by intro hh; cases hh; exact hxi rfl)]
      omega

theorem lock_write {sid : Nat} {ws : Option (List WriteRes)} {st st' : Child} (hi : Inv st) (h : LockInv st)
    (hcalm : ws = none → ∀ s ∈ st.sessions, s.sid = sid → s.msg = none)
    (hw : cliWrite sid ws st = .ok st') : LockInv st' := by
  rcases cliWrite_frame hw with ⟨rfl, _⟩ | ⟨sess, hsess, hsid, hh⟩
  · exact h
  subst hsid
  obtain ⟨l1, l2, hl, hf, hmap⟩ := sessions_split hi hsess
  have hfew := h.few
  rcases hh with ⟨rfl, rfl⟩ | ⟨wl, queue, suffix, rfl, hst, hh⟩
  · have hm := hcalm rfl sess hsess rfl
    refine ⟨?_, ?_, ?_⟩
    · intro s hs
      exact h.held s (List.mem_filter.mp hs).1
    · intro e he
      rw [h.count e he]
      simp only
      rw [hf, hl, holders_cons, hm]
      simp
    · simp only
      rw [hf]
      rw [hl] at hfew
      simp only [List.length_append, List.length_cons] at hfew ⊢
      omega
  · have hrel := lock_release hi h hsess hst
    have hids := (cliStart_ids hst).1
    rcases hh with ⟨c, hc, rfl⟩ | ⟨hc, rfl⟩
    · have hcm : c ∈ idsOf st.queue := by
        have hls := cliLoop_spec suffix wl
        rw [hc] at hls
        obtain ⟨pre, hpre, _⟩ := cliStart_progress hi hsess hst
        rw [hpre]
        apply List.mem_append_right
        obtain ⟨e, he, hid⟩ := Option.map_eq_some_iff.mp hls.2
        refine List.mem_map.mpr ⟨e, ?_, hid⟩
        exact List.mem_of_mem_drop (List.mem_of_mem_head? he)
      refine ⟨?_, ?_, ?_⟩
      · intro s hs i hsi
        simp only at hs ⊢
        rw [setLock_ids, hids]
        rw [hmap] at hs
        rcases List.mem_append.mp hs with hs | hs
        · exact h.held s (by rw [hl]; simp [hs]) i hsi
        · rcases List.mem_cons.mp hs with rfl | hs
          · simp only [Option.some.injEq] at hsi
            subst hsi
            exact hcm
          · exact h.held s (by rw [hl]; simp [hs]) i hsi
      · intro x hx
        simp only at hx ⊢
        obtain ⟨e, he, hid, hlk⟩ := setLock_mem hx
        have hr := hrel e he
        rw [hf] at hr
        rw [hmap, holders_cons, hlk, hid]
        have hle := holders_le (l1 ++ l2) e.id
        rw [hl] at hfew
        simp only [List.length_append, List.length_cons] at hfew hle
        by_cases hec : e.id = c
        · rw [if_pos hec, if_pos (by rw [hec]), hr]
          omega
        · rw [if_neg hec, if_neg (by intro hh; cases hh; exact hec rfl), hr]
          omega
      · simp only
        rw [List.length_map]
        exact h.few
    · refine ⟨?_, ?_, ?_⟩
      · intro s hs i hsi
        simp only
        rw [hids]
        exact h.held s (List.mem_filter.mp hs).1 i hsi
      · intro e he
        exact hrel e he
      · simp only
        rw [hf]
        rw [hl] at hfew
        simp only [List.length_append, List.length_cons] at hfew ⊢
        omega

theorem lock_no_oob {st : Child} (h : LockInv st) (sid : Nat) (ws : Option (List WriteRes)) :
    ∃ st', cliWrite sid ws st = .ok st' := by
  unfold cliWrite
  split
  · exact ⟨_, rfl⟩
  · next sess hf =>
    obtain ⟨hs, _⟩ := find_mem hf
    dsimp only
    split
    · exact ⟨_, rfl⟩
    · have : ∃ qs, cliStart st sess = .ok qs := by
        unfold cliStart
        split
        · exact ⟨_, rfl⟩
        · next id hm =>
          have hc := h.held sess hs id hm
          rw [← setLock_ids st.queue id (fun n => n + 255)] at hc
          obtain ⟨e, he, hid⟩ := List.mem_map.mp hc
          dsimp only
          split
          · next hd =>
            have ha := List.all_takeWhile (p := fun e : Entry => e.id != id)
              (l := setLock st.queue id (fun n => n + 255))
            have ht := List.takeWhile_append_dropWhile (p := fun e : Entry => e.id != id)
              (l := setLock st.queue id (fun n => n + 255))
            rw [hd, List.append_nil] at ht
            rw [ht] at ha
            have := List.all_eq_true.mp ha e he
            simp [hid] at this
          · exact ⟨_, rfl⟩
      obtain ⟨qs, hqs⟩ := this
      rw [hqs]
      obtain ⟨queue, suffix⟩ := qs
      simp only [Res.bind_ok]
      split <;> exact ⟨_, rfl⟩

end Ladvd
