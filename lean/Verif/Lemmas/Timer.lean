import Verif.Spec.Timer
import Verif.Lemmas.Network
/-!
# Lemmas: the periodic timer
-/

namespace Ladvd

open Spec

theorem timedStep_ok {c : Conf} {s s' : Timed} {t : Int} {e : Event} (h : timedStep c s t e = .ok s') :
    daemonStep c s.daemon e = .ok s'.daemon ∧ s'.due = if isTimeout e = true then some (t + 30) else s.due := by
  unfold timedStep at h
  cases hd : daemonStep c s.daemon e with
  | ok d =>
    rw [hd, Res.bind_ok] at h
    injection h with h
    subst h
    refine ⟨rfl, ?_⟩
    cases e <;> rfl
  | fail => rw [hd] at h; cases h
  | oob => rw [hd] at h; cases h
  | abort => rw [hd] at h; cases h
  | stuck => rw [hd] at h; cases h

theorem timedRun_cons {c : Conf} {t : Int} {e : Event} {h : List (Int × Event)} {s s' : Timed} (hr : timedRun c ((t, e) :: h) s = .ok s') :
    ∃ s1, timedStep c s t e = .ok s1 ∧ timedRun c h s1 = .ok s' := by
  rw [timedRun] at hr
  cases hs : timedStep c s t e with
  | ok s1 => rw [hs, Res.bind_ok] at hr; exact ⟨s1, rfl, hr⟩
  | fail => rw [hs] at hr; cases hr
  | oob => rw [hs] at hr; cases hr
  | abort => rw [hs] at hr; cases hr
  | stuck => rw [hs] at hr; cases hr

theorem timedRun_append {c : Conf} {h1 h2 : List (Int × Event)} {s s' : Timed} (hr : timedRun c (h1 ++ h2) s = .ok s') :
    ∃ s1, timedRun c h1 s = .ok s1 ∧ timedRun c h2 s1 = .ok s' := by
  induction h1 generalizing s with
  | nil => exact ⟨s, rfl, hr⟩
  | cons x h1 ih =>
    obtain ⟨t, e⟩ := x
    obtain ⟨sm, hm, hr⟩ := timedRun_cons hr
    obtain ⟨s1, h1', h2'⟩ := ih hr
    exact ⟨s1, by rw [timedRun, hm, Res.bind_ok]; exact h1', h2'⟩

theorem timedRun_join {c : Conf} {h1 h2 : List (Int × Event)} {s s1 s' : Timed} (hr : timedRun c h1 s = .ok s1) (hr2 : timedRun c h2 s1 = .ok s') :
    timedRun c (h1 ++ h2) s = .ok s' := by
  induction h1 generalizing s with
  | nil => cases hr; exact hr2
  | cons x h1 ih =>
    obtain ⟨t, e⟩ := x
    obtain ⟨sm, hm, hr⟩ := timedRun_cons hr
    rw [List.cons_append, timedRun, hm, Res.bind_ok]
    exact ih hr

theorem timedRun_daemon {c : Conf} {h : List (Int × Event)} {s s' : Timed} (hr : timedRun c h s = .ok s') :
    daemonRun c (h.map (·.2)) s.daemon = .ok s'.daemon := by
  induction h generalizing s with
  | nil => cases hr; rfl
  | cons x h ih =>
    obtain ⟨t, e⟩ := x
    obtain ⟨s1, h1, hr⟩ := timedRun_cons hr
    rw [List.map_cons, daemonRun, (timedStep_ok h1).1, Res.bind_ok]
    exact ih hr

theorem punctual_append {c : Conf} {late last : Int} {h1 h2 : List (Int × Event)} {s s1 : Timed} (hp : Punctual c late last (h1 ++ h2) s)
    (hr : timedRun c h1 s = .ok s1) : ∃ last', last ≤ last' ∧ (∀ x ∈ h1, x.1 ≤ last') ∧ Punctual c late last' h2 s1 := by
  induction h1 generalizing s last with
  | nil => cases hr; exact ⟨last, Int.le_refl _, (nofun), hp⟩
  | cons x h1 ih =>
    obtain ⟨t, e⟩ := x
    obtain ⟨sm, hm, hr⟩ := timedRun_cons hr
    obtain ⟨hle, -, -, -, hp⟩ := hp
    obtain ⟨last', h1', h2', h3'⟩ := ih (hp sm hm) hr
    refine ⟨last', by omega, ?_, h3'⟩
    intro x hx
    rcases List.mem_cons.mp hx with rfl | hx
    · exact h1'
    · exact h2' x hx

theorem punctual_reads {c : Conf} {late last : Int} {h : List (Int × Event)} {s s' : Timed} (hp : Punctual c late last h s)
    (hr : timedRun c h s = .ok s') : ∀ x ∈ h, last ≤ x.1 ∧ Reads x.1 x.2 := by
  induction h generalizing s last with
  | nil => intro x hx; cases hx
  | cons x h ih =>
    obtain ⟨t, e⟩ := x
    obtain ⟨sm, hm, hr⟩ := timedRun_cons hr
    obtain ⟨hle, hrd, -, -, hp⟩ := hp
    intro x hx
    rcases List.mem_cons.mp hx with rfl | hx
    · exact ⟨hle, hrd⟩
    · obtain ⟨a, b⟩ := ih (hp sm hm) hr x hx
      exact ⟨by omega, b⟩

/-- A round within a period after any moment. -/
theorem period {c : Conf} {late T a : Int} {h : List (Int × Event)} : ∀ {s s' : Timed} {last r : Int}, s.due = some (r + 30) →
    Punctual c late last h s → timedRun c h s = .ok s' → Current late T s' → r ≤ a → a + 30 + late < T →
    ∃ t ∈ roundTimes h, a < t ∧ t ≤ a + 30 + late := by
  induction h with
  | nil =>
    intro s s' last r hd hp hr hc hra hT
    cases hr
    have := hc (r + 30) (by rw [hd]; exact List.mem_singleton.mpr rfl)
    omega
  | cons x h ih =>
    obtain ⟨t, e⟩ := x
    intro s s' last r hd hp hr hc hra hT
    obtain ⟨s1, h1, hr⟩ := timedRun_cons hr
    obtain ⟨hle, hrd, h2, h3, hp⟩ := hp
    have h2 := h2 (r + 30) (by rw [hd]; exact List.mem_singleton.mpr rfl)
    have hdue := (timedStep_ok h1).2
    unfold roundTimes
    cases hi : isTimeout e with
    | true =>
      rw [if_pos hi] at hdue
      rw [List.filter_cons_of_pos (by exact hi), List.map_cons]
      by_cases hat : a < t
      · exact ⟨t, List.mem_cons_self, hat, by omega⟩
      · obtain ⟨t', ht', h'⟩ := ih hdue (hp s1 h1) hr hc (by omega) hT
        exact ⟨t', List.mem_cons_of_mem _ ht', h'⟩
    | false =>
      rw [if_neg (by rw [hi]; decide)] at hdue
      rw [List.filter_cons_of_neg (by rw [hi]; decide)]
      exact ih (hdue.trans hd) (hp s1 h1) hr hc hra hT

theorem spacing {c : Conf} {late : Int} {h : List (Int × Event)} : ∀ {s s' : Timed} {last r : Int}, s.due = some (r + 30) →
    Punctual c late last h s → timedRun c h s = .ok s' → (r :: roundTimes h).Pairwise (fun x y => x + 30 ≤ y) := by
  induction h with
  | nil => intros; exact List.pairwise_singleton _ _
  | cons x h ih =>
    obtain ⟨t, e⟩ := x
    intro s s' last r hd hp hr
    obtain ⟨s1, h1, hr⟩ := timedRun_cons hr
    obtain ⟨hle, hrd, h2, h3, hp⟩ := hp
    have hdue := (timedStep_ok h1).2
    unfold roundTimes
    cases hi : isTimeout e with
    | true =>
      have h3 := h3 hi (r + 30) (by rw [hd]; exact List.mem_singleton.mpr rfl)
      rw [if_pos hi] at hdue
      rw [List.filter_cons_of_pos (by exact hi), List.map_cons]
      have := ih hdue (hp s1 h1) hr
      refine List.pairwise_cons.mpr ⟨?_, this⟩
      intro y hy
      rcases List.mem_cons.mp hy with rfl | hy
      · exact h3
      · have := (List.pairwise_cons.mp this).1 y hy; omega
    | false =>
      rw [if_neg (by rw [hi]; decide)] at hdue
      rw [List.filter_cons_of_neg (by rw [hi]; decide)]
      exact ih (hdue.trans hd) (hp s1 h1) hr

theorem mem_roundTimes {t : Int} {h : List (Int × Event)} (ht : t ∈ roundTimes h) : ∃ pre k m now post, h = pre ++ (t, .timer k m now) :: post := by
  unfold roundTimes at ht
  obtain ⟨⟨t', e⟩, hx, rfl⟩ := List.mem_map.mp ht
  obtain ⟨hm, hi⟩ := List.mem_filter.mp hx
  obtain ⟨pre, post, rfl⟩ := List.append_of_mem hm
  cases e with
  | timer k m now => exact ⟨pre, k, m, now, post, rfl⟩
  | link => cases hi
  | recv => cases hi
  | accept => cases hi
  | write => cases hi

theorem sentAt_append {c : Conf} {h1 h2 : List (Int × Event)} {s s1 : Timed} (hr : timedRun c h1 s = .ok s1) :
    sentAt c (h1 ++ h2) s = sentAt c h1 s ++ sentAt c h2 s1 := by
  induction h1 generalizing s with
  | nil => cases hr; rfl
  | cons x h1 ih =>
    obtain ⟨t, e⟩ := x
    obtain ⟨sm, hm, hr⟩ := timedRun_cons hr
    rw [List.cons_append, sentAt, sentAt, hm]
    dsimp only
    rw [ih hr, List.append_assoc]

theorem mem_sentAt {c : Conf} {t : Int} {x : Tx} {h : List (Int × Event)} : ∀ {s s' : Timed}, timedRun c h s = .ok s' → (t, x) ∈ sentAt c h s →
    ∃ pre e post s1 s2, h = pre ++ (t, e) :: post ∧ timedRun c pre s = .ok s1 ∧ timedStep c s1 t e = .ok s2 ∧
      x ∈ s2.daemon.tx.drop s1.daemon.tx.length := by
  induction h with
  | nil => intro s s' _ hx; cases hx
  | cons y h ih =>
    obtain ⟨u, e⟩ := y
    intro s s' hr hx
    obtain ⟨sm, hm, hr⟩ := timedRun_cons hr
    rw [sentAt, hm] at hx
    dsimp only at hx
    rcases List.mem_append.mp hx with hx | hx
    · obtain ⟨z, hz, he⟩ := List.mem_map.mp hx
      injection he with h1 h2
      subst h1 h2
      exact ⟨[], e, h, s, sm, rfl, rfl, hm, hz⟩
    · obtain ⟨pre, e', post, s1, s2, rfl, h1, h2, h3⟩ := ih hr hx
      exact ⟨(u, e) :: pre, e', post, s1, s2, rfl, by rw [timedRun, hm, Res.bind_ok]; exact h1, h2, h3⟩

theorem sentAt_mid {c : Conf} {t : Int} {e : Event} {pre post : List (Int × Event)} {s s1 s2 : Timed} (h1 : timedRun c pre s = .ok s1)
    (h2 : timedStep c s1 t e = .ok s2) {x : Tx} (hx : x ∈ s2.daemon.tx.drop s1.daemon.tx.length) :
    (t, x) ∈ sentAt c (pre ++ (t, e) :: post) s := by
  rw [sentAt_append h1, sentAt, h2]
  dsimp only
  exact List.mem_append_right _ (List.mem_append_left _ (List.mem_map.mpr ⟨x, hx, rfl⟩))

/-! ## Entries of the table -/

theorem queuePut_same {q : List Entry} {e x : Entry} (hx : x ∈ queuePut q e) : x ∈ q ∨ ∃ i, x = { e with id := i } := by
  rcases queuePut_cases q e with ⟨l1, o, l2, h1, h2, _, h4⟩ | ⟨hn, l1, l2, h1, h2, _, _⟩
  · rw [h4] at hx
    rcases List.mem_append.mp hx with hx | hx
    · left; rw [h1]; simp [hx]
    · rcases List.mem_cons.mp hx with rfl | hx
      · exact .inr ⟨_, rfl⟩
      · left; rw [h1]; simp [hx]
  · rw [h2] at hx
    rcases List.mem_append.mp hx with hx | hx
    · left; rw [h1]; simp [hx]
    · rcases List.mem_cons.mp hx with rfl | hx
      · exact .inr ⟨_, rfl⟩
      · left; rw [h1]; simp [hx]

/-- What holds of all entries, and of every entry stored with a lifetime, continues to hold, if the clock is past zero. -/
theorem entries_alive {o : Opts} {op : ChildOp} {st st' : Child} {P : Entry → Prop}
    (hP : ∀ e i l, P e → P { e with id := i, lock := l })
    (hput : ∀ t r subif m, op = .recv (some t) r → Taken st t r subif m → m.ttl ≠ 0 → P (entryOf st t r subif m))
    (hzero : ∀ t r, op = .recv (some t) r → r.received < t)
    (hq : ∀ e ∈ st.queue, P e) (h : childStep o st op = .ok st') : ∀ e ∈ st'.queue, P e := by
  cases op with
  | recv now r =>
    rcases childQueue_frame h with ⟨rfl, _⟩ | ⟨t, subif, m, rfl, ht, e, _, _, e3⟩
    · exact hq
    · rw [e]
      split
      · next h0 =>
        intro x hx
        obtain ⟨hx, hk⟩ := List.mem_filter.mp hx
        rcases queuePut_same hx with hx | ⟨i, rfl⟩
        · exact hq x hx
        · exfalso
          have := hzero t r rfl
          unfold keeps entryOf at hk
          simp [h0] at hk
          omega
      · next h0 => exact queuePut_all hP hq (hput t r subif m rfl ht h0)
  | expire now =>
    obtain ⟨e, _, _, e3⟩ := childExpire_frame h
    rw [e]
    exact fun x hx => hq x (List.mem_filter.mp hx).1
  | fetch l => cases h; exact hq
  | accept => cases h; exact hq
  | write sid ws =>
    rcases cliWrite_frame h with ⟨rfl, -⟩ | ⟨sess, hse, -, ⟨-, rfl⟩ | ⟨wl, queue, suffix, -, hst, h⟩⟩
    · exact hq
    · exact hq
    · have hb : ∀ x ∈ queue, P x := by
        rcases cliStart_spec hst with ⟨_, e1, e2⟩ | ⟨id, pre, _, e1, e2, _⟩
        · rw [e1]; exact hq
        · rw [e1]; exact setLock_all hP hq _ _
      rcases h with ⟨x, -, rfl⟩ | ⟨-, rfl⟩
      · exact setLock_all hP hb _ _
      · exact hb

end Ladvd
