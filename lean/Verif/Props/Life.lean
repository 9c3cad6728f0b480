import Verif.Lemmas.Life
/-!
# C81: the two processes end together; C82: running once
-/

namespace Ladvd.Props

open Spec

/-- A process that has ended does not come back. -/
theorem parent_stays_step {cap : Nat} {recv once : Bool} {s s' : Life} {ev : LifeEv} (hp : s.parent.ended = true) (h : lifeStep cap recv once s ev = some s') :
    s'.parent = s.parent := by
  have hrun : s.parent ≠ .running := by intro hr; rw [hr] at hp; cases hp
  cases ev with
  | duo ev =>
    rcases life_duo h with ⟨d, hd, rfl, _⟩ | ⟨_, _, _, _, _, rfl⟩ | ⟨_, _, hr, _⟩
    · rfl
    · rfl
    · exact absurd hr hrun
  | enter => simp only [lifeStep] at h; split at h <;> (try split at h) <;> cases h <;> rfl
  | loop =>
    simp only [lifeStep] at h
    split at h
    · next hcc => simp only [Bool.and_eq_true, decide_eq_true_eq] at hcc; exact absurd hcc.1 hrun
    · cases h
  | sigChild g => cases h; exact (sendChild_frame recv s g).2.1
  | sigParent g => simp only [lifeStep, hp, if_true] at h; cases h; rfl
  | handleChild g => simp only [lifeStep] at h; split at h <;> cases h; rfl
  | handleParent g =>
    simp only [lifeStep] at h
    split at h
    · next hcc => simp only [Bool.and_eq_true, decide_eq_true_eq] at hcc; exact absurd hcc.1.1.1 hrun
    · cases h
  | fatalChild => simp only [lifeStep] at h; split at h <;> cases h; rfl
  | fatalParent =>
    simp only [lifeStep] at h
    split at h
    · next hr => exact absurd hr hrun
    · cases h

theorem parent_stays {cap : Nat} {recv once : Bool} {s s' : Life} (evs : List LifeEv) (hp : s.parent.ended = true) (h : lifeRun cap recv once s evs = some s') :
    s'.parent = s.parent :=
  life_induction (P := fun x => x.parent = s.parent) (Q := fun _ => True)
    (fun _ _ _ hx _ hs => (parent_stays_step (by rw [hx]; exact hp) hs).trans hx) evs s s' rfl (fun _ _ => trivial) h

/-! ## The unprivileged process ends first -/

/-- The steps the privileged process may still make. -/
def parentRest (s : Life) : Nat :=
  s.duo.up.length + (if s.duo.replying.isSome then 0 else if s.duo.receiving then (if s.duo.wire = [] then 2 else 0) else 1)

theorem parentRest_le (s : Life) : parentRest s ≤ s.duo.up.length + 2 := by
  unfold parentRest
  split
  · omega
  · split
    · split <;> omega
    · omega

theorem ended_step {cap : Nat} {recv once : Bool} {s s' : Life} {ev : LifeEv} (hi : LifeInv cap recv s) (hc : s.child.ended = true)
    (h : lifeStep cap recv once s ev = some s') :
    s'.child = s.child ∧ (s'.parent.ended = false → parentRest s' + (if ofParent ev then 1 else 0) ≤ parentRest s) := by
  have hrun : s.child ≠ .running := by intro hr; rw [hr] at hc; cases hc
  have hsend : ∀ g, s.sendChild recv g = s := by intro g; unfold Life.sendChild; rw [if_pos hc]
  have hquit : ∀ g, (s.quit recv g).child = s.child ∧ ((s.quit recv g).parent.ended = false → False) := by
    intro g; unfold Life.quit; rw [hsend]; exact ⟨rfl, nofun⟩
  cases ev with
  | duo ev =>
    rcases life_duo h with ⟨d, hd, rfl, ⟨f, rfl⟩ | ⟨_, hr, _⟩ | ⟨hna, hoc, _, _, hfr⟩⟩ | ⟨_, hr, _⟩ | ⟨_, _, _, _, rfl⟩
    · refine ⟨rfl, fun _ => ?_⟩
      cases hd
      unfold parentRest
      simp only [ofParent, Bool.false_eq_true, if_false]
      split
      · omega
      · split
        · split
          · next hw => exact absurd hw (by simp)
          · omega
        · omega
    · exact absurd hr hrun
    · refine ⟨rfl, fun _ => ?_⟩
      unfold parentRest
      have hf := hfr hc
      cases ev with
      | arrive f => exact absurd rfl (hna f)
      | start _ => cases hoc
      | take _ => cases hoc
      | act => cases hoc
      | answer => cases hoc
      | forward => exact absurd rfl hf.1
      | reply => exact absurd rfl hf.2
      | receive =>
        unfold duoStep at hd
        dsimp only at hd
        split at hd
        · next hcc =>
          cases hd
          simp only [Duo.parentIdle, Bool.and_eq_true, Bool.not_eq_true', Option.isNone_iff_eq_none, List.isEmpty_eq_false_iff] at hcc
          simp [ofParent, hcc.1.1, hcc.1.2, hcc.2]
        · cases hd
      | finish =>
        unfold duoStep at hd
        dsimp only at hd
        split at hd
        · next hcc =>
          cases hd
          simp only [Bool.and_eq_true, List.isEmpty_iff] at hcc
          simp [ofParent, hcc.1, hcc.2, hi.duo.busy hcc.1]
        · cases hd
      | serve =>
        unfold duoStep at hd
        dsimp only at hd
        split at hd
        · next hcc =>
          split at hd
          · cases hd
          · cases hd
            simp only [Duo.parentIdle, Bool.and_eq_true, Bool.not_eq_true', Option.isNone_iff_eq_none] at hcc
            simp [ofParent, hcc.1, hcc.2]
        · cases hd
      | transmit =>
        unfold duoStep at hd
        dsimp only at hd
        split at hd
        · split at hd
          · cases hd
          · next hu =>
            cases hd
            simp only [ofParent, hu, List.length_cons, if_true]
            omega
        · cases hd
    · exact absurd hr hrun
    · exact ⟨(hquit _).1, fun he => ((hquit _).2 he).elim⟩
  | enter =>
    simp only [lifeStep] at h
    split at h
    · next hcc => simp only [Bool.and_eq_true, decide_eq_true_eq] at hcc; exact absurd hcc.1.1 hrun
    · cases h
  | loop =>
    simp only [lifeStep] at h
    split at h
    · cases h
      exact ⟨rfl, nofun⟩
    · cases h
  | sigChild g =>
    cases h
    rw [hsend]
    exact ⟨rfl, fun _ => Nat.le_refl _⟩
  | sigParent g =>
    have hsame : ∀ (p : ProcState) (l : List Sig), parentRest { s with parent := p, parentSigs := l } = parentRest s := fun _ _ => rfl
    simp only [lifeStep] at h
    split at h
    · cases h; exact ⟨rfl, fun _ => Nat.le_refl _⟩
    · cases g <;> dsimp only at h <;> (try split at h) <;> cases h <;> exact ⟨rfl, fun _ => Nat.le_refl _⟩
  | handleChild g =>
    simp only [lifeStep] at h
    split at h
    · next hcc => simp only [Bool.and_eq_true, decide_eq_true_eq] at hcc; exact absurd hcc.1.1.1.1 hrun
    · cases h
  | handleParent g =>
    simp only [lifeStep] at h
    split at h
    · cases h; exact ⟨(hquit _).1, fun he => ((hquit _).2 he).elim⟩
    · cases h
  | fatalChild =>
    simp only [lifeStep] at h
    split at h
    · next hr => exact absurd hr hrun
    · cases h
  | fatalParent =>
    simp only [lifeStep] at h
    split at h
    · cases h; exact ⟨(hquit _).1, fun he => ((hquit _).2 he).elim⟩
    · cases h

theorem ended_run {cap : Nat} {recv once : Bool} : ∀ (evs : List LifeEv) (s s' : Life), LifeInv cap recv s → s.child.ended = true →
    lifeRun cap recv once s evs = some s' → s'.parent.ended = false → parentRest s' + (evs.filter ofParent).length ≤ parentRest s
  | [], s, s', _, _, h, _ => by cases h; exact Nat.le_refl _
  | ev :: evs, s, s', hi, hc, h, hp => by
    unfold lifeRun at h
    cases hs : lifeStep cap recv once s ev with
    | none => rw [hs] at h; cases h
    | some t =>
      rw [hs] at h
      have h : lifeRun cap recv once t evs = some s' := h
      obtain ⟨h1, h2⟩ := ended_step hi hc hs
      have ht : t.parent.ended = false := by
        cases hte : t.parent.ended with
        | false => rfl
        | true => rw [parent_stays evs hte h] at hp; rw [hte] at hp; exact hp
      have := ended_run evs t s' (life_inv hi hs) (by rw [h1]; exact hc) h hp
      have h2 := h2 ht
      rw [List.filter_cons]
      split
      · next he => rw [if_pos he] at h2; rw [List.length_cons]; omega
      · next he => rw [if_neg he] at h2; omega

/-- **C81**: when the unprivileged process has ended, for whatever reason, the privileged one is never blocked; it makes at most two steps more than there are packets left
to send, whatever else happens, and ends (unless it is stopped or killed itself).  When it does so in its event loop the control socket is removed. -/
theorem C81_parent_follows (cap : Nat) (recv once : Bool) (s : Life) (hs : LifeReach cap recv once s) (hc : s.child.ended = true) :
    (s.parent = .running → ∃ ev s', ofParent ev = true ∧ lifeStep cap recv once s ev = some s') ∧
    ∀ (evs : List LifeEv) (s' : Life), lifeRun cap recv once s evs = some s' → s'.parent.ended = false →
      (evs.filter ofParent).length ≤ s.duo.up.length + 2 := by
  have hi := reach_inv hs
  refine ⟨fun hp => ?_, fun evs s' h he => ?_⟩
  · cases hr : s.ready with
    | false => exact ⟨.loop, _, rfl, by simp [lifeStep, hp, hr, hc]; rfl⟩
    | true =>
      have hm := hi.told hc hr (by rw [hp]; rfl)
      cases hrp : s.duo.replying with
      | some r => exact ⟨.duo .reply, _, rfl, by simp [lifeStep, DuoEv.ofChild, hp, hr, hc, hrp]; rfl⟩
      | none =>
        cases hrc : s.duo.receiving with
        | false =>
          exact ⟨.handleParent .chld, _, rfl, by simp [lifeStep, hp, hr, Duo.parentIdle, hrp, hrc, hm]; rfl⟩
        | true =>
          cases hw : s.duo.wire with
          | nil => exact ⟨.duo .finish, _, rfl, by simp [lifeStep, DuoEv.ofChild, hp, hr, duoStep, hrc, hw]; rfl⟩
          | cons f w => exact ⟨.duo .forward, _, rfl, by simp [lifeStep, DuoEv.ofChild, hp, hr, hc, hrc, hw]; rfl⟩
  · have := ended_run evs s s' hi hc h he
    have := parentRest_le s
    omega

/-! ## The privileged process ends first -/

/-- The steps the unprivileged process may still make. -/
def childRest (s : Life) : Nat := s.duo.down.length + s.duo.rep.length + (if s.entered then 0 else 1)

/-- One step after the end of the privileged process. -/
theorem alone_step {cap : Nat} {recv once : Bool} {s s' : Life} {ev : LifeEv} (hp : s.parent.ended = true) (h : lifeStep cap recv once s ev = some s') :
    (s'.child.ended = false → childRest s' + (if ofChildItself ev then 1 else 0) ≤ childRest s) ∧ s'.duo.sent = s.duo.sent ∧
    s'.duo.transmitted = s.duo.transmitted ∧ s'.duo.handled.length + s'.duo.down.length = s.duo.handled.length + s.duo.down.length ∧
    (s'.duo.asking = s.duo.asking ∧ s'.duo.rep = s.duo.rep ∨ s.duo.rep ≠ [] ∧ s'.duo.asking = none) := by
  have hrun : s.parent ≠ .running := by intro hr; rw [hr] at hp; cases hp
  cases ev with
  | duo ev =>
    rcases life_duo h with ⟨d, hd, rfl, ⟨f, rfl⟩ | ⟨hoc, hr, hact, hent⟩ | ⟨_, _, hr, _⟩⟩ | ⟨rfl, _, _, _, _, rfl⟩ | ⟨_, _, hr, _⟩
    · cases hd
      exact ⟨fun _ => Nat.le_refl _, rfl, rfl, rfl, .inl ⟨rfl, rfl⟩⟩
    · cases ev with
      | act => rw [hp] at hact; cases hact rfl
      | start acts =>
        unfold duoStep at hd
        dsimp only at hd
        split at hd <;> cases hd
        exact ⟨fun _ => Nat.le_refl _, rfl, rfl, rfl, .inl ⟨rfl, rfl⟩⟩
      | take acts =>
        unfold duoStep at hd
        dsimp only at hd
        split at hd
        · split at hd
          · cases hd
          · next hdn =>
            cases hd
            refine ⟨fun _ => ?_, rfl, rfl, ?_, .inl ⟨rfl, rfl⟩⟩
            · unfold childRest
              simp only [ofChildItself, hdn, List.length_cons, if_true]
              omega
            · simp only [hdn, List.length_append, List.length_cons, List.length_nil]; omega
        · cases hd
      | answer =>
        unfold duoStep at hd
        dsimp only at hd
        split at hd
        · next r x rest ha hrp =>
          cases hd
          refine ⟨fun _ => ?_, rfl, rfl, rfl, .inr ⟨by rw [hrp]; exact List.cons_ne_nil _ _, rfl⟩⟩
          unfold childRest
          simp only [ofChildItself, hrp, List.length_cons, if_true]
          omega
        · cases hd
      | _ => cases hoc
    · exact absurd hr hrun
    · exact ⟨nofun, rfl, rfl, rfl, .inl ⟨rfl, rfl⟩⟩
    · exact absurd hr hrun
  | enter =>
    simp only [lifeStep] at h
    split at h
    · next hcc =>
      simp only [Bool.and_eq_true, Bool.not_eq_true'] at hcc
      split at h <;> cases h
      · exact ⟨nofun, rfl, rfl, rfl, .inl ⟨rfl, rfl⟩⟩
      · refine ⟨fun _ => ?_, rfl, rfl, rfl, .inl ⟨rfl, rfl⟩⟩
        simp [childRest, ofChildItself, hcc.1.2]
    · cases h
  | loop =>
    simp only [lifeStep] at h
    split at h
    · next hcc => simp only [Bool.and_eq_true, decide_eq_true_eq] at hcc; exact absurd hcc.1 hrun
    · cases h
  | sigChild g =>
    cases h
    obtain ⟨h1, h2, h3, _⟩ := sendChild_frame recv s g
    refine ⟨fun _ => ?_, by rw [h1], by rw [h1], by rw [h1], .inl ⟨by rw [h1], by rw [h1]⟩⟩
    unfold childRest
    rw [h1, h3]
    exact Nat.le_refl _
  | sigParent g => simp only [lifeStep, hp, if_true] at h; cases h; exact ⟨fun _ => Nat.le_refl _, rfl, rfl, rfl, .inl ⟨rfl, rfl⟩⟩
  | handleChild g =>
    simp only [lifeStep] at h
    split at h <;> cases h
    exact ⟨nofun, rfl, rfl, rfl, .inl ⟨rfl, rfl⟩⟩
  | handleParent g =>
    simp only [lifeStep] at h
    split at h
    · next hcc => simp only [Bool.and_eq_true, decide_eq_true_eq] at hcc; exact absurd hcc.1.1.1 hrun
    · cases h
  | fatalChild =>
    simp only [lifeStep] at h
    split at h <;> cases h
    exact ⟨nofun, rfl, rfl, rfl, .inl ⟨rfl, rfl⟩⟩
  | fatalParent =>
    simp only [lifeStep] at h
    split at h
    · next hr => exact absurd hr hrun
    · cases h

theorem child_stays_step {cap : Nat} {recv once : Bool} {s s' : Life} {ev : LifeEv} (hc : s.child.ended = true) (h : lifeStep cap recv once s ev = some s')
    (hi : LifeInv cap recv s) : s'.child = s.child := (ended_step hi hc h).1

theorem alone_run {cap : Nat} {recv once : Bool} : ∀ (evs : List LifeEv) (s s' : Life), LifeInv cap recv s → s.parent.ended = true →
    lifeRun cap recv once s evs = some s' → s'.child.ended = false → childRest s' + (evs.filter ofChildItself).length ≤ childRest s
  | [], s, s', _, _, h, _ => by cases h; exact Nat.le_refl _
  | ev :: evs, s, s', hi, hp, h, hc => by
    unfold lifeRun at h
    cases hs : lifeStep cap recv once s ev with
    | none => rw [hs] at h; cases h
    | some t =>
      rw [hs] at h
      have h : lifeRun cap recv once t evs = some s' := h
      have hti := life_inv hi hs
      have ht : t.child.ended = false := by
        cases hte : t.child.ended with
        | false => rfl
        | true =>
          have : s'.child = t.child := (life_induction (P := fun x => x.child = t.child ∧ LifeInv cap recv x) (Q := fun _ => True)
            (fun _ _ _ hx _ hs => ⟨(child_stays_step (by rw [hx.1]; exact hte) hs hx.2).trans hx.1, life_inv hx.2 hs⟩) evs t s' ⟨rfl, hti⟩ (fun _ _ => trivial) h).1
          rw [this, hte] at hc
          exact hc
      have := alone_run evs t s' hti (by rw [parent_stays_step hp hs]; exact hp) h hc
      have h2 := (alone_step hp hs).1 ht
      rw [List.filter_cons]
      split
      · next he => rw [if_pos he] at h2; rw [List.length_cons]; omega
      · next he => rw [if_neg he] at h2; omega

/-- **C81**: when the privileged process has ended, for whatever reason, nothing is sent any more, and the other process makes only a bounded number of steps by itself before it
ends: it reads what has been sent to it and exits as soon as it has something to write. -/
theorem C81_child_follows (cap : Nat) (recv once : Bool) (s : Life) (hs : LifeReach cap recv once s) (hp : s.parent.ended = true) (evs : List LifeEv) (s' : Life)
    (h : lifeRun cap recv once s evs = some s') :
    s'.duo.sent = s.duo.sent ∧ s'.duo.transmitted = s.duo.transmitted ∧
      (s'.child.ended = false → (evs.filter ofChildItself).length ≤ s.duo.down.length + s.duo.rep.length + 1) := by
  have hk := life_induction (P := fun x => x.parent.ended = true ∧ x.duo.sent = s.duo.sent ∧ x.duo.transmitted = s.duo.transmitted) (Q := fun _ => True)
    (fun x y _ hx _ hs => by
      have := alone_step hx.1 hs
      exact ⟨by rw [parent_stays_step hx.1 hs]; exact hx.1, this.2.1.trans hx.2.1, this.2.2.1.trans hx.2.2⟩) evs s s' ⟨hp, rfl, rfl⟩ (fun _ _ => trivial) h
  refine ⟨hk.2.1, hk.2.2, fun hc => ?_⟩
  have := alone_run evs s s' (reach_inv hs) hp h hc
  unfold childRest at this
  split at this <;> split at this <;> omega

/-- Signals noted are kept as long as the process is there. -/
theorem told_step {cap : Nat} {recv once : Bool} {s s' : Life} {ev : LifeEv} (ht : EndWanted s) (h : lifeStep cap recv once s ev = some s') : EndWanted s' := by
  obtain ⟨g0, hg0, hw⟩ := ht
  have hturn : ∀ (x : Life) p, x.childSigs = s.childSigs → EndWanted (x.childTurns p) := fun x p hx => ⟨g0, by show g0 ∈ x.childSigs; rw [hx]; exact hg0, hw⟩
  have hsend : ∀ g, EndWanted (s.sendChild recv g) := by
    intro g
    unfold Life.sendChild
    split
    · exact ⟨g0, hg0, hw⟩
    · cases g <;> dsimp only <;> (repeat' split) <;>
        first | exact hturn _ _ rfl | exact ⟨g0, hg0, hw⟩ | exact ⟨g0, List.mem_append_left _ hg0, hw⟩
  have hquit : ∀ g, EndWanted (s.quit recv g) := by
    intro g
    obtain ⟨a, ha, hb⟩ := hsend g
    exact ⟨a, ha, hb⟩
  cases ev with
  | duo ev =>
    rcases life_duo h with ⟨d, hd, rfl, _⟩ | ⟨_, _, _, _, _, rfl⟩ | ⟨_, _, _, _, rfl⟩
    · exact ⟨g0, hg0, hw⟩
    · exact ⟨g0, hg0, hw⟩
    · exact hquit _
  | enter => simp only [lifeStep] at h; split at h <;> (try split at h) <;> cases h <;> exact ⟨g0, hg0, hw⟩
  | loop => simp only [lifeStep] at h; split at h <;> (try split at h) <;> cases h <;> exact ⟨g0, hg0, hw⟩
  | sigChild g => cases h; exact hsend g
  | sigParent g =>
    simp only [lifeStep] at h
    split at h
    · cases h; exact ⟨g0, hg0, hw⟩
    · cases g <;> dsimp only at h <;> (try split at h) <;> cases h <;> exact ⟨g0, hg0, hw⟩
  | handleChild g => simp only [lifeStep] at h; split at h <;> cases h; exact ⟨g0, hg0, hw⟩
  | handleParent g => simp only [lifeStep] at h; split at h <;> cases h; exact hquit _
  | fatalChild => simp only [lifeStep] at h; split at h <;> cases h; exact ⟨g0, hg0, hw⟩
  | fatalParent => simp only [lifeStep] at h; split at h <;> cases h; exact hquit _

/-- A signal to end the unprivileged process ends it or is noted. -/
theorem sendChild_told (recv : Bool) (s : Life) (g : Sig) (hg : g = .int ∨ g = .term) : (s.sendChild recv g).child.ended = true ∨ EndWanted (s.sendChild recv g) := by
  unfold Life.sendChild
  split
  · next h => exact .inl h
  · rcases hg with rfl | rfl <;> dsimp only <;> (repeat' split) <;>
      first | exact .inl rfl | exact .inr ⟨_, List.mem_append_right _ (List.mem_singleton.mpr rfl), .inl rfl⟩ |
        exact .inr ⟨_, List.mem_append_right _ (List.mem_singleton.mpr rfl), .inr rfl⟩

/-- **C81**: a signal to end or a fatal error ends the privileged process with the control socket removed, and the other process has ended, or been sent a signal to end. -/
theorem C81_quits (cap : Nat) (recv once : Bool) (s s' : Life) (ev : LifeEv) (hev : (∃ g, (g = .int ∨ g = .term) ∧ ev = .handleParent g) ∨ ev = .fatalParent)
    (h : lifeStep cap recv once s ev = some s') : s'.parent = .exited 0 ∧ s'.sock = false ∧ (s'.child.ended = true ∨ EndWanted s') := by
  have key : ∀ g, (g = .int ∨ g = .term) → (s.quit recv g).parent = .exited 0 ∧ (s.quit recv g).sock = false ∧ ((s.quit recv g).child.ended = true ∨ EndWanted (s.quit recv g)) :=
    fun g hg => ⟨rfl, rfl, sendChild_told recv s g hg⟩
  rcases hev with ⟨g, hg, rfl⟩ | rfl
  · simp only [lifeStep] at h
    split at h
    · cases h; exact key g hg
    · cases h
  · simp only [lifeStep] at h
    split at h
    · cases h; exact key _ (.inr rfl)
    · cases h

/-- **C81** (partly): when the privileged process has ended and the other one was told to, that one is never blocked, and so ends by `C81_child_follows`, unless it is waiting for a
reply that was not sent.  Missing: that case, in which it does not end (`C81_orphan`). -/
theorem C81_both_partial (cap : Nat) (recv once : Bool) (s : Life) (hs : LifeReach cap recv once s) (hp : s.parent.ended = true) (ht : EndWanted s) (hn : ¬ Orphaned s)
    (evs : List LifeEv) (s' : Life) (h : lifeRun cap recv once s evs = some s') (hr : s'.child = .running) :
    ∃ ev s'', ofChildItself ev = true ∧ lifeStep cap recv once s' ev = some s'' := by
  have hk := life_induction (P := fun x => x.parent.ended = true ∧ EndWanted x ∧ LifeInv cap recv x ∧ (x.child.ended = true ∨ x.duo.asking = none ∨ x.duo.rep ≠ [])) (Q := fun _ => True)
    (fun x y ev hx _ hs => by
      refine ⟨by rw [parent_stays_step hx.1 hs]; exact hx.1, told_step hx.2.1 hs, life_inv hx.2.2.1 hs, ?_⟩
      rcases hx.2.2.2 with hc | ha
      · exact .inl (by rw [child_stays_step hc hs hx.2.2.1]; exact hc)
      · rcases (alone_step hx.1 hs).2.2.2.2 with ⟨h1, h2⟩ | ⟨_, h2⟩
        · rw [h1, h2]; exact .inr ha
        · exact .inr (.inl h2)) evs s s'
    ⟨hp, ht, reach_inv hs, by
      cases hc : s.child.ended with
      | true => exact .inl rfl
      | false =>
        cases ha : s.duo.asking with
        | none => exact .inr (.inl rfl)
        | some r => exact .inr (.inr fun hrep => hn ⟨hp, hc, by rw [ha]; rfl, hrep⟩)⟩ (fun _ _ => trivial) h
  obtain ⟨hp, ⟨g, hg, hw⟩, hi, hcase⟩ := hk
  have hent := hi.noted hr (List.ne_nil_of_mem hg)
  have hin : s'.childSigs.contains g = true := List.contains_iff_mem.mpr hg
  cases ha : s'.duo.asking with
  | none =>
    cases htd : s'.duo.todo with
    | nil => exact ⟨.handleChild g, _, rfl, by simp only [lifeStep, hr, hent.1, hent.2, Duo.childIdle, ha, htd, hin]; rfl⟩
    | cons a l => exact ⟨.duo .act, _, rfl, by simp only [lifeStep, DuoEv.ofChild, hr, hp, ha, htd]; rfl⟩
  | some r =>
    rcases hcase with hc | hc | hc
    · rw [hr] at hc; cases hc
    · rw [ha] at hc; cases hc
    · obtain ⟨x, l, hl⟩ := List.exists_cons_of_ne_nil hc
      exact ⟨.duo .answer, _, rfl, by simp only [lifeStep, DuoEv.ofChild, hr, duoStep, ha, hl]; rfl⟩

/-! ## Processes that do not end -/

/-- A signal for which there is a handler. -/
theorem gentle_child {s : Life} {recv : Bool} (hr : recv = true) (he : s.entered = true) (hc : s.child.ended = false) (hh : .hup ∉ s.childSigs) (g : Sig)
    (hg : g ≠ .kill ∧ g ≠ .hup ∧ g ≠ .stop) : (s.sendChild recv g).child.ended = false ∧ .hup ∉ (s.sendChild recv g).childSigs := by
  subst hr
  unfold Life.sendChild
  rw [if_neg (by rw [hc]; nofun)]
  have happ : ∀ g : Sig, g ≠ .hup → Sig.hup ∉ s.childSigs ++ [g] := by
    intro g hg hm
    rcases List.mem_append.mp hm with hm | hm
    · exact hh hm
    · exact hg (List.mem_singleton.mp hm).symm
  cases g with
  | kill => exact absurd rfl hg.1
  | hup => exact absurd rfl hg.2.1
  | stop => exact absurd rfl hg.2.2
  | chld => exact ⟨hc, hh⟩
  | cont =>
    dsimp only
    split
    · split
      · next hany =>
        exfalso
        simp only [he, Bool.and_self, Bool.not_true, Bool.or_false, List.any_eq_true, beq_iff_eq] at hany
        obtain ⟨x, hx, rfl⟩ := hany
        exact hh hx
      · exact ⟨rfl, hh⟩
    · exact ⟨hc, hh⟩
  | int =>
    dsimp only
    split
    · exact ⟨hc, happ _ nofun⟩
    · rw [he]; exact ⟨hc, happ _ nofun⟩
  | term =>
    dsimp only
    split
    · exact ⟨hc, happ _ nofun⟩
    · rw [he]; exact ⟨hc, happ _ nofun⟩

/-- **C81** fails: with `-r`, when the privileged process ends before it has replied to a request, the other process waits for the reply for ever; `SIGINT` and `SIGTERM` do
not end it. -/
theorem C81_orphan (cap : Nat) (once : Bool) (s : Life) (ho : Orphaned s) (he : s.entered = true) (hh : .hup ∉ s.childSigs) (evs : List LifeEv) (hg : ∀ ev ∈ evs, Gentle ev)
    (s' : Life) (h : lifeRun cap true once s evs = some s') : Orphaned s' ∧ s'.duo.handled = s.duo.handled := by
  have := life_induction (P := fun x => Orphaned x ∧ x.entered = true ∧ .hup ∉ x.childSigs ∧ x.duo.handled = s.duo.handled) (Q := Gentle)
    (fun x y ev hx hq hs => by
      obtain ⟨⟨o1, o2, o3, o4⟩, e, hh, hd⟩ := hx
      have hrun : x.parent ≠ .running := by intro hr; rw [hr] at o1; cases o1
      obtain ⟨r, ha⟩ := Option.isSome_iff_exists.mp o3
      have hidle : x.duo.childIdle = false := by simp [Duo.childIdle, ha]
      cases ev with
      | duo ev =>
        rcases life_duo hs with ⟨d, hd', rfl, ⟨f, rfl⟩ | ⟨hoc, _⟩ | ⟨_, _, hr, _⟩⟩ | ⟨_, _, _, hna, _⟩ | ⟨_, _, hr, _⟩
        · cases hd'; exact ⟨⟨o1, o2, o3, o4⟩, e, hh, hd⟩
        · exfalso
          cases ev with
          | start _ => simp [duoStep, hidle] at hd'
          | take _ => simp [duoStep, hidle] at hd'
          | act => simp [duoStep, ha] at hd'
          | answer => simp [duoStep, ha, o4] at hd'
          | _ => cases hoc
        · exact absurd hr hrun
        · rw [ha] at hna; cases hna
        · exact absurd hr hrun
      | enter => simp only [lifeStep, hidle, Bool.and_false] at hs; cases hs
      | loop =>
        simp only [lifeStep] at hs
        split at hs
        · next hcc => simp only [Bool.and_eq_true, decide_eq_true_eq] at hcc; exact absurd hcc.1 hrun
        · cases hs
      | sigChild g =>
        cases hs
        obtain ⟨f1, f2, f3, _⟩ := sendChild_frame true x g
        obtain ⟨k1, k2⟩ := gentle_child rfl e o2 hh g hq
        exact ⟨⟨by rw [f2]; exact o1, k1, by rw [f1]; exact o3, by rw [f1]; exact o4⟩, by rw [f3]; exact e, k2, by rw [f1]; exact hd⟩
      | sigParent g => simp only [lifeStep, o1, if_true] at hs; cases hs; exact ⟨⟨o1, o2, o3, o4⟩, e, hh, hd⟩
      | handleChild g => simp only [lifeStep, hidle, Bool.and_false, Bool.false_and] at hs; cases hs
      | handleParent g =>
        simp only [lifeStep] at hs
        split at hs
        · next hcc => simp only [Bool.and_eq_true, decide_eq_true_eq] at hcc; exact absurd hcc.1.1.1 hrun
        · cases hs
      | fatalChild => exact hq.elim
      | fatalParent => exact hq.elim) evs s s' ⟨ho, he, hh, rfl⟩ hg h
  exact ⟨this.1, this.2.2.2⟩

/-- And this is what an ordinary `SIGTERM` to the daemon leads to if it arrives while a request is under way. -/
theorem C81_orphaned (cap : Nat) (hc : 0 < cap) : ∃ s, lifeRun cap true false (lifeStart []) [.enter, .loop, .duo (.start [.request 7]), .duo .act, .sigParent .term,
    .handleParent .term] = some s ∧ Orphaned s ∧ s.entered = true ∧ .hup ∉ s.childSigs ∧ s.parent = .exited 0 := by
  refine ⟨_, by simp [lifeRun, lifeStep, lifeStart, duoStep, Duo.childIdle, Duo.parentIdle, DuoEv.ofChild, ProcState.ended, hc]; rfl, ?_⟩
  exact ⟨⟨rfl, rfl, rfl, rfl⟩, rfl, by decide, rfl⟩

/-- **C81** fails when the processes wait for each other (`C75_deadlock`): `SIGINT` and `SIGTERM` end neither of them then. -/
theorem C81_deaf (cap : Nat) (once : Bool) (s : Life) (hs : LifeReach cap true once s) (hd : Deadlock cap s.duo) (hc : s.child.ended = false) (hp : s.parent.ended = false)
    (hr : s.ready = true) (he : s.entered = true) (hh : .hup ∉ s.childSigs) (evs : List LifeEv) (hg : ∀ ev ∈ evs, Gentle ev) (s' : Life)
    (h : lifeRun cap true once s evs = some s') : s'.child.ended = false ∧ s'.parent.ended = false := by
  have := life_induction (P := fun x => DuoDead cap x.duo ∧ x.child.ended = false ∧ x.parent.ended = false ∧ x.ready = true ∧ x.entered = true ∧ .hup ∉ x.childSigs) (Q := Gentle)
    (fun x y ev hx hq hs => by
      obtain ⟨hd, hc, hp, hr, he, hh⟩ := hx
      have hci : x.duo.childIdle = false := by
        rcases hd.dead.2.2.2 with ⟨ha, _⟩ | ⟨_, _, m, acts, ht⟩
        · obtain ⟨r, ha⟩ := Option.isSome_iff_exists.mp ha
          simp [Duo.childIdle, ha]
        · simp [Duo.childIdle, ht]
      have hpi : x.duo.parentIdle = false := by simp [Duo.parentIdle, hd.dead.1]
      cases ev with
      | duo ev =>
        rcases life_duo hs with ⟨d, hd', rfl, _⟩ | ⟨_, _, hpe, _⟩ | ⟨_, hce, _⟩
        · exact ⟨(duoDead_step hd hd').1, hc, hp, hr, he, hh⟩
        · rw [hp] at hpe; cases hpe
        · rw [hc] at hce; cases hce
      | enter => simp only [lifeStep, hci, Bool.and_false] at hs; cases hs
      | loop => simp only [lifeStep, hr, Bool.not_true, Bool.and_false] at hs; cases hs
      | sigChild g =>
        cases hs
        obtain ⟨f1, f2, f3, f4, _⟩ := sendChild_frame true x g
        obtain ⟨k1, k2⟩ := gentle_child rfl he hc hh g hq
        exact ⟨by rw [f1]; exact hd, k1, by rw [f2]; exact hp, by rw [f4]; exact hr, by rw [f3]; exact he, k2⟩
      | sigParent g =>
        simp only [lifeStep, hp, Bool.false_eq_true, if_false, hr, if_true] at hs
        cases g with
        | kill => exact absurd rfl hq.1
        | stop => exact absurd rfl hq.2
        | _ => cases hs; exact ⟨hd, hc, by first | exact hp | rfl, by first | exact hr | rfl, he, hh⟩
      | handleChild g => simp only [lifeStep, hci, Bool.and_false, Bool.false_and] at hs; cases hs
      | handleParent g => simp only [lifeStep, hpi, Bool.and_false, Bool.false_and] at hs; cases hs
      | fatalChild => exact hq.elim
      | fatalParent => exact hq.elim) evs s s' ⟨⟨hd, (reach_inv hs).duo.busy hd.1⟩, hc, hp, hr, he, hh⟩ hg h
  exact ⟨this.2.1, this.2.2.1⟩

/-- **C81** fails when the unprivileged process is stopped: the privileged one takes this for its end and quits, and the stopped one, which was not told anything, goes on
when it is continued. -/
theorem C81_stopped (cap : Nat) (recv once : Bool) (s : Life) (hs : LifeReach cap recv once s) (hc : s.child = .running) (hp : s.parent = .running) (hr : s.ready = true)
    (hi : s.duo.parentIdle = true) (hn : s.childSigs = []) :
    ∃ s', lifeRun cap recv once s [.sigChild .stop, .handleParent .chld, .sigChild .cont] = some s' ∧ s'.parent = .exited 0 ∧ s'.child = .running ∧ s'.childSigs = [] ∧
      s'.duo = s.duo := by
  cases s with
  | mk duo child parent entered ready childSigs parentSigs sock =>
    dsimp only at hc hp hr hi hn
    subst hc hp hr hn
    refine ⟨{ duo := duo, child := .running, parent := .exited 0, entered := entered, ready := true, parentSigs := parentSigs ++ [.chld], sock := false }, ?_, rfl, rfl, rfl, rfl⟩
    simp [lifeRun, lifeStep, Life.sendChild, Life.quit, Life.childTurns, ProcState.ended, hi]

/-- **C81**: the status of the daemon says nothing about why it ended: once in its event loop it is zero, or the process was ended by a signal. -/
theorem C81_status (cap : Nat) (recv once : Bool) (s : Life) (hs : LifeReach cap recv once s) (hr : s.ready = true) (n : Nat) (hn : s.parent = .exited n) :
    n = 0 ∧ s.sock = false := by
  obtain ⟨acts, evs, h⟩ := hs
  have := life_induction (P := fun x => LifeInv cap recv x ∧ (x.ready = true → ∀ n, x.parent = .exited n → n = 0)) (Q := fun _ => True)
    (fun x y ev hx _ hs => by
      refine ⟨life_inv hx.1 hs, ?_⟩
      have hk := hx.2
      have hq : ∀ g n, (x.quit recv g).parent = .exited n → n = 0 := by
        intro g n hn
        have : ProcState.exited 0 = .exited n := hn
        injection this with this
        exact this.symm
      cases ev with
      | duo ev =>
        rcases life_duo hs with ⟨d, hd', rfl, _⟩ | ⟨_, _, _, _, _, rfl⟩ | ⟨_, _, _, _, rfl⟩
        · exact hk
        · exact hk
        · exact fun _ => hq _
      | enter => simp only [lifeStep] at hs; split at hs <;> (try split at hs) <;> cases hs <;> exact hk
      | loop =>
        simp only [lifeStep] at hs
        split at hs
        · next hcc =>
          simp only [Bool.and_eq_true, decide_eq_true_eq, Bool.not_eq_true'] at hcc
          split at hs <;> cases hs
          · intro hr; have hr : x.ready = true := hr; rw [hcc.2] at hr; cases hr
          · intro _ n hn; have hn : x.parent = .exited n := hn; rw [hcc.1] at hn; cases hn
        · cases hs
      | sigChild g =>
        cases hs
        obtain ⟨_, f2, _, f4, _⟩ := sendChild_frame recv x g
        rw [f2, f4]; exact hk
      | sigParent g =>
        simp only [lifeStep] at hs
        split at hs
        · cases hs; exact hk
        · cases g <;> dsimp only at hs <;> (try split at hs) <;> cases hs <;> first | exact hk | exact fun _ _ hn => (nomatch hn)
      | handleChild g => simp only [lifeStep] at hs; split at hs <;> cases hs; exact hk
      | handleParent g => simp only [lifeStep] at hs; split at hs <;> cases hs; exact fun _ => hq _
      | fatalChild => simp only [lifeStep] at hs; split at hs <;> cases hs; exact hk
      | fatalParent => simp only [lifeStep] at hs; split at hs <;> cases hs; exact fun _ => hq _) evs _ s
    ⟨start_inv cap recv acts, fun _ _ hn => (nomatch hn)⟩ (fun _ _ => trivial) h
  have hz := this.2 hr n hn
  exact ⟨hz, this.1.sock.mp (by rw [hn, hz])⟩

/-! ## Running once -/

theorem sends_append (a b : List DuoAct) : sends (a ++ b) = sends a ++ sends b := by
  unfold sends
  rw [List.filterMap_append]

/-- What has been done and what is left of the only round. -/
theorem once_step {cap : Nat} {recv : Bool} {acts : List DuoAct} {s s' : Life} {ev : LifeEv} (he : s.entered = false) (hk : s.duo.sent ++ sends s.duo.todo = sends acts)
    (h0 : s.child = .exited 0 → s.duo.todo = []) (h : lifeStep cap recv true s ev = some s') :
    s'.entered = false ∧ s'.duo.sent ++ sends s'.duo.todo = sends acts ∧ (s'.child = .exited 0 → s'.duo.todo = []) := by
  have hsend : ∀ g, (s.sendChild recv g).entered = false ∧ (s.sendChild recv g).duo.sent ++ sends (s.sendChild recv g).duo.todo = sends acts ∧
      ((s.sendChild recv g).child = .exited 0 → (s.sendChild recv g).duo.todo = []) := by
    intro g
    obtain ⟨f1, _, f3, _⟩ := sendChild_frame recv s g
    refine ⟨by rw [f3]; exact he, by rw [f1]; exact hk, ?_⟩
    rw [f1]
    intro hx
    apply h0
    unfold Life.sendChild at hx
    split at hx
    · exact hx
    · cases g <;> dsimp only at hx <;> (repeat' split at hx) <;> first | exact hx | cases hx
  cases ev with
  | duo ev =>
    rcases life_duo h with ⟨d, hd, rfl, hwho⟩ | ⟨_, _, _, _, _, rfl⟩ | ⟨_, _, _, _, rfl⟩
    · have hchild : ev.ofChild = true → s.child ≠ .exited 0 := by
        intro hoc
        rcases hwho with ⟨f, rfl⟩ | ⟨_, hr, _⟩ | ⟨_, hno, _⟩
        · cases hoc
        · rw [hr]; nofun
        · rw [hno] at hoc; cases hoc
      have hent : ∀ a, ev ≠ .start a ∧ ev ≠ .take a := by
        intro a
        have : (∃ a, ev = .start a ∨ ev = .take a) → False := by
          intro hx
          rcases hwho with ⟨f, rfl⟩ | ⟨_, _, _, hen⟩ | ⟨_, hno, _⟩
          · obtain ⟨a, h | h⟩ := hx <;> cases h
          · rw [hen hx] at he; cases he
          · obtain ⟨a, h | h⟩ := hx <;> (rw [h] at hno; cases hno)
        exact ⟨fun h => this ⟨a, .inl h⟩, fun h => this ⟨a, .inr h⟩⟩
      refine ⟨he, ?_⟩
      unfold duoStep at hd
      cases ev with
      | start a => exact absurd rfl (hent a).1
      | take a => exact absurd rfl (hent a).2
      | act =>
        dsimp only at hd
        split at hd
        · next ht =>
          split at hd <;> cases hd
          rw [ht] at hk
          exact ⟨hk, fun hx => absurd hx (hchild rfl)⟩
        · next ht =>
          split at hd <;> cases hd
          rw [ht] at hk
          refine ⟨?_, fun hx => absurd hx (hchild rfl)⟩
          rw [← hk]
          show _ = s.duo.sent ++ (_ :: sends _)
          rw [List.append_assoc]
          rfl
        · cases hd
      | _ =>
        dsimp only at hd
        (try (repeat' split at hd))
        all_goals first | cases hd | skip
        all_goals exact ⟨hk, h0⟩
    · exact ⟨he, hk, nofun⟩
    · exact hsend _
  | enter =>
    simp only [lifeStep] at h
    split at h
    · next hcc =>
      simp only [Bool.and_eq_true, Duo.childIdle, List.isEmpty_iff] at hcc
      cases h
      exact ⟨he, hk, fun _ => hcc.2.1⟩
    · cases h
  | loop => simp only [lifeStep] at h; split at h <;> (try split at h) <;> cases h <;> exact ⟨he, hk, h0⟩
  | sigChild g => cases h; exact hsend g
  | sigParent g =>
    simp only [lifeStep] at h
    split at h
    · cases h; exact ⟨he, hk, h0⟩
    · cases g <;> dsimp only at h <;> (try split at h) <;> cases h <;> exact ⟨he, hk, h0⟩
  | handleChild g => simp only [lifeStep, he, Bool.and_false, Bool.false_and] at h; cases h
  | handleParent g => simp only [lifeStep] at h; split at h <;> cases h; exact hsend _
  | fatalChild => simp only [lifeStep] at h; split at h <;> cases h; exact ⟨he, hk, nofun⟩
  | fatalParent => simp only [lifeStep] at h; split at h <;> cases h; exact hsend _

/-- **C82** (partly): with `-o`, when the unprivileged process has finished its round, all its packets have been transmitted, once each and in order, except those that the
privileged process has not read yet.  Missing: that these are still read (`C82_lost`). -/
theorem C82_once_partial (cap : Nat) (recv : Bool) (acts : List DuoAct) (evs : List LifeEv) (s : Life) (h : lifeRun cap recv true (lifeStart acts) evs = some s) :
    s.duo.transmitted <+: sends acts ∧ (s.child = .exited 0 → s.duo.transmitted ++ s.duo.up = sends acts) := by
  have := life_induction (P := fun x => x.entered = false ∧ x.duo.sent ++ sends x.duo.todo = sends acts ∧ (x.child = .exited 0 → x.duo.todo = [])) (Q := fun _ => True)
    (fun x y ev hx _ hs => once_step hx.1 hx.2.1 hx.2.2 hs) evs _ s ⟨rfl, rfl, fun hx => (by cases hx)⟩ (fun _ _ => trivial) h
  obtain ⟨_, h2, h3⟩ := this
  have hpk := (run_inv (start_inv cap recv acts) h).duo.packets
  rw [hpk] at h2
  refine ⟨⟨s.duo.up ++ sends s.duo.todo, by rw [← h2, List.append_assoc]⟩, fun hx => ?_⟩
  rw [h3 hx] at h2
  rw [← h2]
  show _ = s.duo.transmitted ++ s.duo.up ++ []
  rw [List.append_nil]

theorem once_acts (cap : Nat) (recv : Bool) : ∀ (ms : List Nat) (d : Duo), d.todo = ms.map DuoAct.send → d.asking = none → d.up.length + ms.length ≤ cap →
    lifeRun cap recv true { duo := d, ready := true } (List.replicate ms.length (.duo .act)) =
      some { duo := { d with todo := [], up := d.up ++ ms, sent := d.sent ++ ms }, ready := true }
  | [], d, ht, _, _ => by
    simp only [List.map_nil] at ht
    simp [lifeRun, ← ht]
  | m :: ms, d, ht, ha, hl => by
    rw [List.length_cons] at hl
    have hstep : lifeStep cap recv true { duo := d, ready := true } (.duo .act) =
        some { duo := { d with todo := ms.map DuoAct.send, up := d.up ++ [m], sent := d.sent ++ [m] }, ready := true } := by
      simp only [lifeStep, DuoEv.ofChild, ProcState.ended, duoStep, ht, ha, List.map_cons]
      rw [if_pos trivial, if_pos trivial, if_neg (by decide), if_pos (by omega)]
      rfl
    show (lifeStep cap recv true _ _).bind (fun s => lifeRun cap recv true s (List.replicate ms.length (.duo .act))) = _
    rw [hstep, Option.bind_some]
    refine (once_acts cap recv ms { d with todo := ms.map DuoAct.send, up := d.up ++ [m], sent := d.sent ++ [m] } rfl ha
      (by simp only [List.length_append, List.length_cons, List.length_nil]; omega)).trans ?_
    simp

theorem once_transmits (cap : Nat) (recv : Bool) : ∀ (a b : List Nat) (s : Life), s.duo.up = a ++ b → s.parent = .running → s.ready = true → s.duo.parentIdle = true →
    lifeRun cap recv true s (List.replicate a.length (.duo .transmit)) =
      some { s with duo := { s.duo with up := b, transmitted := s.duo.transmitted ++ a } }
  | [], b, s, hu, _, _, _ => by
    simp only [List.nil_append] at hu
    simp [lifeRun, ← hu]
  | m :: a, b, s, hu, hp, hr, hi => by
    have hstep : lifeStep cap recv true s (.duo .transmit) = some { s with duo := { s.duo with up := a ++ b, transmitted := s.duo.transmitted ++ [m] } } := by
      simp only [lifeStep, DuoEv.ofChild, hp, hr, duoStep, hi, hu]
      rfl
    show (lifeStep cap recv true _ _).bind (fun s => lifeRun cap recv true s (List.replicate a.length (.duo .transmit))) = _
    rw [hstep, Option.bind_some]
    refine (once_transmits cap recv a b { s with duo := { s.duo with up := a ++ b, transmitted := s.duo.transmitted ++ [m] } } rfl hp hr hi).trans ?_
    simp

/-- **C82** fails: whatever packets there are (as many as fit into the queue), any number of them may be lost, with the unprivileged process having finished properly and the
status of the daemon zero: the news of the end of the process is handled before the packets it has left. -/
theorem C82_lost (cap : Nat) (recv : Bool) (ms lost : List Nat) (hc : ms.length + lost.length ≤ cap) :
    ∃ evs s, lifeRun cap recv true (lifeStart ((ms ++ lost).map .send)) evs = some s ∧ s.child = .exited 0 ∧ s.parent = .exited 0 ∧ s.duo.sent = ms ++ lost ∧
      s.duo.transmitted = ms := by
  have happend : ∀ (a b : List LifeEv) (s t : Life), lifeRun cap recv true s a = some t → lifeRun cap recv true s (a ++ b) = lifeRun cap recv true t b := by
    intro a
    induction a with
    | nil => intro b s t h; cases h; rfl
    | cons ev a ih =>
      intro b s t h
      unfold lifeRun at h
      rw [List.cons_append]
      show (lifeStep cap recv true s ev).bind (fun s => lifeRun cap recv true s (a ++ b)) = _
      cases hs : lifeStep cap recv true s ev with
      | none => rw [hs] at h; cases h
      | some u => rw [hs] at h; exact ih b u t h
  let t1 : Life := { duo := { todo := [], up := ms ++ lost, sent := ms ++ lost }, ready := true }
  let t2 : Life := { t1 with child := .exited 0, parentSigs := [.chld] }
  have h1 : lifeRun cap recv true (lifeStart ((ms ++ lost).map .send)) (.loop :: List.replicate (ms ++ lost).length (.duo .act)) = some t1 := by
    show (lifeStep cap recv true _ .loop).bind (fun s => lifeRun cap recv true s (List.replicate (ms ++ lost).length (.duo .act))) = _
    rw [show lifeStep cap recv true (lifeStart ((ms ++ lost).map .send)) .loop = some { lifeStart ((ms ++ lost).map .send) with ready := true } from rfl, Option.bind_some]
    exact once_acts cap recv (ms ++ lost) { todo := (ms ++ lost).map .send } rfl rfl (by simpa using hc)
  have h2 : lifeRun cap recv true t1 [.enter] = some t2 := rfl
  have h3 := once_transmits cap recv ms lost t2 rfl rfl rfl rfl
  refine ⟨(.loop :: List.replicate (ms ++ lost).length (.duo .act)) ++ ([.enter] ++ (List.replicate ms.length (.duo .transmit) ++ [.handleParent .chld])),
    ({ t2 with duo := { t2.duo with up := lost, transmitted := t2.duo.transmitted ++ ms } } : Life).quit recv .chld, ?_, rfl, rfl, rfl, rfl⟩
  rw [happend _ _ _ _ h1, happend _ _ _ _ h2, happend _ _ _ _ h3]
  rfl

/-! ## Cases -/

/-- The unprivileged process fails in the middle of a round while frames are being forwarded: the privileged process quits with the next write. -/
example : (match lifeRun 4 true false (lifeStart []) [.enter, .loop, .duo (.start [.send 20, .send 21, .request 7]), .duo .act, .duo (.arrive 1), .duo (.arrive 2), .duo .act,
      .duo .receive, .duo .forward, .fatalChild] with
    | some s => s.child.ended && s.parent == .running && s.duo.receiving && decide (s.duo.up.length + 2 = 4) &&
      (match lifeRun 4 true false s [.duo .forward] with | some s' => s'.parent == .exited 0 && !s'.sock | none => false) &&
      (match lifeRun 4 true false s [.duo (.arrive 3), .duo .finish] with | some _ => false | none => true)
    | none => false) = true := by decide

/-- The unprivileged process ends while a request is served. -/
example : (match lifeRun 4 true false (lifeStart []) [.enter, .loop, .duo (.start [.request 7]), .duo .act, .duo .serve, .sigChild .hup, .duo .reply] with
    | some s => s.child == .killed && s.parent == .exited 0 && !s.sock
    | none => false) = true := by decide

/-- `SIGTERM` to the daemon with frames that the unprivileged process has not looked at: it ends. -/
example : (match lifeRun 4 true false (lifeStart [.request 1]) [.loop, .duo .act, .duo .serve, .duo .reply, .duo .answer, .enter, .duo (.arrive 1), .duo .receive, .duo .forward,
      .duo .finish, .sigParent .term, .handleParent .term] with
    | some s => s.parent == .exited 0 && s.child == .running && s.childSigs == [.term] && s.duo.asking.isNone && decide (s.duo.down.length = 1) &&
      (match lifeRun 4 true false s [.duo (.take []), .handleChild .term] with | some s' => s'.child == .exited 0 | none => false) &&
      (match lifeRun 4 true false s [.duo (.take [.request 9]), .duo .act] with | some s' => s'.child == .exited 1 | none => false)
    | none => false) = true := by decide

/-- Without `-r` the signal ends the unprivileged process at once, even if it waits for a reply. -/
example : (match lifeRun 4 false false (lifeStart [.request 1]) [.loop, .duo .act, .sigParent .int, .handleParent .int] with
    | some s => s.parent == .exited 0 && s.child == .killed
    | none => false) = true := by decide

/-- A state as in `C81_deaf`. -/
example : ∃ s, LifeReach 1 true false s ∧ Deadlock 1 s.duo ∧ s.child.ended = false ∧ s.parent.ended = false ∧ s.ready = true ∧ s.entered = true ∧ .hup ∉ s.childSigs :=
  ⟨_, ⟨[], [.enter, .loop, .duo (.start [.request 7]), .duo .act, .duo (.arrive 1), .duo (.arrive 2), .duo .receive, .duo .forward], rfl⟩,
    ⟨rfl, by decide, rfl, .inl ⟨rfl, rfl⟩⟩, rfl, rfl, rfl, rfl, by decide⟩

/-- A state as in `C81_stopped`. -/
example : ∃ s, LifeReach 1 true false s ∧ s.child = .running ∧ s.parent = .running ∧ s.ready = true ∧ s.duo.parentIdle = true ∧ s.childSigs = [] :=
  ⟨_, ⟨[], [.enter, .loop, .duo (.start [.request 7]), .duo .act], rfl⟩, rfl, rfl, rfl, rfl, rfl⟩

/-- Running once without a loss. -/
example : (match lifeRun 4 false true (lifeStart [.request 1, .send 20, .send 21]) [.loop, .duo .act, .duo .serve, .duo .reply, .duo .answer, .duo .act, .duo .act, .enter,
      .duo .transmit, .duo .transmit, .handleParent .chld] with
    | some s => s.child == .exited 0 && s.parent == .exited 0 && s.duo.transmitted == [20, 21]
    | none => false) = true := by decide

end Ladvd.Props
