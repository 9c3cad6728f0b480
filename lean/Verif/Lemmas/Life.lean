import Verif.Spec.Life
import Verif.Lemmas.Ipc
/-!
# Lemmas: how the two processes end
-/

namespace Ladvd
open Spec

theorem map_duo {s s' : Life} {o : Option Duo} (h : o.map (fun d => { s with duo := d }) = some s') : ∃ d, o = some d ∧ s' = { s with duo := d } := by
  cases o with
  | none => cases h
  | some d => cases h; exact ⟨d, rfl, rfl⟩

/-- What a step of `Model/Ipc.lean` becomes. -/
theorem life_duo {cap : Nat} {recv once : Bool} {s s' : Life} {ev : DuoEv} (h : lifeStep cap recv once s (.duo ev) = some s') :
    (∃ d, duoStep cap s.duo ev = some d ∧ s' = { s with duo := d } ∧ ((∃ f, ev = .arrive f) ∨
      (ev.ofChild = true ∧ s.child = .running ∧ (ev = .act → s.parent.ended = false) ∧ ((∃ a, ev = .start a ∨ ev = .take a) → s.entered = true)) ∨
      ((∀ f, ev ≠ .arrive f) ∧ ev.ofChild = false ∧ s.parent = .running ∧ s.ready = true ∧ (s.child.ended = true → ev ≠ .forward ∧ ev ≠ .reply)))) ∨
    (ev = .act ∧ s.child = .running ∧ s.parent.ended = true ∧ s.duo.asking = none ∧ s.duo.todo ≠ [] ∧ s' = s.childTurns (.exited 1)) ∨
    ((ev = .forward ∧ s.duo.receiving = true ∧ s.duo.wire ≠ [] ∨ ev = .reply ∧ s.duo.replying.isSome = true) ∧ s.child.ended = true ∧ s.parent = .running ∧ s.ready = true ∧
      s' = s.quit recv .term) := by
  cases ev with
  | arrive f =>
    simp only [lifeStep] at h
    obtain ⟨d, hd, rfl⟩ := map_duo h
    exact .inl ⟨d, hd, rfl, .inl ⟨f, rfl⟩⟩
  | start acts =>
    simp only [lifeStep, DuoEv.ofChild, if_true] at h
    split at h
    · next hc =>
      split at h
      · next he =>
        obtain ⟨d, hd, rfl⟩ := map_duo h
        exact .inl ⟨d, hd, rfl, .inr (.inl ⟨rfl, hc, nofun, fun _ => he⟩)⟩
      · cases h
    · cases h
  | take acts =>
    simp only [lifeStep, DuoEv.ofChild, if_true] at h
    split at h
    · next hc =>
      split at h
      · next he =>
        obtain ⟨d, hd, rfl⟩ := map_duo h
        exact .inl ⟨d, hd, rfl, .inr (.inl ⟨rfl, hc, nofun, fun _ => he⟩)⟩
      · cases h
    · cases h
  | act =>
    simp only [lifeStep, DuoEv.ofChild, if_true] at h
    split at h
    · next hc =>
      split at h
      · next he =>
        split at h
        · next ha =>
          cases h
          simp only [Bool.and_eq_true, Option.isNone_iff_eq_none, Bool.not_eq_true', List.isEmpty_eq_false_iff] at ha
          exact .inr (.inl ⟨rfl, hc, he, ha.1, ha.2, rfl⟩)
        · cases h
      · next he =>
        obtain ⟨d, hd, rfl⟩ := map_duo h
        exact .inl ⟨d, hd, rfl, .inr (.inl ⟨rfl, hc, fun _ => by simpa using he, by rintro ⟨a, h | h⟩ <;> cases h⟩)⟩
    · cases h
  | answer =>
    simp only [lifeStep, DuoEv.ofChild, if_true] at h
    split at h
    · next hc =>
      obtain ⟨d, hd, rfl⟩ := map_duo h
      exact .inl ⟨d, hd, rfl, .inr (.inl ⟨rfl, hc, nofun, by rintro ⟨a, h | h⟩ <;> cases h⟩)⟩
    · cases h
  | forward =>
    simp only [lifeStep, DuoEv.ofChild, Bool.false_eq_true, if_false] at h
    split at h
    · next hc =>
      simp only [Bool.and_eq_true, decide_eq_true_eq] at hc
      split at h
      · next ha =>
        cases h
        simp only [Bool.and_eq_true, Bool.not_eq_true', List.isEmpty_eq_false_iff] at ha
        exact .inr (.inr ⟨.inl ⟨rfl, ha.1.2, ha.2⟩, ha.1.1, hc.1, hc.2, rfl⟩)
      · next ha =>
        obtain ⟨d, hd, rfl⟩ := map_duo h
        refine .inl ⟨d, hd, rfl, .inr (.inr ⟨nofun, rfl, hc.1, hc.2, fun he => ?_⟩)⟩
        exfalso
        apply ha
        rw [he]
        unfold duoStep at hd
        dsimp only at hd
        split at hd
        · next hr =>
          rw [hr]
          split at hd
          · cases hd
          · next hw => rw [hw]; rfl
        · cases hd
    · cases h
  | reply =>
    simp only [lifeStep, DuoEv.ofChild, Bool.false_eq_true, if_false] at h
    split at h
    · next hc =>
      simp only [Bool.and_eq_true, decide_eq_true_eq] at hc
      split at h
      · next ha =>
        cases h
        simp only [Bool.and_eq_true] at ha
        exact .inr (.inr ⟨.inr ⟨rfl, ha.2⟩, ha.1, hc.1, hc.2, rfl⟩)
      · next ha =>
        obtain ⟨d, hd, rfl⟩ := map_duo h
        refine .inl ⟨d, hd, rfl, .inr (.inr ⟨nofun, rfl, hc.1, hc.2, fun he => ?_⟩)⟩
        exfalso
        apply ha
        rw [he]
        unfold duoStep at hd
        dsimp only at hd
        split at hd
        · cases hd
        · next hr => rw [hr]; rfl
    · cases h
  | receive =>
    simp only [lifeStep, DuoEv.ofChild, Bool.false_eq_true, if_false] at h
    split at h
    · next hc =>
      simp only [Bool.and_eq_true, decide_eq_true_eq] at hc
      obtain ⟨d, hd, rfl⟩ := map_duo h
      exact .inl ⟨d, hd, rfl, .inr (.inr ⟨nofun, rfl, hc.1, hc.2, fun _ => ⟨nofun, nofun⟩⟩)⟩
    · cases h
  | finish =>
    simp only [lifeStep, DuoEv.ofChild, Bool.false_eq_true, if_false] at h
    split at h
    · next hc =>
      simp only [Bool.and_eq_true, decide_eq_true_eq] at hc
      obtain ⟨d, hd, rfl⟩ := map_duo h
      exact .inl ⟨d, hd, rfl, .inr (.inr ⟨nofun, rfl, hc.1, hc.2, fun _ => ⟨nofun, nofun⟩⟩)⟩
    · cases h
  | serve =>
    simp only [lifeStep, DuoEv.ofChild, Bool.false_eq_true, if_false] at h
    split at h
    · next hc =>
      simp only [Bool.and_eq_true, decide_eq_true_eq] at hc
      obtain ⟨d, hd, rfl⟩ := map_duo h
      exact .inl ⟨d, hd, rfl, .inr (.inr ⟨nofun, rfl, hc.1, hc.2, fun _ => ⟨nofun, nofun⟩⟩)⟩
    · cases h
  | transmit =>
    simp only [lifeStep, DuoEv.ofChild, Bool.false_eq_true, if_false] at h
    split at h
    · next hc =>
      simp only [Bool.and_eq_true, decide_eq_true_eq] at hc
      obtain ⟨d, hd, rfl⟩ := map_duo h
      exact .inl ⟨d, hd, rfl, .inr (.inr ⟨nofun, rfl, hc.1, hc.2, fun _ => ⟨nofun, nofun⟩⟩)⟩
    · cases h

/-- A signal to the unprivileged process leaves the rest alone. -/
theorem sendChild_frame (recv : Bool) (s : Life) (g : Sig) : (s.sendChild recv g).duo = s.duo ∧ (s.sendChild recv g).parent = s.parent ∧
    (s.sendChild recv g).entered = s.entered ∧ (s.sendChild recv g).ready = s.ready ∧ (s.sendChild recv g).sock = s.sock ∧
    ∀ x ∈ s.parentSigs, x ∈ (s.sendChild recv g).parentSigs := by
  unfold Life.sendChild Life.childTurns
  refine ⟨?_, ?_, ?_, ?_, ?_, ?_⟩
  all_goals (cases g <;> dsimp only <;> (repeat' split) <;> first | rfl | (intro x hx; first | exact hx | exact List.mem_append_left _ hx))

/-- What is always true. -/
structure LifeInv (cap : Nat) (recv : Bool) (s : Life) : Prop where
  duo : DuoInv cap s.duo
  told : s.child.ended = true → s.ready = true → s.parent.ended = false → Sig.chld ∈ s.parentSigs
  noted : s.child = .running → s.childSigs ≠ [] → recv = true ∧ s.entered = true
  which : ∀ g ∈ s.childSigs, g = .int ∨ g = .term ∨ (g = .hup ∧ s.child ≠ .running)
  sock : s.parent = .exited 0 ↔ s.sock = false
  parents : ∀ g ∈ s.parentSigs, g = .int ∨ g = .term ∨ g = .chld

theorem childTurns_inv {cap : Nat} {recv : Bool} {s : Life} (hi : LifeInv cap recv s) {p : ProcState}
    (hp : p = .running → s.childSigs ≠ [] → recv = true ∧ s.entered = true ∧ ∀ g ∈ s.childSigs, g ≠ .hup) : LifeInv cap recv (s.childTurns p) := by
  obtain ⟨i1, i2, i3, i4, i5, i6⟩ := hi
  refine ⟨i1, ?_, ?_, ?_, i5, ?_⟩
  · intro _ hr he
    show Sig.chld ∈ (if s.ready && !s.parent.ended then s.parentSigs ++ [.chld] else s.parentSigs)
    have hr : s.ready = true := hr
    have he : s.parent.ended = false := he
    rw [hr, he]
    simp
  · intro hr hn
    have := hp hr hn
    exact ⟨this.1, this.2.1⟩
  · intro g hg
    have hg : g ∈ s.childSigs := hg
    rcases i4 g hg with h | h | ⟨h, hc⟩
    · exact .inl h
    · exact .inr (.inl h)
    · refine .inr (.inr ⟨h, fun hr => ?_⟩)
      exact (hp hr (List.ne_nil_of_mem hg)).2.2 g hg h
  · intro g hg
    have hg : g ∈ (if s.ready && !s.parent.ended then s.parentSigs ++ [.chld] else s.parentSigs) := hg
    split at hg
    · rcases List.mem_append.mp hg with hg | hg
      · exact i6 g hg
      · exact .inr (.inr (List.mem_singleton.mp hg))
    · exact i6 g hg

theorem childEnds_inv {cap : Nat} {recv : Bool} {s : Life} (hi : LifeInv cap recv s) {p : ProcState} (hp : p.ended = true) : LifeInv cap recv (s.childTurns p) :=
  childTurns_inv hi (fun h => by subst h; cases hp)

theorem sendChild_inv {cap : Nat} {recv : Bool} {s : Life} (hi : LifeInv cap recv s) (g : Sig) : LifeInv cap recv (s.sendChild recv g) := by
  unfold Life.sendChild
  split
  · exact hi
  · next hne =>
    have note : ∀ g : Sig, (g = .int ∨ g = .term ∨ (g = .hup ∧ s.child ≠ .running)) → (s.child = .running → recv = true ∧ s.entered = true) →
        LifeInv cap recv { s with childSigs := s.childSigs ++ [g] } := by
      intro g hg hr
      obtain ⟨i1, i2, i3, i4, i5, i6⟩ := hi
      refine ⟨i1, i2, fun h _ => hr h, ?_, i5, i6⟩
      intro x hx
      rcases List.mem_append.mp hx with hx | hx
      · exact i4 x hx
      · rw [List.mem_singleton.mp hx]; exact hg
    have rest : ∀ g : Sig, (g = .int ∨ g = .term ∨ g = .hup) → LifeInv cap recv
        (if s.child = .stopped then { s with childSigs := s.childSigs ++ [g] }
        else if recv && s.entered && decide (g ≠ .hup) then { s with childSigs := s.childSigs ++ [g] } else s.childTurns .killed) := by
      intro g hg
      split
      · next hst =>
        refine note g ?_ (fun h => by rw [hst] at h; cases h)
        rcases hg with h | h | h
        · exact .inl h
        · exact .inr (.inl h)
        · exact .inr (.inr ⟨h, by rw [hst]; nofun⟩)
      · split
        · next hc =>
          simp only [Bool.and_eq_true, decide_eq_true_eq] at hc
          refine note g ?_ (fun _ => hc.1)
          rcases hg with h | h | h
          · exact .inl h
          · exact .inr (.inl h)
          · exact absurd h hc.2
        · exact childEnds_inv hi rfl
    cases g with
    | chld => exact hi
    | kill => exact childEnds_inv hi rfl
    | stop => exact childTurns_inv hi nofun
    | cont =>
      dsimp only
      split
      · split
        · exact childEnds_inv hi rfl
        · next hany =>
          refine childTurns_inv hi (fun _ hn => ?_)
          simp only [List.any_eq_true, not_exists, not_and, Bool.or_eq_true, beq_iff_eq, Bool.not_eq_true', not_or, Bool.not_eq_false, Bool.and_eq_true] at hany
          obtain ⟨a, l, hl⟩ := List.exists_cons_of_ne_nil hn
          have := hany a (by rw [hl]; exact List.mem_cons_self)
          exact ⟨this.2.1, this.2.2, fun g hg => (hany g hg).1⟩
      · exact hi
    | hup => exact rest .hup (.inr (.inr rfl))
    | int => exact rest .int (.inl rfl)
    | term => exact rest .term (.inr (.inl rfl))

theorem quit_inv {cap : Nat} {recv : Bool} {s : Life} (hi : LifeInv cap recv s) (g : Sig) : LifeInv cap recv (s.quit recv g) := by
  obtain ⟨i1, i2, i3, i4, i5, i6⟩ := sendChild_inv hi g
  exact ⟨i1, fun _ _ he => (nomatch he), i3, i4, ⟨fun _ => rfl, fun _ => rfl⟩, i6⟩

theorem start_inv (cap : Nat) (recv : Bool) (acts : List DuoAct) : LifeInv cap recv (lifeStart acts) := by
  refine ⟨duoInv_step (ev := .start acts) (duoInv_init cap) rfl, nofun, fun _ h => absurd rfl h, nofun, ⟨nofun, nofun⟩, nofun⟩

theorem life_inv {cap : Nat} {recv once : Bool} {s s' : Life} {ev : LifeEv} (hi : LifeInv cap recv s) (h : lifeStep cap recv once s ev = some s') :
    LifeInv cap recv s' := by
  have keep := hi
  obtain ⟨i1, i2, i3, i4, i5, i6⟩ := hi
  cases ev with
  | duo ev =>
    rcases life_duo h with ⟨d, hd, rfl, _⟩ | ⟨_, _, _, _, _, rfl⟩ | ⟨_, _, _, _, rfl⟩
    · exact ⟨duoInv_step i1 hd, i2, i3, i4, i5, i6⟩
    · exact childEnds_inv keep rfl
    · exact quit_inv keep _
  | enter =>
    simp only [lifeStep] at h
    split at h
    · next hc =>
      simp only [Bool.and_eq_true, decide_eq_true_eq, Bool.not_eq_true'] at hc
      split at h
      · cases h; exact childEnds_inv keep rfl
      · cases h
        refine ⟨i1, i2, fun h1 h2 => ⟨(i3 h1 h2).1, rfl⟩, i4, i5, i6⟩
    · cases h
  | loop =>
    simp only [lifeStep] at h
    split at h
    · next hc =>
      simp only [Bool.and_eq_true, decide_eq_true_eq, Bool.not_eq_true'] at hc
      split at h
      · cases h
        refine ⟨i1, fun _ _ he => (nomatch he), i3, i4, ⟨nofun, fun hs => ?_⟩, i6⟩
        have := i5.mpr hs
        rw [hc.1] at this; cases this
      · next hn =>
        cases h
        exact ⟨i1, fun he => absurd he hn, i3, i4, i5, i6⟩
    · cases h
  | sigChild g =>
    cases h
    exact sendChild_inv keep g
  | sigParent g =>
    have hsock : ∀ p : ProcState, s.parent.ended = false → p ≠ .exited 0 → (p = .exited 0 ↔ s.sock = false) := by
      intro p hp hn
      refine ⟨fun h => absurd h hn, fun h => ?_⟩
      rw [i5.mpr h] at hp; cases hp
    have hnote : ∀ g : Sig, (g = .int ∨ g = .term ∨ g = .chld) → LifeInv cap recv { s with parentSigs := s.parentSigs ++ [g] } := by
      intro g hg
      refine ⟨i1, fun a b c => List.mem_append_left _ (i2 a b c), i3, i4, i5, fun x hx => ?_⟩
      rcases List.mem_append.mp hx with hx | hx
      · exact i6 x hx
      · rw [List.mem_singleton.mp hx]; exact hg
    simp only [lifeStep] at h
    split at h
    · cases h; exact keep
    · next hp =>
      have hp : s.parent.ended = false := by simpa using hp
      have hkilled : LifeInv cap recv { s with parent := .killed } := ⟨i1, fun _ _ he => (nomatch he), i3, i4, hsock _ hp nofun, i6⟩
      cases g with
      | kill => cases h; exact hkilled
      | stop => cases h; exact ⟨i1, fun a b _ => i2 a b hp, i3, i4, hsock _ hp nofun, i6⟩
      | cont => cases h; exact ⟨i1, fun a b _ => i2 a b hp, i3, i4, hsock _ hp nofun, i6⟩
      | hup => dsimp only at h; split at h <;> cases h <;> first | exact keep | exact hkilled
      | chld => dsimp only at h; split at h <;> cases h <;> first | exact hnote _ (.inr (.inr rfl)) | exact keep
      | int => dsimp only at h; split at h <;> cases h <;> first | exact hnote _ (.inl rfl) | exact hkilled
      | term => dsimp only at h; split at h <;> cases h <;> first | exact hnote _ (.inr (.inl rfl)) | exact hkilled
  | handleChild g =>
    simp only [lifeStep] at h
    split at h
    · cases h; exact childEnds_inv keep rfl
    · cases h
  | handleParent g =>
    simp only [lifeStep] at h
    split at h
    · cases h; exact quit_inv keep _
    · cases h
  | fatalChild =>
    simp only [lifeStep] at h
    split at h
    · cases h; exact childEnds_inv keep rfl
    · cases h
  | fatalParent =>
    simp only [lifeStep] at h
    split at h
    · cases h; exact quit_inv keep _
    · cases h

/-- Induction over the rest of a history. -/
theorem life_induction {cap : Nat} {recv once : Bool} {P : Life → Prop} {Q : LifeEv → Prop}
    (hstep : ∀ s s' ev, P s → Q ev → lifeStep cap recv once s ev = some s' → P s') : ∀ (evs : List LifeEv) (s s' : Life), P s → (∀ ev ∈ evs, Q ev) →
    lifeRun cap recv once s evs = some s' → P s'
  | [], s, s', hp, _, h => by cases h; exact hp
  | ev :: evs, s, s', hp, hq, h => by
    unfold lifeRun at h
    cases hs : lifeStep cap recv once s ev with
    | none => rw [hs] at h; cases h
    | some t =>
      rw [hs] at h
      exact life_induction hstep evs t s' (hstep s t ev hp (hq ev List.mem_cons_self) hs) (fun e he => hq e (List.mem_cons_of_mem _ he)) h

theorem run_inv {cap : Nat} {recv once : Bool} {s s' : Life} {evs : List LifeEv} (hi : LifeInv cap recv s) (h : lifeRun cap recv once s evs = some s') :
    LifeInv cap recv s' :=
  life_induction (P := LifeInv cap recv) (Q := fun _ => True) (fun _ _ _ hp _ hs => life_inv hp hs) evs s s' hi (fun _ _ => trivial) h

theorem reach_inv {cap : Nat} {recv once : Bool} {s : Life} (h : LifeReach cap recv once s) : LifeInv cap recv s := by
  obtain ⟨acts, evs, h⟩ := h
  exact run_inv (start_inv cap recv acts) h

end Ladvd
