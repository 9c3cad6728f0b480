import Verif.Spec.Ipc
/-!
# Lemmas: the exchange between the processes
-/

namespace Ladvd
open Spec

/-- The request, if there is one, is in exactly one place. -/
def duoOne (s : Duo) : Prop :=
  match s.asking with
  | none => s.req = [] ∧ s.replying = none ∧ s.rep = []
  | some r => (s.req = [r] ∧ s.replying = none ∧ s.rep = []) ∨ (s.req = [] ∧ s.replying = some r ∧ s.rep = []) ∨
      (s.req = [] ∧ s.replying = none ∧ s.rep = [r])

structure DuoInv (cap : Nat) (s : Duo) : Prop where
  one : duoOne s
  busy : s.receiving = true → s.replying = none
  frames : s.arrived = s.handled ++ s.down ++ s.wire
  packets : s.sent = s.transmitted ++ s.up
  same : ∀ a ∈ s.answers, a.1 = a.2
  upLen : s.up.length ≤ cap
  downLen : s.down.length ≤ cap

theorem duoInv_init (cap : Nat) : DuoInv cap {} :=
  ⟨⟨rfl, rfl, rfl⟩, fun _ => rfl, rfl, rfl, fun _ h => (nomatch h), Nat.zero_le _, Nat.zero_le _⟩

theorem duoInv_step {cap : Nat} {s s' : Duo} {ev : DuoEv} (hi : DuoInv cap s) (h : duoStep cap s ev = some s') : DuoInv cap s' := by
  obtain ⟨i1, i2, i3, i4, i5, i6, i7⟩ := hi
  cases ev with
  | arrive f =>
    cases h
    exact ⟨i1, i2, by simp [i3], i4, i5, i6, i7⟩
  | start acts =>
    unfold duoStep at h
    dsimp only at h
    split at h
    · cases h; exact ⟨i1, i2, i3, i4, i5, i6, i7⟩
    · cases h
  | take acts =>
    unfold duoStep at h
    dsimp only at h
    split at h
    · split at h
      · cases h
      · next f r hd =>
        cases h
        rw [hd] at i3 i7
        refine ⟨i1, i2, by simp [i3], i4, i5, i6, ?_⟩
        rw [List.length_cons] at i7
        exact Nat.le_of_succ_le i7
    · cases h
  | act =>
    unfold duoStep at h
    dsimp only at h
    split at h
    · next r acts ha ht =>
      split at h
      · cases h
        unfold duoOne at i1
        rw [ha] at i1
        obtain ⟨e1, e2, e3⟩ := i1
        exact ⟨Or.inl ⟨by rw [e1]; rfl, e2, e3⟩, i2, i3, i4, i5, i6, i7⟩
      · cases h
    · next m acts ha ht =>
      split at h
      · next hlt =>
        cases h
        refine ⟨i1, i2, i3, by simp [i4], i5, ?_, i7⟩
        simp only [List.length_append, List.length_cons, List.length_nil]
        omega
      · cases h
    · cases h
  | answer =>
    unfold duoStep at h
    dsimp only at h
    split at h
    · next r x rest ha hr =>
      cases h
      unfold duoOne at i1
      rw [ha, hr] at i1
      rcases i1 with ⟨_, _, e⟩ | ⟨_, _, e⟩ | ⟨e1, e2, e3⟩
      · cases e
      · cases e
      · cases e3
        refine ⟨⟨e1, e2, rfl⟩, i2, i3, i4, ?_, i6, i7⟩
        intro a ha
        rcases List.mem_append.mp ha with ha | ha
        · exact i5 a ha
        · rw [List.mem_singleton.mp ha]
    · cases h
  | receive =>
    unfold duoStep at h
    dsimp only at h
    split at h
    · next hc =>
      cases h
      refine ⟨i1, fun _ => ?_, i3, i4, i5, i6, i7⟩
      simp only [Duo.parentIdle, Bool.and_eq_true, Option.isNone_iff_eq_none] at hc
      exact hc.1.2
    · cases h
  | forward =>
    unfold duoStep at h
    dsimp only at h
    split at h
    · split at h
      · cases h
      · next f r hw =>
        split at h
        · cases h
          rw [hw] at i3
          refine ⟨i1, i2, by simp [i3], i4, i5, i6, ?_⟩
          simp only [List.length_append, List.length_cons, List.length_nil]
          omega
        · cases h
    · cases h
  | finish =>
    unfold duoStep at h
    dsimp only at h
    split at h
    · cases h
      exact ⟨i1, fun e => (nomatch e), i3, i4, i5, i6, i7⟩
    · cases h
  | serve =>
    unfold duoStep at h
    dsimp only at h
    split at h
    · next hc =>
      split at h
      · cases h
      · next r rest hr =>
        cases h
        simp only [Duo.parentIdle, Bool.and_eq_true, Option.isNone_iff_eq_none, Bool.not_eq_true'] at hc
        refine ⟨?_, fun e => (by rw [hc.1] at e; cases e), i3, i4, i5, i6, i7⟩
        unfold duoOne at i1 ⊢
        dsimp only
        cases ha : s.asking with
        | none => rw [ha] at i1; rw [i1.1] at hr; cases hr
        | some q =>
          rw [ha] at i1
          rcases i1 with ⟨e1, e2, e3⟩ | ⟨e1, _, _⟩ | ⟨e1, _, _⟩
          · rw [e1] at hr
            cases hr
            exact Or.inr (Or.inl ⟨rfl, rfl, e3⟩)
          · rw [e1] at hr; cases hr
          · rw [e1] at hr; cases hr
    · cases h
  | reply =>
    unfold duoStep at h
    dsimp only at h
    split at h
    · cases h
    · next r hr =>
      split at h
      · cases h
        refine ⟨?_, fun _ => rfl, i3, i4, i5, i6, i7⟩
        unfold duoOne at i1 ⊢
        dsimp only
        cases ha : s.asking with
        | none => rw [ha] at i1; rw [i1.2.1] at hr; cases hr
        | some q =>
          rw [ha] at i1
          rcases i1 with ⟨_, e2, _⟩ | ⟨e1, e2, e3⟩ | ⟨_, e2, _⟩
          · rw [e2] at hr; cases hr
          · rw [e2] at hr
            cases hr
            exact Or.inr (Or.inr ⟨e1, rfl, by rw [e3]; rfl⟩)
          · rw [e2] at hr; cases hr
      · cases h
  | transmit =>
    unfold duoStep at h
    dsimp only at h
    split at h
    · split at h
      · cases h
      · next m r hu =>
        cases h
        rw [hu] at i4 i6
        refine ⟨i1, i2, i3, by simp [i4], i5, ?_, i7⟩
        rw [List.length_cons] at i6
        exact Nat.le_of_succ_le i6
    · cases h

theorem duoInv_run {cap : Nat} {evs : List DuoEv} {s s' : Duo} (hi : DuoInv cap s) (h : duoRun cap s evs = some s') : DuoInv cap s' := by
  induction evs generalizing s with
  | nil => cases h; exact hi
  | cons ev evs ih =>
    unfold duoRun at h
    cases hs : duoStep cap s ev with
    | none => rw [hs] at h; cases h
    | some t => rw [hs] at h; exact ih (duoInv_step hi hs) h

/-- A state in which no process can go on is settled or a deadlock. -/
theorem halted_cases {cap : Nat} (hc : 0 < cap) {s : Duo} (hi : DuoInv cap s) (hh : Halted cap s) : Settled s ∨ Deadlock cap s := by
  obtain ⟨i1, i2, -, -, -, i6, i7⟩ := hi
  unfold duoOne at i1
  have key : ∀ {α : Type} {x : Option α}, (∀ a, x ≠ some a) → x = none := fun {α x} h => by
    cases x with
    | none => rfl
    | some a => exact absurd rfl (h a)
  have hreply : s.replying = none := by
    cases hr : s.replying with
    | none => rfl
    | some r =>
      have := hh .reply trivial
      unfold duoStep at this
      rw [hr] at this
      dsimp only at this
      have hrep : s.rep = [] := by
        cases ha : s.asking with
        | none => rw [ha] at i1; exact i1.2.2
        | some q =>
          rw [ha] at i1
          rcases i1 with ⟨_, _, e⟩ | ⟨_, _, e⟩ | ⟨_, e, _⟩
          · exact e
          · exact e
          · rw [e] at hr; cases hr
      rw [hrep, if_pos (show ([] : List Nat).length < cap from hc)] at this
      cases this
  have hans : s.asking.isSome → s.rep = [] := by
    intro ha
    obtain ⟨r, ha⟩ := Option.isSome_iff_exists.mp ha
    have := hh .answer trivial
    unfold duoStep at this
    rw [ha] at this
    cases hr : s.rep with
    | nil => rfl
    | cons x l => rw [hr] at this; cases this
  by_cases hrc : s.receiving = true
  · right
    have hw : s.wire ≠ [] := by
      intro hw
      have := hh .finish trivial
      unfold duoStep at this
      rw [hrc, hw] at this
      cases this
    have hd : s.down.length = cap := by
      have := hh .forward trivial
      unfold duoStep at this
      dsimp only at this
      rw [if_pos hrc] at this
      split at this
      · next he => exact absurd he hw
      · split at this
        · cases this
        · omega
    refine ⟨hrc, hw, hd, ?_⟩
    cases ha : s.asking with
    | some r => left; exact ⟨rfl, hans (by rw [ha]; rfl)⟩
    | none =>
      right
      refine ⟨rfl, ?_⟩
      cases ht : s.todo with
      | nil =>
        exfalso
        have := hh (.take []) trivial
        unfold duoStep at this
        dsimp only at this
        rw [if_pos (show s.childIdle = true by simp [Duo.childIdle, ht, ha])] at this
        split at this
        · next he => rw [he] at hd; simp only [List.length_nil] at hd; omega
        · cases this
      | cons a acts =>
        have := hh .act trivial
        unfold duoStep at this
        rw [ha, ht] at this
        rw [ha] at i1
        cases a with
        | request r =>
          dsimp only at this
          rw [i1.1, if_pos (show ([] : List Nat).length < cap from hc)] at this
          cases this
        | send m =>
          dsimp only at this
          split at this
          · cases this
          · exact ⟨by omega, m, acts, rfl⟩
  · left
    have hrc : s.receiving = false := by simpa using hrc
    have hpi : s.parentIdle = true := by simp [Duo.parentIdle, hrc, hreply]
    have hw : s.wire = [] := by
      have := hh .receive trivial
      unfold duoStep at this
      dsimp only at this
      rw [hpi] at this
      cases hwi : s.wire with
      | nil => rfl
      | cons f r => rw [hwi] at this; cases this
    have hrq : s.req = [] := by
      have := hh .serve trivial
      unfold duoStep at this
      dsimp only at this
      rw [if_pos hpi] at this
      split at this
      · next he => exact he
      · cases this
    have hup : s.up = [] := by
      have := hh .transmit trivial
      unfold duoStep at this
      dsimp only at this
      rw [if_pos hpi] at this
      split at this
      · next he => exact he
      · cases this
    have hask : s.asking = none := by
      cases ha : s.asking with
      | none => rfl
      | some r =>
        have hrep := hans (by rw [ha]; rfl)
        rw [ha] at i1
        rcases i1 with ⟨e, _, _⟩ | ⟨_, e, _⟩ | ⟨_, _, e⟩
        · rw [hrq] at e; cases e
        · rw [hreply] at e; cases e
        · rw [hrep] at e; cases e
    have htodo : s.todo = [] := by
      cases ht : s.todo with
      | nil => rfl
      | cons a acts =>
        have := hh .act trivial
        unfold duoStep at this
        rw [hask, ht] at this
        cases a with
        | request r =>
          dsimp only at this
          rw [hrq, if_pos (show ([] : List Nat).length < cap from hc)] at this
          cases this
        | send m =>
          dsimp only at this
          rw [hup, if_pos (show ([] : List Nat).length < cap from hc)] at this
          cases this
    have hdown : s.down = [] := by
      have := hh (.take []) trivial
      unfold duoStep at this
      dsimp only at this
      rw [if_pos (show s.childIdle = true by simp [Duo.childIdle, htodo, hask])] at this
      split at this
      · next he => exact he
      · cases this
    rw [hask] at i1
    exact ⟨htodo, hask, hrc, hreply, hw, hrq, i1.2.2, hup, hdown⟩

/-! ## Deadlocks are permanent -/

/-- What a deadlock keeps. -/
structure DuoDead (cap : Nat) (s : Duo) : Prop where
  dead : Deadlock cap s
  busy : s.replying = none

theorem duoDead_none {cap : Nat} {s : Duo} {ev : DuoEv} (hd : DuoDead cap s) (he : ∀ f, ev ≠ .arrive f) : duoStep cap s ev = none := by
  obtain ⟨⟨d1, d2, d3, d4⟩, d5⟩ := hd
  have hci : s.childIdle = false := by
    rcases d4 with ⟨ha, _⟩ | ⟨_, _, m, acts, ht⟩
    · obtain ⟨r, ha⟩ := Option.isSome_iff_exists.mp ha
      simp [Duo.childIdle, ha]
    · simp [Duo.childIdle, ht]
  have hpi : s.parentIdle = false := by simp [Duo.parentIdle, d1]
  unfold duoStep
  cases ev with
  | arrive f => exact absurd rfl (he f)
  | start acts => dsimp only; rw [hci]; rfl
  | take acts => dsimp only; rw [hci]; rfl
  | act =>
    rcases d4 with ⟨ha, _⟩ | ⟨ha, hu, m, acts, ht⟩
    · obtain ⟨r, ha⟩ := Option.isSome_iff_exists.mp ha
      rw [ha]
    · rw [ha, ht]
      dsimp only
      rw [if_neg (by omega)]
  | answer =>
    rcases d4 with ⟨ha, hr⟩ | ⟨ha, _⟩
    · obtain ⟨r, ha⟩ := Option.isSome_iff_exists.mp ha
      rw [ha, hr]
    · rw [ha]
  | receive => dsimp only; rw [hpi]; rfl
  | forward =>
    dsimp only
    rw [if_pos d1]
    split
    · rfl
    · rw [if_neg (by omega)]
  | finish =>
    dsimp only
    cases hw : s.wire with
    | nil => exact absurd hw d2
    | cons f r => rw [d1]; rfl
  | serve => dsimp only; rw [hpi]; rfl
  | reply => dsimp only; rw [d5]
  | transmit => dsimp only; rw [hpi]; rfl

theorem duoDead_step {cap : Nat} {s s' : Duo} {ev : DuoEv} (hd : DuoDead cap s) (h : duoStep cap s ev = some s') :
    DuoDead cap s' ∧ s'.handled = s.handled ∧ s'.transmitted = s.transmitted ∧ s'.answers = s.answers ∧ s'.sent = s.sent := by
  cases ev with
  | arrive f =>
    cases h
    obtain ⟨⟨d1, d2, d3, d4⟩, d5⟩ := hd
    exact ⟨⟨⟨d1, by simp, d3, d4⟩, d5⟩, rfl, rfl, rfl, rfl⟩
  | _ =>
    rw [duoDead_none hd (fun _ e => by cases e)] at h
    cases h

theorem duoDead_run {cap : Nat} {evs : List DuoEv} {s s' : Duo} (hd : DuoDead cap s) (h : duoRun cap s evs = some s') :
    DuoDead cap s' ∧ s'.handled = s.handled ∧ s'.transmitted = s.transmitted ∧ s'.answers = s.answers ∧ s'.sent = s.sent := by
  induction evs generalizing s with
  | nil => cases h; exact ⟨hd, rfl, rfl, rfl, rfl⟩
  | cons ev evs ih =>
    unfold duoRun at h
    cases hs : duoStep cap s ev with
    | none => rw [hs] at h; cases h
    | some t =>
      rw [hs] at h
      obtain ⟨a1, a2, a3, a4, a5⟩ := duoDead_step hd hs
      obtain ⟨b1, b2, b3, b4, b5⟩ := ih a1 h
      exact ⟨b1, b2.trans a2, b3.trans a3, b4.trans a4, b5.trans a5⟩

/-! ## Termination -/

/-- First component: frames on their way. -/
def duoFrames (s : Duo) : Nat := 2 * s.wire.length + s.down.length

/-- Second component: the rest of the work. -/
def duoWork (s : Duo) : Nat :=
  6 * s.todo.length + 3 * s.req.length + s.rep.length + s.up.length + s.asking.toList.length + 2 * s.replying.toList.length +
    (if s.receiving then 1 else if s.wire = [] then 0 else 2)

theorem duo_decreases {cap : Nat} {s s' : Duo} {ev : DuoEv} (ho : DuoOwn ev) (h : duoStep cap s ev = some s') :
    duoFrames s' < duoFrames s ∨ duoFrames s' = duoFrames s ∧ duoWork s' < duoWork s := by
  unfold duoStep at h
  cases ev with
  | arrive f => exact ho.elim
  | start acts => exact ho.elim
  | take acts =>
    dsimp only at h
    split at h
    · split at h
      · cases h
      · next f r hd =>
        cases h
        left
        simp only [duoFrames, hd, List.length_cons]
        omega
    · cases h
  | act =>
    right
    dsimp only at h
    split at h
    · next r acts ha ht =>
      split at h
      · cases h
        refine ⟨rfl, ?_⟩
        simp only [duoWork, ha, ht, List.length_cons, List.length_append, List.length_nil, Option.toList]
        omega
      · cases h
    · next m acts ha ht =>
      split at h
      · cases h
        refine ⟨rfl, ?_⟩
        simp only [duoWork, ha, ht, List.length_cons, List.length_append, List.length_nil, Option.toList]
        omega
      · cases h
    · cases h
  | answer =>
    right
    dsimp only at h
    split at h
    · next r x rest ha hr =>
      cases h
      refine ⟨rfl, ?_⟩
      simp only [duoWork, ha, hr, List.length_cons, List.length_nil, Option.toList]
      omega
    · cases h
  | receive =>
    right
    dsimp only at h
    split at h
    · next hc =>
      cases h
      simp only [Duo.parentIdle, Bool.and_eq_true, Bool.not_eq_true'] at hc
      refine ⟨rfl, ?_⟩
      have hw : s.wire ≠ [] := by intro e; rw [e] at hc; exact absurd hc.2 (by decide)
      simp only [duoWork, hc.1.1, if_neg hw]
      simp only [if_true, Bool.false_eq_true, if_false]
      omega
    · cases h
  | forward =>
    left
    dsimp only at h
    split at h
    · split at h
      · cases h
      · next f r hw =>
        split at h
        · cases h
          simp only [duoFrames, hw, List.length_cons, List.length_append, List.length_nil]
          omega
        · cases h
    · cases h
  | finish =>
    right
    dsimp only at h
    split at h
    · next hc =>
      cases h
      simp only [Bool.and_eq_true, List.isEmpty_iff] at hc
      refine ⟨rfl, ?_⟩
      simp only [duoWork, hc.1, hc.2]
      simp only [if_true, Bool.false_eq_true, if_false]
      omega
    · cases h
  | serve =>
    right
    dsimp only at h
    split at h
    · next hc =>
      split at h
      · cases h
      · next r rest hr =>
        cases h
        simp only [Duo.parentIdle, Bool.and_eq_true, Bool.not_eq_true', Option.isNone_iff_eq_none] at hc
        refine ⟨rfl, ?_⟩
        simp only [duoWork, hr, hc.2, List.length_cons, List.length_nil, Option.toList]
        omega
    · cases h
  | reply =>
    right
    dsimp only at h
    split at h
    · cases h
    · next r hr =>
      split at h
      · cases h
        refine ⟨rfl, ?_⟩
        simp only [duoWork, hr, List.length_cons, List.length_append, List.length_nil, Option.toList]
        omega
      · cases h
  | transmit =>
    right
    dsimp only at h
    split at h
    · split at h
      · cases h
      · next m r hu =>
        cases h
        refine ⟨rfl, ?_⟩
        simp only [duoWork, hu, List.length_cons]
        omega
    · cases h

/-- Without events from outside the processes come to rest. -/
theorem duo_acc (cap : Nat) : ∀ (n k : Nat) (s : Duo), duoFrames s = n → duoWork s = k →
    Acc (fun s' s => ∃ ev, DuoOwn ev ∧ duoStep cap s ev = some s') s := by
  intro n
  induction n using Nat.strongRecOn with
  | ind n ihn =>
    intro k
    induction k using Nat.strongRecOn with
    | ind k ihk =>
      intro s hn hk
      refine Acc.intro s ?_
      rintro t ⟨ev, ho, hs⟩
      rcases duo_decreases ho hs with hlt | ⟨he, hlt⟩
      · exact ihn _ (by omega) _ t rfl rfl
      · exact ihk _ (by omega) t (by omega) rfl

/-- The processes do not make frames. -/
theorem duo_room {cap : Nat} {s s' : Duo} {ev : DuoEv} (ho : DuoOwn ev) (h : duoStep cap s ev = some s') :
    s'.wire.length + s'.down.length ≤ s.wire.length + s.down.length := by
  unfold duoStep at h
  cases ev with
  | arrive f => exact ho.elim
  | start acts => exact ho.elim
  | _ =>
    dsimp only at h
    repeat' split at h
    all_goals first
      | (cases h; done)
      | (cases h; simp_all only [List.length_cons, List.length_append, List.length_nil]; omega)
      | (cases h; exact Nat.le_refl _)

end Ladvd
