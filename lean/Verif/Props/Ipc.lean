import Verif.Lemmas.Ipc
/-!
# C75: the exchange between the processes
-/

namespace Ladvd.Props
open Spec

/-! ## Order and completeness -/

/-- **C75**: every reply belongs to the request that it is taken for, whatever happens meanwhile. -/
theorem C75_replies (cap : Nat) (evs : List DuoEv) (s : Duo) (h : duoRun cap {} evs = some s) : ∀ a ∈ s.answers, a.1 = a.2 :=
  (duoInv_run (duoInv_init cap) h).same

/-- **C75**: received frames are handled once each in the order of their arrival; those not handled yet are still there. -/
theorem C75_frames (cap : Nat) (evs : List DuoEv) (s : Duo) (h : duoRun cap {} evs = some s) : s.arrived = s.handled ++ s.down ++ s.wire :=
  (duoInv_run (duoInv_init cap) h).frames

/-- **C75**: packets are transmitted once each in the order in which they were made. -/
theorem C75_packets (cap : Nat) (evs : List DuoEv) (s : Duo) (h : duoRun cap {} evs = some s) : s.sent = s.transmitted ++ s.up :=
  (duoInv_run (duoInv_init cap) h).packets

/-- A request is answered while frames arrive; two packets are made. -/
example : (match duoRun 2 {} [.start [.send 20, .request 7, .send 21], .act, .arrive 1, .act, .arrive 2, .receive, .forward, .forward,
      .finish, .arrive 3, .transmit, .serve, .reply, .answer, .act, .take [], .receive] with
    | some s => decide (s.answers = [(7, 7)] ∧ s.handled = [1] ∧ s.down = [2] ∧ s.wire = [3] ∧ s.transmitted = [20] ∧ s.up = [21])
    | none => false) = true := by decide

/-! ## Coming to rest -/

/-- **C75**: the processes do not keep each other busy: without events from outside they do only finitely many steps. -/
theorem C75_finite (cap : Nat) : ¬ ∃ f : Nat → Duo, ∀ n, ∃ ev, DuoOwn ev ∧ duoStep cap (f n) ev = some (f (n + 1)) := by
  rintro ⟨f, hf⟩
  have key : ∀ s, Acc (fun s' s => ∃ ev, DuoOwn ev ∧ duoStep cap s ev = some s') s → ∀ n, f n = s → False := by
    intro s hs
    induction hs with
    | intro s _ ih => intro n hn; subst hn; exact ih (f (n + 1)) (hf n) (n + 1) rfl
  exact key (f 0) (duo_acc cap _ _ _ rfl rfl) 0 rfl

/-- **C75**: if nothing can be done any more, everything has been done, or the processes wait for each other. -/
theorem C75_halted (cap : Nat) (hc : 0 < cap) (evs : List DuoEv) (s : Duo) (h : duoRun cap {} evs = some s) :
    Halted cap s ↔ Settled s ∨ Deadlock cap s := by
  have hi := duoInv_run (duoInv_init cap) h
  refine ⟨halted_cases hc hi, ?_⟩
  rintro (⟨s1, s2, s3, s4, s5, s6, s7, s8, s9⟩ | hd) ev ho
  · unfold duoStep
    cases ev with
    | arrive f => exact ho.elim
    | start acts => exact ho.elim
    | _ => simp [s1, s2, s3, s4, s5, s6, s8, s9]
  · refine duoDead_none ⟨hd, hi.busy hd.1⟩ (fun f e => ?_)
    rw [e] at ho
    exact ho

/-- **C75**: everything gets done, in every order of the steps: while no more frames are on their way than the queue has room for, the processes
come to rest only when every frame has been handled, every packet transmitted, every request answered and every handler finished.  Missing for the
full statement: larger numbers of frames (see `C75_deadlock`). -/
theorem C75_done_partial (cap : Nat) (hc : 0 < cap) (evs : List DuoEv) (s : Duo) (h : duoRun cap {} evs = some s)
    (hr : s.wire.length + s.down.length ≤ cap) (evs' : List DuoEv) (ho : ∀ ev ∈ evs', DuoOwn ev) (s' : Duo) (h' : duoRun cap s evs' = some s') :
    (Halted cap s' → Settled s' ∧ s'.handled = s'.arrived ∧ s'.transmitted = s'.sent) ∧
      ∃ evs'' s'', (∀ ev ∈ evs'', DuoOwn ev) ∧ duoRun cap s' evs'' = some s'' ∧ Settled s'' := by
  have hroom : ∀ (evs : List DuoEv) (s s' : Duo), (∀ ev ∈ evs, DuoOwn ev) → duoRun cap s evs = some s' →
      s'.wire.length + s'.down.length ≤ s.wire.length + s.down.length := by
    intro evs
    induction evs with
    | nil => intro s s' _ h; cases h; exact Nat.le_refl _
    | cons ev evs ih =>
      intro s s' ho h
      unfold duoRun at h
      cases hs : duoStep cap s ev with
      | none => rw [hs] at h; cases h
      | some t =>
        rw [hs] at h
        exact Nat.le_trans (ih t s' (fun x hx => ho x (List.mem_cons_of_mem _ hx)) h) (duo_room (ho ev List.mem_cons_self) hs)
  have hi' := duoInv_run (duoInv_run (duoInv_init cap) h) h'
  have hr' := Nat.le_trans (hroom evs' s s' ho h') hr
  have hset : ∀ t, DuoInv cap t → t.wire.length + t.down.length ≤ cap → Halted cap t → Settled t := by
    intro t ht hrt hh
    rcases halted_cases hc ht hh with h1 | ⟨_, d2, d3, _⟩
    · exact h1
    · exfalso
      have : t.wire.length ≠ 0 := fun e => d2 (List.length_eq_zero_iff.mp e)
      omega
  refine ⟨fun hh => ?_, ?_⟩
  · have hs := hset s' hi' hr' hh
    refine ⟨hs, ?_, ?_⟩
    · rw [hi'.frames, hs.2.2.2.2.1, hs.2.2.2.2.2.2.2.2, List.append_nil, List.append_nil]
    · rw [hi'.packets, hs.2.2.2.2.2.2.2.1, List.append_nil]
  · have hacc := duo_acc cap _ _ s' rfl rfl
    clear h' h hr ho
    induction hacc with
    | intro t _ ih =>
      by_cases hh : Halted cap t
      · exact ⟨[], t, fun _ hx => (nomatch hx), rfl, hset t hi' hr' hh⟩
      · obtain ⟨ev, hev⟩ := Classical.not_forall.mp hh
        obtain ⟨hown, hne⟩ := Classical.not_imp.mp hev
        cases hs : duoStep cap t ev with
        | none => exact absurd hs hne
        | some u =>
          obtain ⟨evs'', s'', k1, k2, k3⟩ := ih u ⟨ev, hown, hs⟩ (duoInv_step hi' hs) (Nat.le_trans (duo_room hown hs) hr')
          refine ⟨ev :: evs'', s'', ?_, ?_, k3⟩
          · intro x hx
            rcases List.mem_cons.mp hx with rfl | hx
            · exact hown
            · exact k1 x hx
          · unfold duoRun
            rw [hs]
            exact k2

/-- **C75**: without reception nothing can go wrong. -/
theorem C75_sending (cap : Nat) (hc : 0 < cap) (evs : List DuoEv) (s : Duo) (h : duoRun cap {} evs = some s) (hn : ∀ f, .arrive f ∉ evs) :
    ¬ Deadlock cap s := by
  have hi := (duoInv_run (duoInv_init cap) h).frames
  have : ∀ (evs : List DuoEv) (s s' : Duo), (∀ f, .arrive f ∉ evs) → duoRun cap s evs = some s' → s'.arrived = s.arrived := by
    intro evs
    induction evs with
    | nil => intro s s' _ h; cases h; rfl
    | cons ev evs ih =>
      intro s s' hn h
      unfold duoRun at h
      cases hs : duoStep cap s ev with
      | none => rw [hs] at h; cases h
      | some t =>
        rw [hs] at h
        rw [ih t s' (fun f hf => hn f (List.mem_cons_of_mem _ hf)) h]
        unfold duoStep at hs
        cases ev with
        | arrive f => exact absurd List.mem_cons_self (hn f)
        | _ =>
          dsimp only at hs
          repeat' split at hs
          all_goals first
            | (cases hs; done)
            | (cases hs; rfl)
  rw [this evs {} s hn h] at hi
  rintro ⟨_, hw, _⟩
  have := congrArg List.length hi
  simp only [List.length_append, List.length_nil] at this
  exact hw (List.length_eq_zero_iff.mp (by omega))

/-! ## Defect -/

/-- **C75**: a deadlock is final: whatever happens afterwards, no frame is handled, no packet made or transmitted and no request answered. -/
theorem C75_forever (cap : Nat) (evs : List DuoEv) (s : Duo) (h : duoRun cap {} evs = some s) (hd : Deadlock cap s) (evs' : List DuoEv) (s' : Duo)
    (h' : duoRun cap s evs' = some s') :
    s'.handled = s.handled ∧ s'.transmitted = s.transmitted ∧ s'.answers = s.answers ∧ s'.sent = s.sent ∧ Deadlock cap s' := by
  have hi := duoInv_run (duoInv_init cap) h
  obtain ⟨k1, k2, k3, k4, k5⟩ := duoDead_run ⟨hd, hi.busy hd.1⟩ h'
  exact ⟨k2, k3, k4, k5, k1.dead⟩

theorem duoRun_append {cap : Nat} {a b : List DuoEv} {s t : Duo} (h : duoRun cap s a = some t) : duoRun cap s (a ++ b) = duoRun cap t b := by
  induction a generalizing s with
  | nil => cases h; rfl
  | cons ev a ih =>
    unfold duoRun at h
    rw [List.cons_append]
    show (duoStep cap s ev).bind (fun s => duoRun cap s (a ++ b)) = _
    cases hs : duoStep cap s ev with
    | none => rw [hs] at h; cases h
    | some u => rw [hs] at h; exact ih h

/-- `n` frames arrive. -/
theorem duoRun_arrive (cap : Nat) : ∀ (n : Nat) (s : Duo), duoRun cap s (List.replicate n (.arrive 0)) =
    some { s with wire := s.wire ++ List.replicate n 0, arrived := s.arrived ++ List.replicate n 0 } := by
  intro n
  induction n with
  | zero => intro s; simp [duoRun]
  | succ n ih =>
    intro s
    rw [List.replicate_succ]
    unfold duoRun duoStep
    rw [Option.bind_some, ih]
    simp only [List.append_assoc, List.singleton_append, List.replicate_succ]

/-- They are passed on. -/
theorem duoRun_forward (cap : Nat) : ∀ (n : Nat) (s : Duo) (rest : List Nat), s.receiving = true → s.wire = List.replicate n 0 ++ rest →
    s.down.length + n ≤ cap → duoRun cap s (List.replicate n .forward) = some { s with wire := rest, down := s.down ++ List.replicate n 0 } := by
  intro n
  induction n with
  | zero =>
    intro s rest _ hw _
    rw [List.replicate_zero, List.nil_append] at hw
    subst hw
    simp [duoRun]
  | succ n ih =>
    intro s rest hr hw hc
    rw [List.replicate_succ] at hw ⊢
    unfold duoRun duoStep
    dsimp only
    rw [if_pos hr, hw]
    dsimp only [List.cons_append]
    rw [if_pos (by omega), Option.bind_some]
    have := ih { s with wire := List.replicate n 0 ++ rest, down := s.down ++ [0] } rest hr rfl
      (by simp only [List.length_append, List.length_singleton]; omega)
    rw [this]
    simp only [List.append_assoc, List.singleton_append, List.replicate_succ]

/-- The history that leads to it. -/
def duoTrap (cap : Nat) : List DuoEv :=
  [.start [.request 7], .act] ++ List.replicate (cap + 1) (.arrive 0) ++ [.receive] ++ List.replicate cap .forward

/-- **C75** is false: while the unprivileged process waits for the reply to a request, neighbours (or an attacker) send one frame more than the queue has
room for, and the privileged process reads them before the request.  Then it waits for room in the queue, which the unprivileged process
would make after the reply: neither continues, forever (`C75_forever`). -/
theorem C75_deadlock (cap : Nat) : ∃ evs s, duoRun cap {} evs = some s ∧ Deadlock cap s := by
  by_cases hc : cap = 0
  · subst hc
    refine ⟨[.start [.send 1], .arrive 0, .receive], _, rfl, ?_⟩
    exact ⟨rfl, by decide, rfl, .inr ⟨rfl, rfl, 1, [], rfl⟩⟩
  · have hc : 0 < cap := Nat.pos_of_ne_zero hc
    have h1 : duoRun cap {} [.start [.request 7], .act] = some { asking := some 7, req := [7] } := by
      simp [duoRun, duoStep, Duo.childIdle, hc]
    have h2 := duoRun_arrive cap (cap + 1) { asking := some 7, req := [7] }
    have h3 : duoRun cap { asking := some 7, req := [7], wire := List.replicate (cap + 1) 0, arrived := List.replicate (cap + 1) 0 } [.receive] =
        some { asking := some 7, req := [7], wire := List.replicate (cap + 1) 0, arrived := List.replicate (cap + 1) 0, receiving := true } := by
      simp [duoRun, duoStep, Duo.parentIdle, List.replicate_succ]
    have h4 := duoRun_forward cap cap
      { asking := some 7, req := [7], wire := List.replicate (cap + 1) 0, arrived := List.replicate (cap + 1) 0, receiving := true } [0] rfl
      (by rw [List.replicate_succ']) (by simp)
    refine ⟨duoTrap cap, { asking := some 7, req := [7], wire := [0], arrived := List.replicate (cap + 1) 0, receiving := true,
                           down := List.replicate cap 0 }, ?_, ?_⟩
    · unfold duoTrap
      rw [List.append_assoc, List.append_assoc, duoRun_append h1, duoRun_append h2]
      simp only [List.nil_append]
      rw [duoRun_append h3]
      exact h4
    · refine ⟨rfl, by simp, by simp, .inl ⟨rfl, rfl⟩⟩

/-- Likewise while it has more packets to send than the queue has room for, as with many interfaces. -/
example : (match duoRun 2 {} ([.start [.send 1, .send 2, .send 3], .act, .act] ++ List.replicate 3 (.arrive 0) ++ [.receive, .forward, .forward]) with
    | some s => decide (s.receiving = true ∧ s.wire = [0] ∧ s.down.length = 2 ∧ s.asking = none ∧ s.up.length = 2 ∧ s.todo = [.send 3])
    | none => false) = true := by decide

/-- If the privileged process reads the request first, all goes well: the hypotheses of `C75_done_partial` and a history that ends settled. -/
example : (match duoRun 2 {} ([.start [.request 7], .act, .arrive 0, .arrive 0, .serve, .reply, .receive, .answer, .forward, .take [], .forward,
      .take [.request 8], .act, .finish, .serve, .reply, .answer]) with
    | some s => decide (s.todo = [] ∧ s.asking = none ∧ s.wire = [] ∧ s.down = [] ∧ s.handled = [0, 0] ∧ s.answers = [(7, 7), (8, 8)])
    | none => false) = true := by decide

end Ladvd.Props
