import Verif.Spec.Alive
import Verif.Lemmas.Keep
import Verif.Lemmas.Path
import Verif.Props.Send
import Verif.Props.Queue
/-!
# C56: the unprivileged process keeps running
-/

namespace Ladvd.Props

open Spec

/-! ## One event -/

theorem lift_total (d : Daemon) {r : Res Child} (h : ∃ ch, r = .ok ch) : ∃ d', d.lift r = .ok d' := by
  obtain ⟨ch, rfl⟩ := h
  exact ⟨_, rfl⟩

theorem captured_total (o : Opts) (now : Option Int) (r : RawMsg) (hc : Captured (.recv now r)) (st : Child) (he : Ends st.netifs) :
    ∃ st', childQueue o now r st = .ok st' := by
  obtain ⟨index, wire, ms, m, hf, h, hm, rfl⟩ := hc
  obtain ⟨-, -, -, -, -, -, -, l2⟩ := C28_forward index _ ms h m hm
  refine childQueue_total o now (rawOf m) st he m.proto (by unfold rawOf; cases m.proto <;> rfl) ?_ ?_
  · unfold rawOf; dsimp only; omega
  · have := C39_no_crash false index wire hf ms h m hm (List.replicate (ETHER_MAX_LEN - m.frame.length) 0 ++ [1, 0])
      (by rw [List.length_append]; simp) { proto := m.proto.num }
    rw [← List.append_assoc] at this
    exact this

theorem round_total {c : Conf} {k : Kernel} (h : Sane k) (m : Media) (link : Option Nat) {d : Daemon} (hd : Good d) :
    ∃ d', sendRound c k m link d = .ok d' :=
  sendRound_total (good_fetch c h hd).ok (good_fetch c h hd).ends

theorem write_cases (sid : Nat) (ws : Option (List WriteRes)) (st : Child) :
    (∃ st', cliWrite sid ws st = .ok st') ∨ (cliWrite sid ws st = .oob ∧ ws.isSome ∧
      ∃ s ∈ st.sessions, s.sid = sid ∧ ∃ id, s.msg = some id ∧ ∀ e ∈ st.queue, e.id ≠ id) := by
  unfold cliWrite
  cases hf : st.sessions.find? (fun s => s.sid == sid) with
  | none => exact Or.inl ⟨_, rfl⟩
  | some sess =>
    dsimp only
    cases ws with
    | none => exact Or.inl ⟨_, rfl⟩
    | some ws =>
      dsimp only
      cases hs : cliStart st sess with
      | ok qs =>
        left
        simp only [Res.bind_ok]
        cases (cliLoop qs.2 ws).1 <;> exact ⟨_, rfl⟩
      | oob =>
        right
        refine ⟨rfl, rfl, sess, List.mem_of_find?_eq_some hf, by simpa using List.find?_some hf, ?_⟩
        unfold cliStart at hs
        cases hm : sess.msg with
        | none => rw [hm] at hs; cases hs
        | some id =>
          rw [hm] at hs
          dsimp only at hs
          refine ⟨id, rfl, fun e he hid => ?_⟩
          cases hd : (setLock st.queue id (fun n => n + 255)).dropWhile (fun e => e.id != id) with
          | cons e r => rw [hd] at hs; cases hs
          | nil =>
            have hc : id ∈ idsOf (setLock st.queue id (fun n => n + 255)) := by
              rw [setLock_ids]; exact List.mem_map.mpr ⟨e, he, hid⟩
            obtain ⟨x, hx, hxi⟩ := List.mem_map.mp hc
            have ht := List.takeWhile_append_dropWhile (p := fun e : Entry => e.id != id) (l := setLock st.queue id (fun n => n + 255))
            rw [hd, List.append_nil] at ht
            have ha := List.all_takeWhile (p := fun e : Entry => e.id != id) (l := setLock st.queue id (fun n => n + 255))
            rw [ht] at ha
            have := List.all_eq_true.mp ha x hx
            simp [hxi] at this
      | fail => unfold cliStart at hs; split at hs; cases hs; dsimp only at hs; split at hs <;> cases hs
      | abort => unfold cliStart at hs; split at hs; cases hs; dsimp only at hs; split at hs <;> cases hs
      | stuck => unfold cliStart at hs; split at hs; cases hs; dsimp only at hs; split at hs <;> cases hs

/-- One event is handled, or it continues a session at a freed entry. -/
theorem step_total {c : Conf} {d : Daemon} (hd : Good d) {e : Event} (hs : SaneEvent e) (hc : Captured e) :
    (∃ d', daemonStep c d e = .ok d') ∨ (daemonStep c d e = .oob ∧ Dangling d e) := by
  cases e with
  | timer k m now =>
    left
    obtain ⟨d1, h1⟩ := round_total (c := c) hs m none hd
    rw [daemonStep, h1]
    simp only [Res.bind_ok]
    split
    · exact lift_total _ (childExpire_total c.opts now _ (good_round hs hd h1).ends)
    · exact ⟨_, rfl⟩
  | link k m a b i =>
    left
    rw [daemonStep]
    split
    · exact round_total hs m (some i) hd
    · exact ⟨_, rfl⟩
  | recv now r => exact Or.inl (lift_total _ (captured_total c.opts now r hc _ hd.ends))
  | accept => exact Or.inl ⟨_, rfl⟩
  | write sid ws =>
    rcases write_cases sid ws d.child with h | ⟨h, hw, hx⟩
    · exact Or.inl (lift_total _ h)
    · right
      refine ⟨by rw [daemonStep, childStep, h]; rfl, ?_⟩
      cases ws with
      | none => cases hw
      | some ws => exact hx

/-! ## Histories -/

theorem run_total (c : Conf) (es : List Event) : ∀ d0 : Daemon, Good d0 → (∀ e ∈ es, SaneEvent e ∧ Captured e) →
    (∃ d, daemonRun c es d0 = .ok d) ∨
    (daemonRun c es d0 = .oob ∧ ∃ pre e post d, es = pre ++ e :: post ∧ daemonRun c pre d0 = .ok d ∧ Dangling d e) := by
  induction es with
  | nil => intro d0 _ _; exact Or.inl ⟨d0, rfl⟩
  | cons e es ih =>
    intro d0 hd hall
    obtain ⟨hs, hc⟩ := hall e (List.mem_cons_self ..)
    rw [daemonRun]
    rcases step_total (c := c) hd hs hc with ⟨d1, h1⟩ | ⟨h1, hx⟩
    · rw [h1]
      simp only [Res.bind_ok]
      rcases ih d1 (good_step hd hs h1) (fun x hx => hall x (List.mem_cons_of_mem _ hx)) with h | ⟨h, pre, e', post, d, rfl, hr, hx⟩
      · exact Or.inl h
      · exact Or.inr ⟨h, e :: pre, e', post, d, rfl, by rw [daemonRun, h1]; exact hr, hx⟩
    · rw [h1]
      exact Or.inr ⟨rfl, [], e, es, d0, rfl, rfl, hx⟩

/-- Whatever arrives from the network, the kernel and the clients, in whatever order: the process handles all of it, unless a client session is
continued at a table entry that has been freed, and then it accesses freed memory.  It never fails an assertion, never loops for ever. -/
theorem C56_only_clients (c : Conf) (d0 : Daemon) (h0 : Started d0) (es : List Event) (hs : ∀ e ∈ es, SaneEvent e)
    (hc : ∀ e ∈ es, Captured e) :
    (∃ d, daemonRun c es d0 = .ok d) ∨
    (daemonRun c es d0 = .oob ∧ ∃ pre e post d, es = pre ++ e :: post ∧ daemonRun c pre d0 = .ok d ∧ Dangling d e) :=
  run_total c es d0 (good_started h0) (fun e he => ⟨hs e he, hc e he⟩)

theorem sessions_step {c : Conf} {d d' : Daemon} {e : Event} (hn : NotAccept e) (h : daemonStep c d e = .ok d')
    (hd : d.child.sessions = []) : d'.child.sessions = [] := by
  cases e with
  | timer k m now =>
    rw [daemonStep] at h
    cases hr : sendRound c k m none d with
    | ok d1 =>
      rw [hr] at h
      simp only [Res.bind_ok] at h
      have h1 : d1.child.sessions = [] := by rw [sendRound_child hr]; exact hd
      split at h
      · obtain ⟨ch, hc, rfl⟩ := lift_ok h
        exact (childExpire_frame hc).2.1.trans h1
      · injection h with h; subst h; exact h1
    | fail => rw [hr] at h; cases h
    | oob => rw [hr] at h; cases h
    | abort => rw [hr] at h; cases h
    | stuck => rw [hr] at h; cases h
  | link k m a b i =>
    rw [daemonStep] at h
    split at h
    · rw [sendRound_child h]; exact hd
    · injection h with h; subst h; exact hd
  | recv now r =>
    obtain ⟨ch, hc, rfl⟩ := lift_ok h
    exact (recv_sessions hc).trans hd
  | accept => exact hn.elim
  | write sid ws =>
    obtain ⟨ch, hc, rfl⟩ := lift_ok h
    change cliWrite sid ws d.child = .ok ch at hc
    unfold cliWrite at hc
    rw [hd] at hc
    injection hc with hc
    subst hc
    exact hd

/-- Without clients the process keeps running whatever else happens. -/
theorem C56_no_clients (c : Conf) (d0 : Daemon) (h0 : Started d0) (es : List Event) (hs : ∀ e ∈ es, SaneEvent e)
    (hc : ∀ e ∈ es, Captured e) (hn : ∀ e ∈ es, NotAccept e) : ∃ d, daemonRun c es d0 = .ok d := by
  rcases C56_only_clients c d0 h0 es hs hc with h | ⟨-, pre, e, post, d, he, hr, hx⟩
  · exact h
  · exfalso
    have hp : ∀ pre d, daemonRun c pre d0 = .ok d → (∀ e ∈ pre, NotAccept e) → d.child.sessions = [] :=
      run_induction (fun _ => h0.2.2.1) (fun es e d d' _ ih hst hall =>
        sessions_step (hall e (List.mem_append_right _ (List.mem_singleton.mpr rfl))) hst
          (ih (fun x hx => hall x (List.mem_append_left _ hx))))
    have hse := hp pre d hr (fun x hx => hn x (by rw [he]; exact List.mem_append_left _ hx))
    cases e with
    | write sid ws =>
      cases ws with
      | none => exact hx
      | some ws =>
        obtain ⟨s, hs', -⟩ := hx
        rw [hse] at hs'
        cases hs'
    | timer k m now => exact hx
    | link k m a b i => exact hx
    | recv now r => exact hx
    | accept => exact hx

/-! ## Clients that do not interfere -/

theorem lockInv_congr {st st' : Child} (h : LockInv st) (hq : st'.queue = st.queue) (hs : st'.sessions = st.sessions) : LockInv st' :=
  ⟨by rw [hq, hs]; exact h.held, by rw [hq, hs]; exact h.count, by rw [hs]; exact h.few⟩

theorem orderly_step {c : Conf} {d d' : Daemon} {e : Event} (hi : Inv d.child) (hl : LockInv d.child) (ho : Orderly d e)
    (h : daemonStep c d e = .ok d') : Inv d'.child ∧ LockInv d'.child := by
  refine ⟨?_, ?_⟩
  · obtain ⟨ops, hr⟩ := step_child h
    exact inv_run hi hr
  · have one : ∀ {op : ChildOp} {ch : Child}, Calm d.child op → childStep c.opts d.child op = .ok ch → LockInv ch := by
      intro op ch hcalm hs
      exact calm_inv (o := c.opts) (ops := [op]) hi hl ⟨hcalm, fun _ _ => trivial⟩ (by simp only [childRun, hs, Res.bind_ok])
    have round : ∀ {k m link d1}, sendRound c k m link d = .ok d1 → LockInv d1.child := by
      intro k m link d1 hr
      have := sendRound_child hr
      exact lockInv_congr hl (by rw [this]) (by rw [this])
    cases e with
    | timer k m now =>
      rw [daemonStep] at h
      cases hr : sendRound c k m none d with
      | ok d1 =>
        rw [hr] at h
        simp only [Res.bind_ok] at h
        split at h
        · obtain ⟨ch, hc, rfl⟩ := lift_ok h
          obtain ⟨hq, h1, -⟩ := childExpire_frame hc
          exact lock_filter (round hr) now hq h1
        · injection h with h; subst h; exact round hr
      | fail => rw [hr] at h; cases h
      | oob => rw [hr] at h; cases h
      | abort => rw [hr] at h; cases h
      | stuck => rw [hr] at h; cases h
    | link k m a b i =>
      rw [daemonStep] at h
      split at h
      · exact round h
      · injection h with h; subst h; exact hl
    | recv now r => obtain ⟨ch, hc, rfl⟩ := lift_ok h; exact one (op := .recv now r) ho hc
    | accept => obtain ⟨ch, hc, rfl⟩ := lift_ok h; exact one (op := .accept) ho hc
    | write sid ws =>
      obtain ⟨ch, hc, rfl⟩ := lift_ok h
      refine one (op := .write sid ws) ?_ hc
      cases ws with
      | none => exact ho
      | some ws => trivial

theorem orderly_total (c : Conf) (es : List Event) : ∀ d0 : Daemon, Good d0 → Inv d0.child → LockInv d0.child →
    (∀ e ∈ es, SaneEvent e ∧ Captured e) → OrderlyRun c d0 es → ∃ d, daemonRun c es d0 = .ok d := by
  induction es with
  | nil => intro d0 _ _ _ _ _; exact ⟨d0, rfl⟩
  | cons e es ih =>
    intro d0 hd hi hl hall ho
    obtain ⟨hs, hc⟩ := hall e (List.mem_cons_self ..)
    rw [daemonRun]
    rcases step_total (c := c) hd hs hc with ⟨d1, h1⟩ | ⟨-, hx⟩
    · rw [h1]
      simp only [Res.bind_ok]
      obtain ⟨hi1, hl1⟩ := orderly_step hi hl ho.1 h1
      exact ih d1 (good_step hd hs h1) hi1 hl1 (fun x hx => hall x (List.mem_cons_of_mem _ hx)) (ho.2 d1 h1)
    · exfalso
      cases e with
      | write sid ws =>
        cases ws with
        | none => exact hx
        | some ws =>
          obtain ⟨s, hs', -, id, hm, hno⟩ := hx
          obtain ⟨e, he, hid⟩ := List.mem_map.mp (hl.held s hs' id hm)
          exact hno e he hid
      | timer k m now => exact hx
      | link k m a b i => exact hx
      | recv now r => exact hx
      | accept => exact hx

/-- With clients that do not interfere (no frame of a neighbour while a client is waiting for its entry, no client waiting for more than the timeout, at most
255 clients at once) the process keeps running.  The full claim has no such hypothesis; it is false (`C56_use_after_free`). -/
theorem C56_partial (c : Conf) (d0 : Daemon) (hd : d0.child = {}) (hsys : SysOk d0.sys) (es : List Event) (hs : ∀ e ∈ es, SaneEvent e)
    (hc : ∀ e ∈ es, Captured e) (ho : OrderlyRun c d0 es) : ∃ d, daemonRun c es d0 = .ok d := by
  have h0 : Started d0 := by refine ⟨?_, ?_, ?_, hsys⟩ <;> rw [hd]
  exact orderly_total c es d0 (good_started h0) (by rw [hd]; exact inv_init []) (by rw [hd]; exact ⟨by simp, by simp, by simp⟩)
    (fun e he => ⟨hs e he, hc e he⟩) ho

/-! ## Samples -/

/-- A 62 byte NDP frame from the station `02:00:00:00:00:b`. -/
def ndpFrame (b : UInt8) : Bytes :=
  [0x01, 0x00, 0x81, 0x00, 0x01, 0x00, 2, 0, 0, 0, 0, b, 0, 48, 0xaa, 0xaa, 3, 0, 0, 0x81, 0x01, 0xa2, 10, 0, 0, 1, 0, 0, 1] ++
    List.replicate 33 0

/-- Its reception on interface 3. -/
def ndpEvent (now : Int) (b : UInt8) : Event := .recv (some now) (rawOf ⟨3, .ndp, ndpFrame b⟩)

theorem ndp_captured (now : Int) (b : UInt8) (hb : b = 77 ∨ b = 78) : Captured (ndpEvent now b) := by
  refine ⟨3, [ndpFrame b], [⟨3, .ndp, ndpFrame b⟩], ⟨3, .ndp, ndpFrame b⟩, ?_, ?_, List.mem_singleton.mpr rfl, rfl⟩
  · intro f hf
    rw [List.mem_singleton.mp hf]
    exact (C11_exact _).2.mpr (Or.inl ⟨[10, 0, 0, 1, 0, 0, 1] ++ List.replicate 33 0, Or.inr (Or.inr (Or.inr
      ⟨_, ⟨[2, 0, 0, 0, 0, b], [0, 48], rfl, rfl, Or.inl ⟨rfl, by decide⟩⟩, rfl⟩))⟩)
  · rcases hb with rfl | rfl <;> decide +kernel

/-- The daemon listens and sends LLDP. -/
def cRecv : Conf := { opts := (1 <<< OPT_SEND) ||| (1 <<< OPT_RECV), enabled := fun p => p == .lldp }

/-- A client stops reading at an entry, the entry is received again, which resets its lock count, and expires; then the client
continues: freed memory is accessed. -/
theorem C56_use_after_free :
    let es := [.timer sampleKernel {} 0, ndpEvent 5 77, .accept, .write 1 (some [.again]), ndpEvent 10 77, .timer sampleKernel {} 1000,
      .write 1 (some [.ok])]
    Started dSys ∧ (∀ e ∈ es, SaneEvent e) ∧ (∀ e ∈ es, Captured e) ∧ daemonRun cRecv es dSys = .oob := by
  refine ⟨by decide +kernel, ?_, ?_, by decide +kernel⟩
  · intro e he
    simp only [List.mem_cons, List.not_mem_nil, or_false] at he
    rcases he with rfl | rfl | rfl | rfl | rfl | rfl | rfl <;> first | trivial | decide +kernel
  · intro e he
    simp only [List.mem_cons, List.not_mem_nil, or_false] at he
    rcases he with rfl | rfl | rfl | rfl | rfl | rfl | rfl <;> first | trivial | exact ndp_captured _ _ (Or.inl rfl)

/-- A history that meets the hypotheses of `C56_partial`: a client blocks at the entry of one neighbour while the other neighbour is heard and
rounds take place; then it reads the rest. -/
def orderlyEvents : List Event :=
  [.timer sampleKernel {} 0, ndpEvent 5 77, ndpEvent 6 78, .accept, .write 2 (some [.again]), ndpEvent 10 78, .timer sampleKernel {} 1000,
   .link sampleKernel {} true true 2, .write 2 (some [.ok, .ok])]

example : dSys.child = {} ∧ SysOk dSys.sys ∧ (∀ e ∈ orderlyEvents, SaneEvent e) ∧ (∀ e ∈ orderlyEvents, Captured e) ∧
    OrderlyRun cRecv dSys orderlyEvents ∧
    (match daemonRun cRecv orderlyEvents dSys with
      | .ok d => (d.child.sent.map (·.1), d.child.queue.length, d.child.sessions.length, d.tx.length) | _ => ([], 9, 9, 9)) = ([2], 1, 0, 7) := by
  refine ⟨rfl, by decide +kernel, ?_, ?_, by decide +kernel, by decide +kernel⟩
  · intro e he
    simp only [orderlyEvents, List.mem_cons, List.not_mem_nil, or_false] at he
    rcases he with rfl | rfl | rfl | rfl | rfl | rfl | rfl | rfl | rfl <;> first | trivial | decide +kernel
  · intro e he
    simp only [orderlyEvents, List.mem_cons, List.not_mem_nil, or_false] at he
    rcases he with rfl | rfl | rfl | rfl | rfl | rfl | rfl | rfl | rfl <;>
      first | trivial | exact ndp_captured _ _ (Or.inl rfl) | exact ndp_captured _ _ (Or.inr rfl)

/-- Without clients: rounds, a frame and a link event. -/
example : let es := [.timer sampleKernel {} 0, ndpEvent 5 77, .link downKernel {} true true 2, .timer sampleKernel {} 1000]
    Started dSys ∧ (∀ e ∈ es, NotAccept e) ∧ (match daemonRun cRecv es dSys with | .ok d => some d.tx.length | _ => none) = some 6 := by
  refine ⟨by decide +kernel, ?_, by decide +kernel⟩
  intro e he
  simp only [List.mem_cons, List.not_mem_nil, or_false] at he
  rcases he with rfl | rfl | rfl | rfl <;> trivial

end Ladvd.Props
