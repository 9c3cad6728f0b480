import Verif.Props.BsdDaemon
import Verif.Props.Latest
/-!
# C90: the neighbour table of the daemon on FreeBSD
-/

namespace Ladvd.Props

open Ladvd Ladvd.Spec

theorem bsdLatest_eq (c : Conf) (k : Key) (es : List BsdEvent) : ∀ {d : Daemon} (i : Option Info), Good d → (∀ e ∈ es, BsdSaneEvent e) →
    bsdLatest c k es d i = daemonLatest c k (es.map asEvent) d i := by
  induction es with
  | nil => intro d i _ _; rfl
  | cons e es ih =>
    intro d i hd he
    have hse := he e List.mem_cons_self
    unfold bsdLatest
    rw [List.map_cons, daemonLatest, bsdStep_eq c hd hse]
    cases hs : daemonStep c d (asEvent e) with
    | ok d' =>
      dsimp only
      rw [ih _ (good_step hd (sane_asEvent hse) hs) (fun x hx => he x (List.mem_cons_of_mem _ hx))]
      congr 1
      cases e with
      | timer => rfl
      | route k m got => unfold asEvent; dsimp only; cases routeLink got <;> rfl
      | recv => rfl
      | accept => rfl
      | write => rfl
    | fail => rfl
    | oob => rfl
    | abort => rfl
    | stuck => rfl

theorem until_asEvent {now : Int} {e : BsdEvent} (h : BsdUntil now e) : EventUntil now (asEvent e) := by
  cases e with
  | timer => exact h
  | route k m got => unfold asEvent; dsimp only; cases routeLink got <;> trivial
  | recv t r => cases t <;> exact h
  | accept => trivial
  | write => trivial

theorem bsd_map_until {now : Int} {es : List BsdEvent} (h : ∀ e ∈ es, BsdUntil now e) : ∀ e ∈ es.map asEvent, EventUntil now e := by
  intro e he
  obtain ⟨x, hx, rfl⟩ := List.mem_map.mp he
  exact until_asEvent (h x hx)

/-- After every history, what the table says about a neighbour, as far as its lifetime has not ended, is its latest advertisement. -/
theorem C90_table (c : Conf) (d0 d : Daemon) (h0 : Started d0) (hc0 : d0.child = {}) (es : List BsdEvent) (hs : ∀ e ∈ es, BsdSaneEvent e)
    (h : bsdDaemonRun c es d0 = .ok d) (now : Int) (hu : ∀ e ∈ es, BsdUntil now e) (k : Key) :
    unexpired now (lookup d.child.queue k) = unexpired now (bsdLatest c k es d0 none) := by
  have hg := good_started h0
  rw [bsdLatest_eq c k es none hg hs]
  rw [bsdRun_eq c es hg hs] at h
  exact C80_daemon c d0 d hc0 _ h now (bsd_map_until hu) k

/-- One entry per neighbour, and all entries with the same interface and source address are adjacent. -/
theorem C90_unique (c : Conf) (d0 d : Daemon) (h0 : Started d0) (hc0 : d0.child = {}) (es : List BsdEvent) (hs : ∀ e ∈ es, BsdSaneEvent e)
    (h : bsdDaemonRun c es d0 = .ok d) : (d.child.queue.map neighbour).Nodup ∧ Grouped d.child.queue := by
  rw [bsdRun_eq c es (good_started h0) hs] at h
  obtain ⟨ops, ho, -⟩ := run_ops h
  rw [hc0] at ho
  exact ⟨C15_unique c.opts [] ops d.child ho, C18_grouped c.opts [] ops d.child ho⟩

/-- A periodic round removes exactly the entries whose reception time plus lifetime lies in the past, unless a reader is just at them; without
reception it removes none. -/
theorem C90_expiry (c : Conf) (d d' : Daemon) (k : BsdKernel) (m : BsdMedia) (now : Int) (h : bsdDaemonStep c d (.timer k m now) = .ok d')
    (hk : BsdSane k) (hn : (d.child.netifs.map (·.index)).Nodup) :
    d'.child.queue.Sublist d.child.queue ∧
    ∀ e ∈ d.child.queue, e ∈ d'.child.queue ↔ ¬ (c.opts.testBit 2 = true ∧ e.received + e.ttl < now ∧ e.lock = 0) := by
  unfold bsdDaemonStep at h
  dsimp only at h
  rw [bsdSendRound_eq c hk m none hn] at h
  obtain ⟨d1, h1, h2⟩ : ∃ d1, sendRound c (asKernel k) { bsd := some m } none d = .ok d1 ∧
      (if c.opts.has OPT_RECV then d1.lift (childExpire c.opts now d1.child) else .ok d1) = .ok d' := by
    cases hs : sendRound c (asKernel k) { bsd := some m } none d with
    | ok d1 => rw [hs] at h; exact ⟨d1, rfl, h⟩
    | fail => rw [hs] at h; cases h
    | oob => rw [hs] at h; cases h
    | abort => rw [hs] at h; cases h
    | stuck => rw [hs] at h; cases h
  have hq : d1.child.queue = d.child.queue := by rw [sendRound_child h1]
  split at h2
  · next ho =>
    obtain ⟨ch, hch, rfl⟩ := lift_ok h2
    obtain ⟨e1, e2⟩ := C17_exact c.opts now d1.child ch hch
    rw [hq] at e1 e2
    refine ⟨e1, fun e he => ?_⟩
    rw [e2 e he]
    have : c.opts.testBit 2 = true := ho
    simp [this]
  · next ho =>
    injection h2 with h2
    subst h2
    rw [hq]
    refine ⟨List.Sublist.refl _, fun e he => ⟨fun _ hh => ho hh.1, fun _ => he⟩⟩

/-- What is displayed: a client that connects and reads everything displays exactly one row for every neighbour asked for whose latest advertisement is
still valid, with the data of that advertisement and the time it has left, and no other rows.  What is missing: the table must not hold expired entries
asked for; `C20_bleed` shows what they do. -/
theorem C90_shown_partial (c : Conf) (d0 d : Daemon) (h0 : Started d0) (hc0 : d0.child = {}) (es : List BsdEvent) (hs : ∀ e ∈ es, BsdSaneEvent e)
    (hc : ∀ e ∈ es, BsdCaptured e) (h : bsdDaemonRun c es d0 = .ok d) (q : Nat) (hq : d.child.queue.length ≤ q) :
    ∃ d', bsdDaemonRun c [.accept, .write d.child.nextId (some (List.replicate q .ok))] d = .ok d' ∧
    ∀ (cc : CliConf) (now : Int), cc.once = false → cc.mode ≠ .print → (∀ e ∈ es, BsdUntil now e) →
      (∀ x ∈ d.child.queue, asked cc x = true → now - x.received ≤ x.ttl ∧ x.received ≤ now) →
    ∃ l, clientLoop cc now {} ((delivered d'.child d.child.nextId).map CliIn.ofEntry) = .ok l ∧
    ∃ rows : List (Key × Info), l.filterMap (·.2) = rows.map (row now) ∧ (rows.map (·.1)).Nodup ∧
      ∀ k i, (k, i) ∈ rows ↔ askedFor cc k = true ∧ unexpired now (bsdLatest c k es d0 none) = some i := by
  have hg := good_started h0
  rw [bsdRun_eq c es hg hs] at h
  obtain ⟨d', h1, h2⟩ := C80_shown c d0 d hc0 _ (bsd_map_captured hc) h q hq
  refine ⟨d', ?_, ?_⟩
  · rw [bsdRun_eq c _ (good_run h0 (bsd_map_sane hs) h) (by
      intro e he
      simp only [List.mem_cons, List.not_mem_nil, or_false] at he
      rcases he with rfl | rfl <;> trivial)]
    exact h1
  · intro cc now h3 h4 h5 h6
    obtain ⟨l, h7, rows, h8, h9, h10⟩ := h2 cc now h3 h4 (bsd_map_until h5) h6
    refine ⟨l, h7, rows, h8, h9, fun k i => ?_⟩
    rw [bsdLatest_eq c k es none hg hs]
    exact h10 k i

/-! ## Cases -/

/-- A station is heard twice, another once. -/
def bsdHearing : List BsdEvent :=
  let hear := fun (now : Int) (b : UInt8) => BsdEvent.recv (some now) (rawOf ⟨3, .ndp, ndpFrame b⟩)
  [.timer bsdSample bsdNoMedia 0, hear 5 77, hear 6 78, hear 100 77, .timer bsdSample bsdNoMedia 120]

def bsdListener : Daemon := match bsdDaemonRun cRecv bsdHearing dSys with | .ok d => d | _ => dSys

example : Started dSys ∧ dSys.child = {} ∧ (∀ e ∈ bsdHearing, BsdSaneEvent e) ∧ (∀ e ∈ bsdHearing, BsdCaptured e) ∧ (∀ e ∈ bsdHearing, BsdUntil 150 e) ∧
    bsdListener.child.queue.map (fun x => (x.msg[11]?, x.received, x.ttl)) = [(some 77, 100, 180), (some 78, 6, 180)] ∧
    (match bsdDaemonStep cRecv bsdListener (.timer bsdSample bsdNoMedia 200) with
      | .ok d => d.child.queue.map (fun x => x.msg[11]?) | _ => []) = [some 77] := by
  refine ⟨by decide +kernel, by decide +kernel, ?_, ?_, ?_, by decide +kernel, by decide +kernel⟩
  · intro e he
    simp only [bsdHearing, List.mem_cons, List.not_mem_nil, or_false] at he
    rcases he with rfl | rfl | rfl | rfl | rfl <;> first | trivial | exact bsdSample_sane
  · have h : ∀ (now : Int) (b : UInt8), b = 77 ∨ b = 78 → BsdCaptured (.recv (some now) (rawOf ⟨3, .ndp, ndpFrame b⟩)) := fun now b hb =>
      (ndp_captured now b hb : Captured (ndpEvent now b))
    intro e he
    simp only [bsdHearing, List.mem_cons, List.not_mem_nil, or_false] at he
    rcases he with rfl | rfl | rfl | rfl | rfl <;> first | trivial | exact h _ _ (Or.inl rfl) | exact h _ _ (Or.inr rfl)
  · intro e he
    simp only [bsdHearing, List.mem_cons, List.not_mem_nil, or_false] at he
    rcases he with rfl | rfl | rfl | rfl | rfl
    · show (0 : Int) ≤ 150; decide
    · show (0 : Int) < 5 ∧ (5 : Int) ≤ 150; decide
    · show (0 : Int) < 6 ∧ (6 : Int) ≤ 150; decide
    · show (0 : Int) < 100 ∧ (100 : Int) ≤ 150; decide
    · show (120 : Int) ≤ 150; decide

end Ladvd.Props
