import Verif.Lemmas.Follow
import Verif.Props.Send
/-!
# C83: with `-a` the protocols follow the neighbours
-/

namespace Ladvd.Props

open Spec

/-- Only one interface is announced on a port. -/
theorem due_one {c : Conf} {k : Kernel} {addrs : List IfAddr} (hk : Sane k) (haddr : k.ifaddrs = some addrs)
    (hno : NoOverlap c k (usables k addrs)) {known : Nat → Nat} {e : Link} (he : e ∈ usables k addrs)
    (hch : Chosen c k (usables k addrs) e) (hal : linkAllowed c e) {s : Link} (hs : s ∈ usables k addrs) (hsal : linkAllowed c s)
    (hon : SendsOn k (usables k addrs) e s) {p : Proto} (hp : c.enabled p = false) :
    Due c k (usables k addrs) known s.index p ↔ (known e.index).testBit p.num = true := by
  obtain ⟨hok, -, hagg⟩ := sane_fetch hk haddr
  constructor
  · rintro ⟨e', he', hch', -, s', hs', hsi, -, hon', hbit⟩
    have hss : s' = s := nodup_map_inj hok.index hs' hs hsi
    subst hss
    have hee : e' = e := by
      unfold SendsOn at hon hon'
      by_cases h1 : e.kind > 10
      · rw [if_pos h1] at hon
        by_cases h2 : e'.kind > 10
        · rw [if_pos h2] at hon'
          exact (hagg e' he').2.1 e he _ hon' hon
        · rw [if_neg h2] at hon'
          subst hon'
          exact absurd hon (hno _ he' hch' e he hch)
      · rw [if_neg h1] at hon
        subst hon
        by_cases h2 : e'.kind > 10
        · rw [if_pos h2] at hon'
          exact absurd hon' (hno _ he hch e' he' hch')
        · rw [if_neg h2] at hon'
          exact hon'.symm
    subst hee
    rcases hbit with h | h
    · rw [hp] at h; cases h
    · exact h
  · intro h
    exact ⟨e, he, hch, hal, s, hs, rfl, hsal, hon, Or.inr h⟩

theorem num_lt (p : Proto) : p.num < 8 := by cases p <;> decide

/-- With `-a`: a protocol that is not enabled is announced on an interface, or on the ports of an aggregate, in the next round if and
only if at that moment the table holds a neighbour speaking it on the interface or on one of the ports.  What is missing: once listed,
the interface must stay listed with the same ports; see `C83_stale` and `C83_forgotten`. -/
theorem C83_round_partial (c : Conf) (hsend : c.opts.testBit 1 = true) (hauto : c.opts.testBit 3 = true)
    (d0 : Daemon) (h0 : Started d0) (i : Nat) (J : List Nat) (pre post : List Event) (hsane : ∀ e ∈ pre ++ post, SaneEvent e)
    (hpre : ∀ e ∈ pre, Refreshed (NotYet i J) e) (hpost : ∀ e ∈ post, Refreshed (HasPorts c i J) e ∧ FromPorts i J e)
    (d : Daemon) (hr : daemonRun c (pre ++ post) d0 = .ok d)
    (k : Kernel) (m : Media) (now : Int) (addrs : List IfAddr) (hw : Workable c k addrs d) (hno : NoOverlap c k (usables k addrs))
    (e : Link) (he : e ∈ usables k addrs) (hi : e.index = i) (hch : Chosen c k (usables k addrs) e) (hal : linkAllowed c e)
    (s : Link) (hs : s ∈ usables k addrs) (hsal : linkAllowed c s) (hon : SendsOn k (usables k addrs) e s)
    (p : Proto) (hp : c.enabled p = false) :
    ∃ d' new, daemonStep c d (.timer k m now) = .ok d' ∧ d'.tx = d.tx ++ new ∧
      ((s.index, p) ∈ new.map (fun t => (t.index, t.proto)) ↔ ∃ q ∈ d.child.queue, q.index ∈ J ∧ q.proto = p.num) := by
  obtain ⟨d', new, h1, h2, -, h3⟩ := C23_round_partial c hsend d0 h0 (pre ++ post) hsane d hr k m now addrs hw
  refine ⟨d', new, h1, h2, ?_⟩
  rw [h3, due_one hw.sane hw.listed hno he hch hal hs hsal hon hp, hi]
  exact follow_known (follow_run hauto hw.argv h0 hsane hpre hpost hr) p.num (num_lt p)

/-- The same for the advertisements sent at once when the link of a port goes up. -/
theorem C83_link_partial (c : Conf) (hsend : c.opts.testBit 1 = true) (hauto : c.opts.testBit 3 = true)
    (d0 : Daemon) (h0 : Started d0) (i : Nat) (J : List Nat) (pre post : List Event) (hsane : ∀ e ∈ pre ++ post, SaneEvent e)
    (hpre : ∀ e ∈ pre, Refreshed (NotYet i J) e) (hpost : ∀ e ∈ post, Refreshed (HasPorts c i J) e ∧ FromPorts i J e)
    (d : Daemon) (hr : daemonRun c (pre ++ post) d0 = .ok d)
    (k : Kernel) (m : Media) (addrs : List IfAddr) (hw : Workable c k addrs d) (hno : NoOverlap c k (usables k addrs))
    (e : Link) (he : e ∈ usables k addrs) (hi : e.index = i) (hch : Chosen c k (usables k addrs) e) (hal : linkAllowed c e)
    (s : Link) (hs : s ∈ usables k addrs) (hsal : linkAllowed c s) (hon : SendsOn k (usables k addrs) e s)
    (hf : flaps d s.index ≤ 3) (p : Proto) (hp : c.enabled p = false) :
    ∃ d' new, daemonStep c d (.link k m true true s.index) = .ok d' ∧ d'.tx = d.tx ++ new ∧
      ((s.index, p) ∈ new.map (fun t => (t.index, t.proto)) ↔ ∃ q ∈ d.child.queue, q.index ∈ J ∧ q.proto = p.num) := by
  obtain ⟨d', new, h1, h2, h3, -⟩ := C24_immediate c hsend d0 h0 (pre ++ post) hsane d hr k m addrs hw s.index
    (List.mem_map_of_mem hs) hf
  refine ⟨d', new, h1, h2, ?_⟩
  rw [h3, due_one hw.sane hw.listed hno he hch hal hs hsal hon hp, hi]
  constructor
  · rintro ⟨-, h⟩
    exact (follow_known (follow_run hauto hw.argv h0 hsane hpre hpost hr) p.num (num_lt p)).mp h
  · intro h
    exact ⟨rfl, (follow_known (follow_run hauto hw.argv h0 hsane hpre hpost hr) p.num (num_lt p)).mpr h⟩

/-- The kernel of the sample system with eth2 in no bridge. -/
def freeKernel : Kernel := { sampleKernel with bridge := fun _ => some [] }

/-- Before the aggregate and its ports appear. -/
def earlyKernel : Kernel := { sampleKernel with ifaddrs := some (sampleAddrs.filter (fun a => a.name == lit "eth2")) }

/-- A neighbour on one port of an aggregate: NDP is announced on both ports while it is in the table, and no longer after it expired;
`auto` is the list of the frames of the last round. -/
def autoRound (es : List Event) (k : Kernel) (now : Int) : List (Nat × Proto) × List (Nat × Nat) :=
  match daemonRun cAuto es dSys with
  | .ok d => match daemonStep cAuto d (.timer k {} now) with
    | .ok d' => ((d'.tx.drop d.tx.length).map key, d.child.queue.map (fun q => (q.index, q.proto)))
    | _ => ([], [])
  | _ => ([], [])

example : Started dSys ∧ (∀ e ∈ [Event.timer earlyKernel {} 0] ++ [.timer sampleKernel {} 30, .recv (some 35) (sampleMsg 77)], SaneEvent e) ∧
    (∀ e ∈ [Event.timer earlyKernel {} 0], Refreshed (NotYet 6 [2, 3]) e) ∧
    (∀ e ∈ [Event.timer sampleKernel {} 30, .recv (some 35) (sampleMsg 77)],
      Refreshed (HasPorts cAuto 6 [2, 3]) e ∧ FromPorts 6 [2, 3] e) ∧
    autoRound [.timer earlyKernel {} 0, .timer sampleKernel {} 30] sampleKernel 60 = ([], []) ∧
    autoRound [.timer earlyKernel {} 0, .timer sampleKernel {} 30, .recv (some 35) (sampleMsg 77)] sampleKernel 60 =
      ([(3, .ndp), (2, .ndp)], [(3, 4)]) ∧
    autoRound [.timer earlyKernel {} 0, .timer sampleKernel {} 30, .recv (some 35) (sampleMsg 77), .timer sampleKernel {} 999]
      sampleKernel 1029 = ([], []) := by decide +kernel

example : NoOverlap cAuto sampleKernel (usables sampleKernel sampleAddrs) ∧ cAuto.enabled .ndp = false ∧
    (∃ e ∈ usables sampleKernel sampleAddrs, e.index = 6 ∧ Chosen cAuto sampleKernel (usables sampleKernel sampleAddrs) e ∧
      linkAllowed cAuto e ∧ ∃ s ∈ usables sampleKernel sampleAddrs, s.index = 2 ∧ linkAllowed cAuto s ∧
        SendsOn sampleKernel (usables sampleKernel sampleAddrs) e s) ∧
    (match daemonRun cAuto [.timer earlyKernel {} 0, .timer sampleKernel {} 30, .recv (some 35) (sampleMsg 77)] dSys with
      | .ok d => decide (9 ≤ d.sys.hostname.length + d.sys.utsStr.length + d.sys.platform.length ∧ flaps d 2 ≤ 3)
      | _ => false) = true := by
  decide +kernel

/-- For an interface that is no port: `J` is the interface itself. -/
example : HasPorts cAuto 4 [4] freeKernel ∧ ¬ HasPorts cAuto 4 [4] sampleKernel ∧ Sane freeKernel ∧
    autoRound [.timer freeKernel {} 0, .recv (some 5) { sampleMsg 77 with index := 4 }] freeKernel 30 = ([(4, .ndp)], [(4, 4)]) ∧
    autoRound [.timer freeKernel {} 0, .recv (some 5) { sampleMsg 77 with index := 4 }, .timer freeKernel {} 999] freeKernel 1029 =
      ([], []) := by decide +kernel

/-- The kernel of the sample system while eth1 is down. -/
def noEth1 : Kernel := { sampleKernel with up := fun n => n ≠ lit "eth3" ∧ n ≠ lit "eth1" }

/-- The missing case, too much: the port on which the neighbour was heard goes down and its entry expires meanwhile.  The table is
empty, and the protocol goes on being announced on the other port, however long. -/
theorem C83_stale : Sane sampleKernel ∧ Sane noEth1 ∧
    autoRound [.timer sampleKernel {} 0, .recv (some 5) (sampleMsg 77), .timer noEth1 {} 30, .timer noEth1 {} 999,
      .timer noEth1 {} 100000, .timer noEth1 {} 10000000] noEth1 10000030 = ([(2, .ndp)], []) := by decide +kernel

/-- The missing case, too little: the interface goes down and up again.  The neighbour is still in the table, and the protocol is no
longer announced. -/
theorem C83_forgotten : Sane freeKernel ∧
    autoRound [.timer freeKernel {} 0, .recv (some 5) { sampleMsg 77 with index := 4 },
      .timer { freeKernel with up := fun n => n ≠ lit "eth3" ∧ n ≠ lit "eth2" } {} 30, .timer freeKernel {} 60] freeKernel 90 =
      ([], [(4, 4)]) := by decide +kernel

end Ladvd.Props
