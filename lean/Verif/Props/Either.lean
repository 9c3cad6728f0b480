import Verif.Props.Script
import Verif.Props.Watch
/-!
# C102 and C104 on both systems
-/

namespace Ladvd.Props

open Ladvd Spec

/-- The process as one of events on Linux. -/
theorem either_run (b : Uptime) (hb : b.Runs) (s : Timed) (hf : b.final = .ok s) (hcap : ∀ x ∈ b.heard, Captured (.recv x.2.1 x.2.2.1)) :
    ∃ (c : Conf) (d0 : Daemon) (es : List Event), d0.child = {} ∧ (∀ e ∈ es, Captured e) ∧ daemonRun c es d0 = .ok s.daemon := by
  obtain ⟨c2, b0, u0, k2, m2, h2, B⟩ := linuxRun hb
  have hrb := timedRun_daemon (B.final.symm.trans hf)
  rw [B.heard] at hcap
  refine ⟨c2, b0, _, B.child, ?_, hrb⟩
  intro e he
  obtain ⟨⟨t, e⟩, hx, rfl⟩ := List.mem_map.mp he
  cases e with
  | recv n r =>
    obtain ⟨pre, post, hsplit⟩ := List.append_of_mem hx
    obtain ⟨s1, hr, -⟩ := timedRun_append (by rw [← hsplit]; exact B.final.symm.trans hf)
    exact hcap (t, n, r, s1.daemon.child.netifs) (by rw [hsplit]; exact receptions_mid hr)
  | timer => trivial
  | link => trivial
  | accept => trivial
  | write => trivial

/-- `C102_spoiled` for a daemon on Linux or on FreeBSD. -/
theorem C102_either (b : Uptime) (hb : b.Runs) (s : Timed) (hf : b.final = .ok s) (hcap : ∀ x ∈ b.heard, Captured (.recv x.2.1 x.2.2.1)) (q : Nat)
    (hq : s.daemon.child.queue.length ≤ q) :
    ∃ ch, cliWrite s.daemon.child.nextId (some (List.replicate q .ok)) (cliAccept s.daemon.child) = .ok ch ∧
      ∀ (l : Libc) (w : CliWorld) (ix : Bytes → Option Nat) (words : List Bytes) (opts : List Opt) (args : List Bytes) (now : Int),
        Written clientLetters l.permute words opts args → ¬ given opts ['b', 'd', 'f', 'p', 'o', 'h'] → (∀ a ∈ args, (ix a).isSome) →
        w.first = 0 → w.connect = 0 → w.time = .ok now → w.input.map (·.2) = (delivered ch s.daemon.child.nextId).map CliIn.ofEntry →
      (clientMain l w ix words).how = .ok 0 ∧ (clientMain l w ix words).err = [] ∧
      ∃ shown : List (Option Shown), shown.length = s.daemon.child.queue.length ∧
        (clientMain l w ix words).out = cliHeader (cliWidths w.cols) ++ (shown.filterMap id).flatMap (tableLine (cliWidths w.cols)) ∧
        ∀ pre x post, s.daemon.child.queue = pre ++ x :: post → ∃ y, shown[pre.length]? = some y ∧
          (y ≠ none → EntryAsked opts ix args x ∧ now - x.received ≤ x.ttl) ∧
          (∀ z, y = some z → z.index = x.index ∧ z.name = x.name ∧ z.ttl = x.ttl ∧ (x.received ≤ now → z.hold = (x.ttl - (now - x.received)).toNat) ∧
            z.frame = x.msg.take x.len) ∧
          (EntryAsked opts ix args x → now - x.received ≤ x.ttl → x.received ≤ now →
            (∀ z, DirectlyBefore (EntryAsked opts ix args) z pre → now - z.received ≤ z.ttl) → y = some (display now x)) := by
  obtain ⟨c, d0, es, h0, hc, hr⟩ := either_run b hb s hf hcap
  exact C102_spoiled h0 hc hr q hq

/-- `C104_script` for a daemon on Linux or on FreeBSD. -/
theorem C104_either (b : Uptime) (hb : b.Runs) (s : Timed) (hf : b.final = .ok s) (hcap : ∀ x ∈ b.heard, Captured (.recv x.2.1 x.2.2.1)) (q : Nat)
    (hq : s.daemon.child.queue.length ≤ q) (hlt : s.daemon.child.queue.length < 2 ^ 32)
    (hname : ∀ x ∈ s.daemon.child.queue, ∀ b ∈ x.name, b ≠ 0x27) :
    ∃ ch, cliWrite s.daemon.child.nextId (some (List.replicate q .ok)) (cliAccept s.daemon.child) = .ok ch ∧
      ∀ (l : Libc) (w : CliWorld) (ix : Bytes → Option Nat) (words : List Bytes) (opts : List Opt) (args : List Bytes) (now : Int),
        Written clientLetters l.permute words opts args → given opts ['b'] → ¬ given opts ['d', 'f', 'p', 'o', 'h'] → (∀ a ∈ args, (ix a).isSome) →
        (∀ a, ∀ b ∈ w.ntop6 a, b ≠ 0x27) →
        w.first = 0 → w.connect = 0 → w.time = .ok now → w.input.map (·.2) = (delivered ch s.daemon.child.nextId).map CliIn.ofEntry →
      (clientMain l w ix words).how = .ok 0 ∧ (clientMain l w ix words).err = [] ∧
      ∃ shown : List (Option Shown), shown.length = s.daemon.child.queue.length ∧
        shellRun (clientMain l w ix words).out = some (batchVars w.ntop6 (shown.filterMap id)) ∧
        ∀ pre x post, s.daemon.child.queue = pre ++ x :: post → ∃ y, shown[pre.length]? = some y ∧
          (y ≠ none → EntryAsked opts ix args x ∧ now - x.received ≤ x.ttl) ∧
          (∀ z, y = some z → z.index = x.index ∧ z.name = x.name ∧ z.ttl = x.ttl ∧ (x.received ≤ now → z.hold = (x.ttl - (now - x.received)).toNat) ∧
            z.frame = x.msg.take x.len) ∧
          (EntryAsked opts ix args x → now - x.received ≤ x.ttl → x.received ≤ now →
            (∀ z, DirectlyBefore (EntryAsked opts ix args) z pre → now - z.received ≤ z.ttl) → y = some (display now x)) := by
  obtain ⟨c, d0, es, h0, hc, hr⟩ := either_run b hb s hf hcap
  exact C104_script h0 hc hr q hq hlt hname

/-! ## Sample -/

/-- A FreeBSD system hears, on interface 3, a station with a lifetime of 10 seconds and two others. -/
def hearingUp : Uptime := .bsd boxSt 1000 boxKernel bsdNoMedia [(1001, .recv (some 1001) (rawOf ⟨3, .cdp, briefFrame⟩)),
  (1002, .recv (some 1002) (rawOf ⟨3, .ndp, ndpFrame 78⟩)), (1004, .recv (some 1004) (rawOf ⟨3, .ndp, ndpFrame 79⟩))]

/-- Number, name and remaining lifetime of the neighbours a script gets there at 1015. -/
def scriptedThere (words : List Bytes) : Option (List (Bytes × Bytes)) :=
  (shownThere hearingUp 1015 words).bind (fun x => if x.1 = .ok 0 then (shellRun x.2).map (fun vars => vars.filter (fun v =>
    (lit "HOSTNAME").isPrefixOf v.1 || (lit "HOLDTIME").isPrefixOf v.1)) else none)

/-- All asked for: the second neighbour has the name of the expired one, the third is as it is. -/
example : scriptedThere [lit "-b"] = some [(lit "HOSTNAME_0", lit "sw1"), (lit "HOLDTIME_0", lit "167"), (lit "HOSTNAME_1", []), (lit "HOLDTIME_1", lit "169")] := by
  decide +kernel

/-- The expired one not asked for: both are as they are. -/
example : scriptedThere [lit "-b", lit "-N"] = some [(lit "HOSTNAME_0", []), (lit "HOLDTIME_0", lit "167"), (lit "HOSTNAME_1", []), (lit "HOLDTIME_1", lit "169")] := by
  decide +kernel

/-- The run is one of the theorems. -/
example : hearingUp.Runs := by
  refine ⟨boxSt_runs, boxKernel_sane, ?_⟩
  intro x hx
  simp only [List.mem_cons, List.not_mem_nil, or_false] at hx
  rcases hx with rfl | rfl | rfl <;> trivial

end Ladvd.Props
