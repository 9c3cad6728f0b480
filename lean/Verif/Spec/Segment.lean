import Verif.Model.Path
import Verif.Spec.Sysinfo
import Verif.Spec.Alive
import Verif.Spec.Latest
/-!
# Specification: several systems on a segment
-/

namespace Ladvd.Spec

/-- A system that runs ladvd: how it was started and what came of it. -/
structure Station where
  host : Host
  env : SysEnv
  opts : List Opt
  args : List Bytes
  conf : Conf
  pwd : Option (Nat × Nat)
  start : Daemon

/-- It did start. -/
structure Station.Runs (s : Station) : Prop where
  env : SysEnvOk s.env
  opts : OptsOk s.opts
  start : startUp s.host s.env s.opts s.args = .ok (s.conf, s.pwd, s.start)

/-- At some time in its life, when its interfaces are `l`, the system transmits `t` in a round or after a link event. -/
def Transmits (s : Station) (l : List Netif) (t : Tx) : Prop :=
  ∃ es d k m ev d' new, (∀ e ∈ es, SaneEvent e) ∧ daemonRun s.conf es s.start = .ok d ∧ Sane k ∧
    ((∃ now, ev = .timer k m now) ∨ ∃ i, ev = .link k m true true i) ∧ daemonStep s.conf d ev = .ok d' ∧ d'.tx = d.tx ++ new ∧ t ∈ new ∧
    l = (netifFetch s.conf.opts s.conf.names s.conf.mgmt k ⟨d.child.netifs, d.sys, d.mnetif, d.closed⟩).1.netifs

/-- The bytes on the wire. -/
def Tx.frame (t : Tx) : Bytes := t.msg.take t.len

/-- If the event is a reception then of a frame that one of the systems has transmitted, on the interface with index `j`. -/
def HeardFrom (net : Station → Prop) : Event → Prop
  | .recv now r => ∃ s l t j fwd time, net s ∧ Transmits s l t ∧ (∃ n, bpfFilter protoFilter (Tx.frame t) = .ok n ∧ n ≠ 0) ∧
      parentRecv j [Tx.frame t] = .ok [fwd] ∧ r = rawOf fwd ∧ now = some time
  | _ => True

/-- The source address of a frame. -/
def sourceOf (f : Bytes) : Bytes := (f.drop 6).take 6

/-- From the time `last` on, events in which every frame between the stations of `k` satisfies `P`, and no clock runs more than `life` seconds ahead of the
last such frame; `final` is the time of the last of these frames. -/
inductive Renewed (k : Key) (life : Int) (P : Bytes → Prop) : Int → List Event → Int → Prop
  | done (last : Int) : Renewed k life P last [] last
  | again (last t final : Int) (f : Bytes) (fwd : Fwd) (es : List Event) : P f → parentRecv k.1 [f] = .ok [fwd] → sourceOf f = k.2.2.2 →
      Renewed k life P t es final → Renewed k life P last (.recv (some t) (rawOf fwd) :: es) final
  | other (last final : Int) (now : Option Int) (r : RawMsg) (es : List Event) : (r.index, r.msg.take 6, (r.msg.drop 6).take 6) ≠ (k.1, k.2.2) →
      (∀ t, now = some t → t ≤ last + life) → Renewed k life P last es final → Renewed k life P last (.recv now r :: es) final
  | timer (last final : Int) (kr : Kernel) (m : Media) (now : Int) (es : List Event) : now ≤ last + life → Renewed k life P last es final →
      Renewed k life P last (.timer kr m now :: es) final
  | link (last final : Int) (kr : Kernel) (m : Media) (a b : Bool) (i : Nat) (es : List Event) : Renewed k life P last es final →
      Renewed k life P last (.link kr m a b i :: es) final
  | accept (last final : Int) (es : List Event) : Renewed k life P last es final → Renewed k life P last (.accept :: es) final
  | write (last final : Int) (sid : Nat) (ws : Option (List WriteRes)) (es : List Event) : Renewed k life P last es final →
      Renewed k life P last (.write sid ws :: es) final

end Ladvd.Spec
