import Verif.Spec.Segment
import Verif.Spec.BsdDaemon
/-!
# Specification: systems with Linux and systems with FreeBSD on a segment
-/

namespace Ladvd.Spec

/-- A FreeBSD system that runs ladvd: how it was started and what came of it. -/
structure BsdStation where
  host : Host
  env : BsdSysEnv
  opts : List Opt
  args : List Bytes
  conf : Conf
  pwd : Option (Nat × Nat)
  start : Daemon

/-- It did start. -/
structure BsdStation.Runs (s : BsdStation) : Prop where
  env : BsdSysOk s.env
  name : ∀ u ∈ s.env.uname, u.sysname = lit "FreeBSD"
  opts : OptsOk s.opts
  start : bsdStartUp s.host s.env s.opts s.args = .ok (s.conf, s.pwd, s.start)

/-- At some time in its life, when its interfaces are `l`, the FreeBSD system transmits `t` in a round or after a report about a link. -/
def BsdTransmits (s : BsdStation) (l : List Netif) (t : Tx) : Prop :=
  ∃ es d k m ev d' new r, (∀ e ∈ es, BsdSaneEvent e) ∧ bsdDaemonRun s.conf es s.start = .ok d ∧ BsdSane k ∧ BsdRound k m ev ∧
    bsdDaemonStep s.conf d ev = .ok d' ∧ d'.tx = d.tx ++ new ∧ t ∈ new ∧
    bsdFetch s.conf.opts s.conf.names s.conf.mgmt k ⟨d.child.netifs, d.sys, d.mnetif, d.closed⟩ = .ok r ∧ l = r.1.netifs

/-- A system of either kind. -/
inductive AnyStation where
  | linux (s : Station)
  | bsd (s : BsdStation)

def AnyStation.Runs : AnyStation → Prop
  | .linux s => s.Runs
  | .bsd s => s.Runs

/-- Its name. -/
def AnyStation.hostname : AnyStation → Bytes
  | .linux s => s.start.sys.hostname
  | .bsd s => s.start.sys.hostname

/-- What it transmits. -/
def AnyStation.Transmits : AnyStation → List Netif → Tx → Prop
  | .linux s => Spec.Transmits s
  | .bsd s => BsdTransmits s

/-- The message `r`, read at `now`, comes from a frame that one of the systems has transmitted. -/
def MixedFrom (net : AnyStation → Prop) (now : Option Int) (r : RawMsg) : Prop :=
  ∃ s l t j fwd time, net s ∧ s.Transmits l t ∧ (∃ n, bpfFilter protoFilter (Tx.frame t) = .ok n ∧ n ≠ 0) ∧
    parentRecv j [Tx.frame t] = .ok [fwd] ∧ r = rawOf fwd ∧ now = some time

/-- An advertisement of the system for a protocol from an interface of the given name. -/
def MixedAdvert (s : AnyStation) (p : Proto) (port f : Bytes) : Prop :=
  ∃ l t, s.Transmits l t ∧ t.proto = p ∧ Tx.frame t = f ∧ ∀ n ∈ l, n.index = t.index → n.name = port

/-- `Renewed` on FreeBSD: from the time `last` on, events in which every frame between the stations of `k` satisfies `P`, and no clock runs more than
`life` seconds ahead of the last such frame; `final` is the time of the last of these frames. -/
inductive BsdRenewed (k : Key) (life : Int) (P : Bytes → Prop) : Int → List BsdEvent → Int → Prop
  | done (last : Int) : BsdRenewed k life P last [] last
  | again (last t final : Int) (f : Bytes) (fwd : Fwd) (es : List BsdEvent) : P f → parentRecv k.1 [f] = .ok [fwd] → sourceOf f = k.2.2.2 →
      BsdRenewed k life P t es final → BsdRenewed k life P last (.recv (some t) (rawOf fwd) :: es) final
  | other (last final : Int) (now : Option Int) (r : RawMsg) (es : List BsdEvent) : (r.index, r.msg.take 6, (r.msg.drop 6).take 6) ≠ (k.1, k.2.2) →
      (∀ t, now = some t → t ≤ last + life) → BsdRenewed k life P last es final → BsdRenewed k life P last (.recv now r :: es) final
  | timer (last final : Int) (kr : BsdKernel) (m : BsdMedia) (now : Int) (es : List BsdEvent) : now ≤ last + life → BsdRenewed k life P last es final →
      BsdRenewed k life P last (.timer kr m now :: es) final
  | route (last final : Int) (kr : BsdKernel) (m : BsdMedia) (got : Option Bytes) (es : List BsdEvent) : BsdRenewed k life P last es final →
      BsdRenewed k life P last (.route kr m got :: es) final
  | accept (last final : Int) (es : List BsdEvent) : BsdRenewed k life P last es final → BsdRenewed k life P last (.accept :: es) final
  | write (last final : Int) (sid : Nat) (ws : Option (List WriteRes)) (es : List BsdEvent) : BsdRenewed k life P last es final →
      BsdRenewed k life P last (.write sid ws :: es) final

end Ladvd.Spec
