import Verif.Model.Alias
import Verif.Spec.Alive
import Verif.Spec.Send
/-!
# The kernel's interface aliases

After Documentation/ABI/testing/sysfs-class-net of Linux and its implementation (`ifalias_show`, `ifalias_store`, `sysfs_kf_write`): reading `ifalias` gives the
alias and a line feed, or nothing when there is no alias; writing replaces the alias by what is written, without a line feed at its end; writing no bytes at all does
nothing.
-/

namespace Ladvd.Spec

/-- The contents of `ifalias`. -/
def aliasFile (a : Bytes) : Bytes := if a = [] then [] else a ++ [0x0a]

/-- The alias after a `write` to `ifalias`. -/
def aliasStored (old text : Bytes) : Bytes :=
  if text = [] then old else if text.getLast? = some 0x0a then text.dropLast else text

/-- The aliases of the interfaces by their names, `none` for names of no interface. -/
abbrev Aliases := Bytes → Option Bytes

/-- The system the privileged process sees; `ifName` are the names of the interfaces. -/
def aliasEnv (ifName : Nat → Option Bytes) (a : Aliases) : PEnv where
  ifName := ifName
  alias := fun n => (a n).map aliasFile
  aliasWrite := fun n t => (a n).map fun _ => t.length

/-- The effect of an action on the aliases. -/
def aliasEffect (a : Aliases) : Act → Aliases
  | .aliasWrite n t => fun m => if m = n then (a m).map (aliasStored · t) else a m
  | _ => a

/-- The daemon together with the aliases in the kernel. -/
structure Described where
  daemon : Daemon
  alias : Aliases

/-- The requests of an event, served one after the other. -/
def servedAll (c : Conf) (ifName : Nat → Option Bytes) : List (Nat × Bytes) → Aliases → Res Aliases
  | [], a => .ok a
  | r :: rs, a => (serveDescr c (aliasEnv ifName a) {} r).bind fun p => servedAll c ifName rs (p.acts.foldl aliasEffect a)

/-- The alias of interface `i` as the daemon learns it from the privileged process. -/
def readAlias (c : Conf) (ifName : Nat → Option Bytes) (a : Aliases) (i : Nat) : Option Bytes :=
  match fetchAlias c (aliasEnv ifName a) {} i [] with
  | .ok x => x
  | _ => none

/-- The event with the aliases as the daemon reads them. -/
def withAlias (c : Conf) (ifName : Nat → Option Bytes) (a : Aliases) : Event → Event
  | .timer k m now => .timer { k with alias := readAlias c ifName a } m now
  | .link k m x y i => .link { k with alias := readAlias c ifName a } m x y i
  | e => e

/-- One event: the daemon handles it, then the requests it made are served.  (Interfaces are refreshed before requests are made, so that the order within an event is
kept.)  The sockets of the privileged process play no role for these requests and are left out. -/
def describedStep (c : Conf) (ifName : Nat → Option Bytes) (s : Described) (e : Event) : Res Described :=
  (daemonStep c s.daemon (withAlias c ifName s.alias e)).bind fun d =>
    (servedAll c ifName (d.child.out.drop s.daemon.child.out.length) s.alias).bind fun a => .ok ⟨d, a⟩

/-- A sequence of events. -/
def describedRun (c : Conf) (ifName : Nat → Option Bytes) : List Event → Described → Res Described
  | [], s => .ok s
  | e :: es, s => (describedStep c ifName s e).bind (describedRun c ifName es)

/-- Names of interfaces are short and distinct. -/
structure NamesOk (ifName : Nat → Option Bytes) : Prop where
  short : ∀ i n, ifName i = some n → n.length ≤ 15
  inj : ∀ i j n, ifName i = some n → ifName j = some n → i = j

/-- The clock is past the time stamp of the message (which is zero for captured frames). -/
def Clocked : Event → Prop
  | .recv (some t) r => r.received < t
  | _ => True

instance (e : Event) : Decidable (Clocked e) := by unfold Clocked; split <;> infer_instance

/-- The event is a frame on interface `i` that is not ignored. -/
def Hears (d d' : Daemon) (e : Event) (i : Nat) : Prop := ∃ now r, e = .recv now r ∧ r.index = i ∧ d'.child ≠ d.child

/-- Histories from the start. -/
structure Lives (c : Conf) (ifName : Nat → Option Bytes) (s0 : Described) (es : List Event) (s : Described) : Prop where
  names : NamesOk ifName
  start : Started s0.daemon ∧ s0.daemon.child = {}
  events : ∀ e ∈ es, SaneEvent e ∧ Captured e ∧ Clocked e
  run : describedRun c ifName es s0 = .ok s

end Ladvd.Spec
