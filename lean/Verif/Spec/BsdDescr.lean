import Verif.Model.BsdDescr
import Verif.Spec.Alias
/-!
# Interface descriptions of the FreeBSD kernel

After `ifhwioctl` in sys/net/if.c: `SIOCSIFDESCR` with a length above 1024 fails, with length zero it removes the description, otherwise it copies one byte less than the
length and ends it with NUL; `SIOCGIFDESCR` is described at `bsdDescr`.
-/

namespace Ladvd.Spec

/-- The descriptions of the interfaces by their names: `none` for names of no interface, `some none` for interfaces without a description. -/
abbrev Descrs := Bytes → Option (Option Bytes)

/-- The description `SIOCSIFDESCR` sets, `none` for failure. -/
def descrArg (buf : Bytes) : Option (Option Bytes) :=
  if buf.length > 1024 then none
  else if buf = [] then some none
  else some (some (buf.dropLast.takeWhile (· ≠ 0)))

/-- The effect of a call. -/
def descrEffect (d : Descrs) (call : DescrCall) : Descrs := fun m =>
  if m = call.1 then (d m).map fun old => (descrArg call.2).getD old else d m

/-- The system the privileged process sees. -/
def descrEnv (ifName : Nat → Option Bytes) (d : Descrs) : BPEnv where
  base := { ifName := ifName }
  setDescr := fun n arg => (d n).isSome && (descrArg arg).isSome

/-- The description as the unprivileged process reads it. -/
def readDescr (d : Descrs) (name : Bytes) : Bytes := bsdDescr { ifaddrs := none, descr := fun n => (d n).join } name

/-- The unprivileged process together with the descriptions in the kernel. -/
structure BDescribed where
  child : Child
  descr : Descrs

/-- What happens: an event of the unprivileged process (its interfaces are refreshed with the descriptions in the kernel), or someone else changing
the description of an interface. -/
inductive BOp where
  | child (op : ChildOp)
  | admin (name : Bytes) (new : Option Bytes)

/-- The descriptions that a refresh finds. -/
def withDescrs (d : Descrs) : ChildOp → ChildOp
  | .fetch l => .fetch (l.map fun n => { n with description := readDescr d n.name })
  | op => op

/-- The requests of an event, served one after the other. -/
def bsdServedAll (c : Conf) (ifName : Nat → Option Bytes) : List (Nat × Bytes) → Descrs → Res Descrs
  | [], d => .ok d
  | r :: rs, d => (bsdServe c (descrEnv ifName d) {} r).bind fun calls => bsdServedAll c ifName rs (calls.foldl descrEffect d)

/-- One of these. -/
def bDescribedStep (c : Conf) (ifName : Nat → Option Bytes) (s : BDescribed) : BOp → Res BDescribed
  | .child op => (childStep c.opts s.child (withDescrs s.descr op)).bind fun ch =>
      (bsdServedAll c ifName (ch.out.drop s.child.out.length) s.descr).bind fun d => .ok ⟨ch, d⟩
  | .admin name new => .ok { s with descr := fun m => if m = name then (s.descr m).map fun _ => new else s.descr m }

/-- A sequence of them. -/
def bDescribedRun (c : Conf) (ifName : Nat → Option Bytes) : List BOp → BDescribed → Res BDescribed
  | [], s => .ok s
  | op :: ops, s => (bDescribedStep c ifName s op).bind (bDescribedRun c ifName ops)

/-- Frames were captured and the clock runs; the list of interfaces names each once, with its name. -/
def BOpOk (ifName : Nat → Option Bytes) : BOp → Prop
  | .child (.recv now r) => Captured (.recv now r) ∧ Clocked (.recv now r)
  | .child (.fetch l) => (l.map (·.index)).Nodup ∧ ∀ n ∈ l, n.index < 2 ^ 32 ∧ ifName n.index = some n.name
  | _ => True

/-- Histories from the start. -/
structure BLives (c : Conf) (ifName : Nat → Option Bytes) (s0 : BDescribed) (ops : List BOp) (s : BDescribed) : Prop where
  names : NamesOk ifName
  start : s0.child = {}
  each : ∀ op ∈ ops, BOpOk ifName op
  run : bDescribedRun c ifName ops s0 = .ok s

/-- The operation is a frame on interface `i` that is not ignored. -/
def BHears (s s' : BDescribed) (op : BOp) (i : Nat) : Prop := ∃ now r, op = .child (.recv now r) ∧ r.index = i ∧ s'.child ≠ s.child

end Ladvd.Spec
