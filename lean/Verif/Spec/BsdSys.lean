import Verif.Model.BsdSys
import Verif.Spec.Sysinfo
import Verif.Spec.Bsd
/-!
# Specification of the system information on FreeBSD

From the model only the records of the system's answers are used.
-/

namespace Ladvd.Spec

/-- What libc and the kernel guarantee: C strings, and non-empty names from `uname`. -/
structure BsdSysOk (e : BsdSysEnv) : Prop where
  uts : ∀ u ∈ e.uname, ∀ t ∈ [u.sysname, u.nodename, u.release, u.version, u.machine], t ≠ [] ∧ ∀ b ∈ t, b ≠ 0
  host : ∀ n h, e.hostByName n = some h → ∀ b ∈ h, b ≠ 0
  kenv : ∀ f, ∀ t ∈ (e.kenv f).toList, ∀ b ∈ t, b ≠ 0

/-- The name of the host: what the resolver calls it, unless it does not know it or calls it localhost. -/
def BsdHostName (e : BsdSysEnv) (u : Uname) (h : Bytes) : Prop :=
  (∃ n, e.hostByName u.nodename = some n ∧ n ≠ lit "localhost" ∧ h = n.take 255) ∨
  ((e.hostByName u.nodename = none ∨ e.hostByName u.nodename = some (lit "localhost")) ∧ h = u.nodename.take 255)

/-- A variable of the kernel's environment, in a field of 32 bytes; empty if not set. -/
def kenvText (v : Option Bytes) : Bytes := (v.getD []).take 32

/-- The kernel lists an Ethernet interface or bridge of kind `t` (1 wireless, 13 bridge), with `up` one that is up. -/
def BsdHas (k : BsdKernel) (addrs : List BIfAddr) (t : Int) (up : Bool) : Prop :=
  ∃ ia ∈ addrs, ∃ st i hw, ia.addr = .link st i hw ∧ (st = 6 ∨ st = 209) ∧ bsdKind k i ia.name = some t ∧ (up = true → k.up ia.name = true)

/-- The regular Ethernet interfaces the kernel lists. -/
def bsdRegulars (k : BsdKernel) (addrs : List BIfAddr) : List BIfAddr := addrs.filter (fun ia =>
  match ia.addr with | .link st i _ => (st = 6 ∨ st = 209) ∧ bsdKind k i ia.name = some 0 | _ => false)

end Ladvd.Spec
