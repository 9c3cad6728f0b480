import Verif.Spec.Ifs
/-!
# Specification: details of the interface records
-/

namespace Ladvd.Spec

open Ladvd

/-- The announced kind of aggregation: 1 is LACP, 2 is failover, 0 is none of these.  A bond of mode 4 uses LACP, one of
mode 1 is active-backup; for a team the mode is the answer of libteam. -/
def modeOf (k : Kernel) (n : Netif) : Nat :=
  if n.type = 12 then
    match k.bond n.name with
    | some b => match b.mode with | 4 => 1 | 1 => 2 | _ => 0
    | none => 0
  else if n.type = 11 then
    match k.team n.index with
    | some t => t.mode % 256
    | none => 0
  else 0

/-- Index of the interface below a VLAN and its VLAN id, both 0 if they are not known. -/
def vlanOf (k : Kernel) (l : List Netif) (n : Netif) : Nat × Nat :=
  if n.type = -1 then
    match k.vlan n.name with
    | some (dev, vid) =>
      match withName l dev with
      | some p => (p.index, match vid with | some v => v % 65536 | none => 0)
      | none => (0, 0)
    | none => (0, 0)
  else (0, 0)

/-- The role (1 active, 2 standby) and the position of a port of an aggregate.  In a bond the kernel says which slaves
are standby, and positions are counted in the kernel's list.  In a failover team all ports but the active one are standby. -/
def RoleIn (k : Kernel) (l : List Netif) (n : Netif) (j : Nat) (c x : Nat) : Prop :=
  (n.type = 11 ∧ x = 0 ∧ ∃ t, k.team n.index = some t ∧ c = if t.mode % 256 = 2 ∧ t.active ≠ j then 2 else 1) ∨
  (n.type = 12 ∧ ∃ b i s, k.bond n.name = some b ∧ b.slaves[i]? = some (some s) ∧
    (withName l s.1).map (·.index) = some j ∧ x = i % 256 ∧ c = if s.2 then 2 else 1) ∨
  (n.type = 13 ∧ x = 0 ∧ c = 1)

end Ladvd.Spec
