import Verif.Model.Netif
import Verif.Model.BsdMedia
/-!
# Link properties

`netif_media` of /repo/src/netif.c and `netif_physical` of /repo/src/netif_linux.c.
-/

namespace Ladvd

/-- `struct ethtool_cmd` (linux/ethtool.h), as far as /repo/src/netif_linux.c lines 367-475 look at it. -/
structure Ecmd where
  supported : Nat
  advertising : Nat
  speed : Nat
  duplex : Nat
  port : Nat
  autoneg : Nat
  deriving Repr, DecidableEq

/-- What `netif_media` asks the kernel and the privileged process on Linux: the MTU by interface name, and the reply to
`PARENT_ETHTOOL_GSET` by index; `bsd` on FreeBSD, where /repo/src/netif_bsd.c is compiled in place of /repo/src/netif_linux.c. -/
structure Media where
  mtu : Bytes → Option Nat := fun _ => none
  ecmd : Nat → Option Ecmd := fun _ => none
  bsd : Option BsdMedia := none

/-- `ecmd_to_lldp_pmd`, /repo/src/netif_linux.c lines 373-392: bit numbers of `ADVERTISED_*` (linux/ethtool.h) and of
`LLDP_MAU_PMD_*` (/repo/src/proto/lldp.h lines 172-187). -/
def pmdTable : List (Nat × Nat) :=
  [(0, 14), (1, 13), (2, 11), (3, 10), (4, 1), (5, 0), (12, 15), (13, 7), (14, 6), (15, 15)]

/-- The loop over the table, /repo/src/netif_linux.c lines 413-416. -/
def pmdOf (advertising : Nat) : Nat :=
  pmdTable.foldl (fun acc (a, l) => if advertising.testBit a then acc ||| (1 <<< l) else acc) 0

/-- Twisted pair, /repo/src/netif_linux.c lines 430-444. -/
def mauTP (speed : Nat) (fd : Bool) : Nat :=
  if speed = 10 then (if fd then 11 else 10)
  else if speed = 100 then (if fd then 16 else 15)
  else if speed = 1000 then (if fd then 30 else 29)
  else if speed = 10000 then 54
  else 0

/-- Fibre, /repo/src/netif_linux.c lines 445-459. -/
def mauFibre (speed : Nat) (fd : Bool) : Nat :=
  if speed = 10 then (if fd then 13 else 12)
  else if speed = 100 then (if fd then 18 else 17)
  else if speed = 1000 then (if fd then 22 else 21)
  else if speed = 10000 then 31
  else 0

/-- The `switch` of `netif_physical`, /repo/src/netif_linux.c lines 425-473; the ports are `PORT_TP` 0, `PORT_AUI` 1,
`PORT_MII` 2, `PORT_FIBRE` 3, `PORT_BNC` 4, `PORT_DA` 5, and bit 7 is `ADVERTISED_TP`. -/
def mauOf (c : Ecmd) : Nat :=
  let fd := c.duplex == 1
  if c.port = 2 then (if c.advertising.testBit 7 then mauTP c.speed fd else 0)
  else if c.port = 0 then mauTP c.speed fd
  else if c.port = 3 then mauFibre c.speed fd
  else if c.port = 4 then (if c.speed = 10 then 4 else 0)
  else if c.port = 1 then 1
  else if c.port = 5 then (if c.speed = 10000 then 41 else 0)
  else 0

/-- `netif_physical`, /repo/src/netif_linux.c lines 367-475; bit 6 is `SUPPORTED_Autoneg`. -/
def netifPhysical (m : Media) (n : Netif) : Netif :=
  match m.ecmd n.index with
  | none => n
  | some c =>
    let n := { n with duplex := if c.duplex = 1 then 1 else 0 }
    let n := if c.supported.testBit 6 then
        { n with autonegSupported := 1, autonegEnabled := if c.autoneg = 1 then 1 else 0, autonegPmd := pmdOf c.advertising }
      else { n with autonegSupported := 0 }
    { n with mau := mauOf c }

/-- `netif_media`, /repo/src/netif.c lines 418-446, on Linux; `mtu` is an `uint16_t`. -/
def linuxMedia (m : Media) (n : Netif) : Netif :=
  let n := { n with duplex := -1, autonegSupported := -1, autonegEnabled := -1, autonegPmd := 0, mau := 0 }
  let n := { n with mtu := ((m.mtu n.name).map (· % 65536)).getD n.mtu }
  if n.type = NETIF_REGULAR then netifPhysical m n else n

/-- `netif_media`, /repo/src/netif.c lines 418-446, on the system that answers. -/
def netifMedia (m : Media) (n : Netif) : Netif :=
  match m.bsd with
  | none => linuxMedia m n
  | some b => bsdMedia b n

end Ladvd
