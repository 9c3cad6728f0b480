import Verif.Model.Netif
/-!
# Link properties on FreeBSD

`netif_media` of /repo/src/netif.c with `netif_physical` of /repo/src/netif_bsd.c.
-/

namespace Ladvd

/-- Ethernet media subtypes (`IFM_SUBTYPE`, net/if_media.h) that /repo/src/netif_bsd.c lines 506-646 tell apart, and the rest. -/
inductive IfMedia where
  | auto | t10 | b2 | b5 | tx100 | fx100 | t4 | t2 | sx1000 | fl10 | lx1000 | cx1000 | t1000
  | lr10g | sr10g | cx4 | t10g | cr4 | sr4 | lr4 | other
  deriving Repr, DecidableEq

/-- A media word: Ethernet type, subtype, and the full duplex option. -/
structure MediaWord where
  ether : Bool := true
  sub : IfMedia
  fdx : Bool
  deriving Repr, DecidableEq

/-- Reply to `SIOCGIFMEDIA`, /repo/src/netif_bsd.c lines 475-502: the current, the active and the possible media, and `IFM_ACTIVE`. -/
structure IfmReq where
  current : MediaWord
  active : MediaWord
  link : Bool
  list : List MediaWord
  deriving Repr, DecidableEq

/-- What the detection of link properties asks the kernel: the MTU and the media by name.  The second media query of
/repo/src/netif_bsd.c line 498 may fail (`again`). -/
structure BsdMedia where
  mtu : Bytes → Option Nat := fun _ => none
  media : Bytes → Option IfmReq := fun _ => none
  again : Bytes → Bool := fun _ => true

/-- The bit of `autoneg_pmd` for a possible medium, /repo/src/netif_bsd.c lines 515-543 (`LLDP_MAU_PMD_*`, /repo/src/proto/lldp.h lines 172-187). -/
def bsdPmd (w : MediaWord) : Nat :=
  match w.sub with
  | .t10 => if w.fdx then 13 else 14
  | .tx100 => if w.fdx then 10 else 11
  | .t2 => if w.fdx then 8 else 9
  | .t4 => 12
  | .t1000 => if w.fdx then 0 else 1
  | .sx1000 | .lx1000 | .cx1000 => if w.fdx then 2 else 3
  | _ => 15

/-- One iteration over the possible media, /repo/src/netif_bsd.c lines 505-544. -/
def bsdMediaStep (n : Netif) (w : MediaWord) : Netif :=
  if w.sub = .auto then { n with autonegSupported := 1 }
  else { n with autonegPmd := n.autonegPmd ||| (1 <<< bsdPmd w) }

/-- The `switch` over the active medium, /repo/src/netif_bsd.c lines 569-647 (`LLDP_MAU_TYPE_*`, /repo/src/proto/lldp.h lines 90-161). -/
def bsdMau (w : MediaWord) (fd : Bool) : Nat :=
  match w.sub with
  | .t10 => if fd then 11 else 10
  | .b2 => 4
  | .b5 => 2
  | .tx100 => if fd then 16 else 15
  | .fx100 => if fd then 18 else 17
  | .t4 => 14
  | .t2 => if fd then 20 else 19
  | .sx1000 => if fd then 26 else 25
  | .fl10 => if fd then 13 else 12
  | .lx1000 => if fd then 24 else 23
  | .cx1000 => if fd then 28 else 27
  | .t1000 => if fd then 30 else 29
  | .lr10g => 35
  | .sr10g => 36
  | .cx4 => 41
  | .t10g => 54
  | .cr4 => 71
  | .sr4 => 72
  | .lr4 => 74
  | .auto | .other => 0

/-- `netif_physical`, /repo/src/netif_bsd.c lines 467-653. -/
def bsdPhysical (m : BsdMedia) (n : Netif) : Netif :=
  match m.media n.name with
  | none => n
  | some r =>
    if !r.current.ether then n
    else if !r.link then n
    else if r.list.length = 0 then n
    else if !m.again n.name then n
    else
      let n := r.list.foldl bsdMediaStep n
      let n := if n.autonegSupported = 1 then { n with autonegEnabled := if r.current.sub = .auto then 1 else 0 }
        else { n with autonegSupported := 0 }
      let n := { n with duplex := if r.active.fdx then 1 else 0 }
      { n with mau := bsdMau r.active (n.duplex ≠ 0) }

/-- `netif_media`, /repo/src/netif.c lines 418-446, on FreeBSD. -/
def bsdMedia (m : BsdMedia) (n : Netif) : Netif :=
  let n := { n with duplex := -1, autonegSupported := -1, autonegEnabled := -1, autonegPmd := 0, mau := 0 }
  let n := { n with mtu := ((m.mtu n.name).map (· % 65536)).getD n.mtu }
  if n.type = NETIF_REGULAR then bsdPhysical m n else n

end Ladvd
