import Verif.Model.Basic
/-!
# Interfaces, system information, options, list traversal

Pointers between interfaces (`parent`, `subif`) are modelled as interface indexes; the interface list is a
`List Netif` in TAILQ order and a pointer to a list element is the suffix of the list starting at that
element.
-/

namespace Ladvd

/-- `struct netif`, /repo/src/common.h lines 113-149.  Strings are stored without their NUL, addresses as bytes in
memory order, `parent` and `subif` as the index of the interface they point to. -/
structure Netif where
  index : Nat
  name : Bytes
  description : Bytes := []
  hwaddr : Bytes
  mtu : Nat := 0
  duplex : Int := -1
  autonegSupported : Int := -1
  autonegEnabled : Int := -1
  autonegPmd : Nat := 0
  mau : Nat := 0
  ipaddr4 : Bytes := [0, 0, 0, 0]
  ipaddr6 : Bytes := [0, 0, 0, 0, 0, 0, 0, 0, 0, 0, 0, 0, 0, 0, 0, 0]
  argv : Nat := 0
  type : Int := 0
  child : Nat := 0
  bondingMode : Nat := 0
  lacpIndex : Nat := 0
  vlanId : Nat := 0
  vlanParent : Nat := 0
  protos : Nat := 0
  update : Nat := 0
  parent : Option Nat := none
  subif : Option Nat := none
  linkEvent : Nat := 0
  deviceIdentified : Nat := 0
  deviceName : Bytes := []
  deriving Repr, DecidableEq

/-- `struct hinv`, /repo/src/common.h lines 160-168. -/
structure Hinv where
  hwRevision : Bytes := []
  fwRevision : Bytes := []
  swRevision : Bytes := []
  serialNumber : Bytes := []
  manufacturer : Bytes := []
  modelName : Bytes := []
  assetId : Bytes := []
  deriving Repr, DecidableEq

/-- `struct my_sysinfo`, /repo/src/common.h lines 170-191, without the raw `uts` and the management selection
inputs; `mnetif` is resolved where it is used. -/
structure SysInfo where
  utsStr : Bytes := []
  utsRel : Bytes := [0, 0, 0]
  platform : Bytes := []
  hostname : Bytes := []
  country : Bytes := []
  location : Bytes := []
  cap : Nat := 4
  capActive : Nat := 4
  capLldpmed : Nat := 0
  lldpmedDevtype : Int := 0
  hwaddr : Bytes := [0, 0, 0, 0, 0, 0]
  physifCount : Nat := 0
  hinv : Hinv := {}
  deriving Repr, DecidableEq

/-! `NETIF_*`, /repo/src/common.h lines 205-214. -/

/-- `NETIF_INVALID` (INT8_MIN), /repo/src/common.h line 205. -/
def NETIF_INVALID : Int := -128
/-- `NETIF_VLAN`, /repo/src/common.h line 206. -/
def NETIF_VLAN : Int := -1
/-- `NETIF_REGULAR`, /repo/src/common.h line 207. -/
def NETIF_REGULAR : Int := 0
/-- `NETIF_WIRELESS`, /repo/src/common.h line 208. -/
def NETIF_WIRELESS : Int := 1
/-- `NETIF_TAP`, /repo/src/common.h line 209. -/
def NETIF_TAP : Int := 2
/-- `NETIF_PARENT`, /repo/src/common.h line 210. -/
def NETIF_PARENT : Int := 10
/-- `NETIF_TEAMING`, /repo/src/common.h line 211. -/
def NETIF_TEAMING : Int := 11
/-- `NETIF_BONDING`, /repo/src/common.h line 212. -/
def NETIF_BONDING : Int := 12
/-- `NETIF_BRIDGE`, /repo/src/common.h line 213. -/
def NETIF_BRIDGE : Int := 13
/-- `NETIF_OLD` (INT8_MAX), /repo/src/common.h line 214. -/
def NETIF_OLD : Int := 127

/-- The `options` word, /repo/src/common.h line 232, as a bit set. -/
abbrev Opts := Nat

/-! Bit numbers of `OPT_*`, /repo/src/common.h lines 216-230. -/

/-- `OPT_DAEMON`, /repo/src/common.h line 216. -/
def OPT_DAEMON : Nat := 0
/-- `OPT_SEND`, /repo/src/common.h line 217. -/
def OPT_SEND : Nat := 1
/-- `OPT_RECV`, /repo/src/common.h line 218. -/
def OPT_RECV : Nat := 2
/-- `OPT_AUTO`, /repo/src/common.h line 219. -/
def OPT_AUTO : Nat := 3
/-- `OPT_ONCE`, /repo/src/common.h line 220. -/
def OPT_ONCE : Nat := 4
/-- `OPT_ARGV`, /repo/src/common.h line 221. -/
def OPT_ARGV : Nat := 5
/-- `OPT_DEBUG`, /repo/src/common.h line 222. -/
def OPT_DEBUG : Nat := 6
/-- `OPT_MNETIF`, /repo/src/common.h line 223. -/
def OPT_MNETIF : Nat := 7
/-- `OPT_MADDR`, /repo/src/common.h line 224. -/
def OPT_MADDR : Nat := 8
/-- `OPT_WIRELESS`, /repo/src/common.h line 225. -/
def OPT_WIRELESS : Nat := 9
/-- `OPT_TAP`, /repo/src/common.h line 226. -/
def OPT_TAP : Nat := 10
/-- `OPT_IFDESCR`, /repo/src/common.h line 227. -/
def OPT_IFDESCR : Nat := 11
/-- `OPT_USEDESCR`, /repo/src/common.h line 228. -/
def OPT_USEDESCR : Nat := 12
/-- `OPT_CHASSIS_IF`, /repo/src/common.h line 229. -/
def OPT_CHASSIS_IF : Nat := 13

/-- `options & OPT_X`. -/
def Opts.has (o : Opts) (bit : Nat) : Bool := o.testBit bit

/-- The three `continue` conditions of `netif_iter`, /repo/src/util.c lines 311-323. -/
def netifSkip (o : Opts) (n : Netif) : Bool :=
  (!o.has OPT_ARGV && n.child != 0) || (o.has OPT_ARGV && n.argv == 0) ||
  (decide (n.type > NETIF_PARENT) && n.subif.isNone)

/-- The `for` loop of `netif_iter`, /repo/src/util.c lines 301-330: `rest` is the list from `TAILQ_FIRST` or
`TAILQ_NEXT` on, the result starts with the returned interface. -/
def netifIter (o : Opts) : List Netif → List Netif
  | [] => []
  | n :: rest => if netifSkip o n then netifIter o rest else n :: rest

/-- `netif_iter` returns an element of the list it was given. -/
theorem netifIter_length (o : Opts) (l : List Netif) : (netifIter o l).length ≤ l.length := by
  induction l with
  | nil => simp [netifIter]
  | cons n l ih =>
    simp only [netifIter]
    split
    · simp only [List.length_cons]; omega
    · simp

/-- `while ((netif = netif_iter(netif, netifs)) != NULL)`, e.g. /repo/src/child.c line 179: the interfaces for
which the loop body runs, in order. -/
def netifTraverse (o : Opts) (l : List Netif) : List Netif :=
  match _h : netifIter o l with
  | [] => []
  | n :: rest => n :: netifTraverse o rest
termination_by l.length
decreasing_by
  have := netifIter_length o l
  rw [_h] at this
  simp only [List.length_cons] at this
  omega

/-- `netif_byindex`, /repo/src/util.h: first interface with that index. -/
def netifByIndex (l : List Netif) (i : Nat) : Option Netif := l.find? (fun n => n.index == i)

/-- `subif_iter`, /repo/src/util.c lines 332-349; pointers are indexes, the result is the next port. -/
def subifIter (l : List Netif) (subif : Option Netif) (netif : Netif) : Option Netif :=
  match subif with
  | none =>
    if netif.type > NETIF_PARENT then netif.subif.bind (netifByIndex l)
    else if netif.type < NETIF_REGULAR then none
    else some netif
  | some s => if s.index = netif.index then none else s.subif.bind (netifByIndex l)

end Ladvd
