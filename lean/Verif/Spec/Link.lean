import Verif.Spec.Send
import Verif.Spec.Details
import Verif.Model.Packet
/-!
# Specification: link properties and the data of a frame
-/

namespace Ladvd.Spec

/-- Everything about an interface but its link properties and the count of its link events. -/
def unlinked (n : Netif) : Netif :=
  { n with linkEvent := 0, mtu := 0, duplex := 0, autonegSupported := 0, autonegEnabled := 0, autonegPmd := 0, mau := 0 }

/-- Kinds of cable. -/
inductive Medium where
  | twistedPair | fibre | thinCoax | aui | directAttach
  deriving DecidableEq

/-- The cable, by the connector the driver reports; behind an MII is twisted pair if the device advertises it. -/
def mediumOf (e : Ecmd) : Option Medium :=
  match e.port with
  | 0 => some .twistedPair
  | 1 => some .aui
  | 2 => if e.advertising.testBit 7 then some .twistedPair else none
  | 3 => some .fibre
  | 4 => some .thinCoax
  | 5 => some .directAttach
  | _ => none

/-- `dot3MauType` of RFC 4836 by cable, speed in Mbit/s and full duplex; `none` stands for any. -/
def mauRows : List (Medium × Option Nat × Option Bool × Nat) := [
  (.aui, none, none, 1), (.thinCoax, some 10, none, 4),
  (.twistedPair, some 10, some false, 10), (.twistedPair, some 10, some true, 11),
  (.twistedPair, some 100, some false, 15), (.twistedPair, some 100, some true, 16),
  (.twistedPair, some 1000, some false, 29), (.twistedPair, some 1000, some true, 30), (.twistedPair, some 10000, none, 54),
  (.fibre, some 10, some false, 12), (.fibre, some 10, some true, 13),
  (.fibre, some 100, some false, 17), (.fibre, some 100, some true, 18),
  (.fibre, some 1000, some false, 21), (.fibre, some 1000, some true, 22), (.fibre, some 10000, none, 31),
  (.directAttach, some 10000, none, 41)]

/-- A row of the table applies. -/
def rowFits (e : Ecmd) (r : Medium × Option Nat × Option Bool × Nat) : Prop :=
  mediumOf e = some r.1 ∧ (∀ s ∈ r.2.1, e.speed = s) ∧ (∀ f ∈ r.2.2.1, decide (e.duplex = 1) = f)

/-- Bits of the kernel's advertised link modes and the bits of `ifMauAutoNegCapAdvertisedBits` (RFC 4836) for them:
10baseT, 10baseT full duplex, 100baseTX, the same full duplex, 1000baseT, the same full duplex, 10000baseT ("other"), pause,
asymmetric pause, 2500baseX ("other"). -/
def pmdRows : List (Nat × Nat) :=
  [(0, 14), (1, 13), (2, 11), (3, 10), (4, 1), (5, 0), (12, 15), (13, 7), (14, 6), (15, 15)]

/-- `x` is interface `n` with the link properties that kernel and driver report.  An interface that is no hardware device or whose
driver does not answer has none: -1 stands for unknown. -/
structure LinuxLinkIs (m : Media) (n x : Netif) : Prop where
  same : unlinked x = unlinked n
  mtu : x.mtu = match m.mtu n.name with | some v => v % 65536 | none => n.mtu
  silent : (n.type ≠ 0 ∨ m.ecmd n.index = none) → x.duplex = -1 ∧ x.autonegSupported = -1 ∧ x.autonegEnabled = -1 ∧
    x.autonegPmd = 0 ∧ x.mau = 0
  duplex : ∀ e, n.type = 0 → m.ecmd n.index = some e → x.duplex = if e.duplex = 1 then 1 else 0
  supported : ∀ e, n.type = 0 → m.ecmd n.index = some e → x.autonegSupported = if e.supported.testBit 6 then 1 else 0
  enabled : ∀ e, n.type = 0 → m.ecmd n.index = some e → e.supported.testBit 6 = true → x.autonegEnabled = if e.autoneg = 1 then 1 else 0
  noneg : ∀ e, n.type = 0 → m.ecmd n.index = some e → e.supported.testBit 6 = false → x.autonegEnabled = -1 ∧ x.autonegPmd = 0
  pmd : ∀ e, n.type = 0 → m.ecmd n.index = some e → e.supported.testBit 6 = true →
    ∀ i, x.autonegPmd.testBit i = true ↔ ∃ a, (a, i) ∈ pmdRows ∧ e.advertising.testBit a = true
  mau : ∀ e, n.type = 0 → m.ecmd n.index = some e →
    (∀ r ∈ mauRows, rowFits e r → x.mau = r.2.2.2) ∧ ((∀ r ∈ mauRows, ¬ rowFits e r) → x.mau = 0)

/-! ## Link properties on FreeBSD -/

/-- Bits of `ifMauAutoNegCapAdvertisedBits` (RFC 4836) by medium and full duplex; `none` stands for any. -/
def bsdPmdRows : List (IfMedia × Option Bool × Nat) := [
  (.t10, some false, 14), (.t10, some true, 13), (.t4, none, 12), (.tx100, some false, 11), (.tx100, some true, 10),
  (.t2, some false, 9), (.t2, some true, 8), (.sx1000, some false, 3), (.lx1000, some false, 3), (.cx1000, some false, 3),
  (.sx1000, some true, 2), (.lx1000, some true, 2), (.cx1000, some true, 2), (.t1000, some false, 1), (.t1000, some true, 0)]

/-- `dot3MauType` (RFC 4836) by medium and full duplex. -/
def bsdMauRows : List (IfMedia × Option Bool × Nat) := [
  (.b5, none, 2), (.b2, none, 4), (.t10, some false, 10), (.t10, some true, 11), (.fl10, some false, 12), (.fl10, some true, 13),
  (.t4, none, 14), (.tx100, some false, 15), (.tx100, some true, 16), (.fx100, some false, 17), (.fx100, some true, 18),
  (.t2, some false, 19), (.t2, some true, 20), (.lx1000, some false, 23), (.lx1000, some true, 24), (.sx1000, some false, 25),
  (.sx1000, some true, 26), (.cx1000, some false, 27), (.cx1000, some true, 28), (.t1000, some false, 29), (.t1000, some true, 30),
  (.lr10g, none, 35), (.sr10g, none, 36), (.cx4, none, 41), (.t10g, none, 54), (.cr4, none, 71), (.sr4, none, 72), (.lr4, none, 74)]

/-- A row of a table applies. -/
def mediaFits (w : MediaWord) (r : IfMedia × Option Bool × Nat) : Prop := w.sub = r.1 ∧ ∀ f ∈ r.2.1, w.fdx = f

instance (w : MediaWord) (r : IfMedia × Option Bool × Nat) : Decidable (mediaFits w r) := by unfold mediaFits; infer_instance

/-- The bit announced for a possible medium; media without a row are "other". -/
def MediaBit (w : MediaWord) (i : Nat) : Prop :=
  w.sub ≠ .auto ∧ ((∃ r ∈ bsdPmdRows, mediaFits w r ∧ r.2.2 = i) ∨ (∀ r ∈ bsdPmdRows, ¬ mediaFits w r) ∧ i = 15)

/-- A device of which the kernel knows the media, with a link. -/
def MediaKnown (m : BsdMedia) (n : Netif) (r : IfmReq) : Prop :=
  n.type = 0 ∧ m.media n.name = some r ∧ r.current.ether = true ∧ r.link = true ∧ r.list ≠ [] ∧ m.again n.name = true

/-- `x` is interface `n` with the link properties that the kernel reports; -1 stands for unknown. -/
structure BsdLinkIs (m : BsdMedia) (n x : Netif) : Prop where
  same : unlinked x = unlinked n
  mtu : x.mtu = match m.mtu n.name with | some v => v % 65536 | none => n.mtu
  silent : (∀ r, ¬ MediaKnown m n r) → x.duplex = -1 ∧ x.autonegSupported = -1 ∧ x.autonegEnabled = -1 ∧ x.autonegPmd = 0 ∧ x.mau = 0
  duplex : ∀ r, MediaKnown m n r → x.duplex = if r.active.fdx then 1 else 0
  supported : ∀ r, MediaKnown m n r → x.autonegSupported = if (∃ w ∈ r.list, w.sub = .auto) then 1 else 0
  enabled : ∀ r, MediaKnown m n r → (∃ w ∈ r.list, w.sub = .auto) → x.autonegEnabled = if r.current.sub = .auto then 1 else 0
  noneg : ∀ r, MediaKnown m n r → (¬ ∃ w ∈ r.list, w.sub = .auto) → x.autonegEnabled = -1
  pmd : ∀ r, MediaKnown m n r → ∀ i, x.autonegPmd.testBit i = true ↔ ∃ w ∈ r.list, MediaBit w i
  mau : ∀ r, MediaKnown m n r →
    (∀ w ∈ bsdMauRows, mediaFits r.active w → x.mau = w.2.2) ∧ ((∀ w ∈ bsdMauRows, ¬ mediaFits r.active w) → x.mau = 0)

/-- `x` is interface `n` with the link properties that the system reports. -/
structure LinkIs (m : Media) (n x : Netif) : Prop where
  same : unlinked x = unlinked n
  linux : m.bsd = none → LinuxLinkIs m n x
  freebsd : ∀ b, m.bsd = some b → BsdLinkIs b n x

/-- The data of a frame are those of the state `r` after the refresh of the interfaces, for its interface `s`; link properties are
up to date for `s`. -/
structure Describing (c : Conf) (m : Media) (r : Ifs) (s : Netif) (env : PktEnv) : Prop where
  opts : env.opts = c.opts
  sys : env.sys = r.sys
  nif : LinkIs m s env.nif
  netifs : env.netifs.map unlinked = r.netifs.map unlinked
  parent : env.parent.map unlinked = (s.parent.bind (withIndex r.netifs)).map unlinked
  mnetif : env.mnetif.map unlinked = (r.mnetif.bind (withIndex r.netifs)).map unlinked

/-- A port that is not in use: a standby port of a failover bond or team. -/
def Standby (k : Kernel) (l : List Netif) (n : Netif) (j : Nat) : Prop := modeOf k n = 2 ∧ ∃ x, RoleIn k l n j 2 x

/-- The sequence number in an EDP frame: behind 22 bytes of Ethernet and SNAP header, version, length and checksum. -/
def edpNumber (msg : Bytes) : Nat := (msg.getD 28 0).toNat * 256 + (msg.getD 29 0).toNat

/-- Those of the EDP frames in a list of messages. -/
def edpNumbers (l : List Tx) : List Nat := (l.filter (fun t => t.proto = .edp)).map (fun t => edpNumber t.msg)

end Ladvd.Spec
