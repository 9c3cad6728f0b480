import Verif.Spec.Wire
import Verif.Spec.Advert
/-!
# What the standards require of an LLDP data unit

Written from IEEE 802.1AB-2009 (clauses 8.4 to 8.6, annexes E and F) and ANSI/TIA-1057; nothing of the model's behaviour is used.
-/

namespace Ladvd.Spec

/-- Two octets as a number. -/
def word (a b : UInt8) : Nat := a.toNat * 256 + b.toNat

/-- Every bit of `a` is in `b`. -/
def BitsIn (a b : Nat) : Prop := ∀ i, a.testBit i = true → b.testBit i = true

/-- Value of a civic address (TIA-1057 10.2.4.3.2): data format 2, the number of octets that follow, what the address refers to (0 to 2), a
country code of two letters, and address elements, each with its length. -/
def CivicAddress (v : Bytes) : Prop :=
  ∃ (len what : UInt8) (country : Bytes) (es : List (UInt8 × Bytes)),
    v = [2, len, what] ++ country ++ es.flatMap (fun e => e.1 :: UInt8.ofNat e.2.length :: e.2) ∧
    len.toNat = v.length - 2 ∧ what.toNat ≤ 2 ∧ country.length = 2 ∧ ∀ e ∈ es, e.2.length ≤ 255

/-- Value of an organisationally specific TLV: OUI, subtype, information. -/
def OrgConforms (oui : Bytes) (sub : UInt8) (info : Bytes) : Prop :=
  if oui = [0x00, 0x80, 0xc2] then
    -- 802.1: VLAN name
    sub = 3 ∧ ∃ a b n name, info = [a, b, n] ++ name ∧ word a b < 4095 ∧ n.toNat = name.length ∧ name.length ≤ 32
  else if oui = [0x00, 0x12, 0x0f] then
    -- 802.3: MAC/PHY status (negotiation can be enabled only where it is supported), link aggregation (likewise), maximum frame size
    (sub = 1 ∧ ∃ st a b c d, info = [st, a, b, c, d] ∧ st.toNat < 4 ∧ (st.toNat.testBit 1 = true → st.toNat.testBit 0 = true)) ∨
    (sub = 3 ∧ ∃ st a b c d, info = [st, a, b, c, d] ∧ st.toNat < 4 ∧ (st.toNat.testBit 1 = true → st.toNat.testBit 0 = true)) ∨
    (sub = 4 ∧ info.length = 2)
  else if oui = [0x00, 0x12, 0xbb] then
    -- LLDP-MED: capabilities (always with bit 0) and device type, location, inventory
    (sub = 1 ∧ ∃ a b t, info = [a, b, t] ∧ (word a b).testBit 0 = true ∧ t.toNat ≤ 4) ∨
    (sub = 3 ∧ CivicAddress info) ∨
    (5 ≤ sub.toNat ∧ sub.toNat ≤ 11 ∧ info.length ≤ 32)
  else True

/-- One TLV. -/
def TlvConforms (t : Tlv) : Prop :=
  t.2.length < 512 ∧
  match t.1 with
  | 0 => t.2 = []
  | 1 => ∃ sub id, t.2 = sub :: id ∧ 1 ≤ sub.toNat ∧ sub.toNat ≤ 7 ∧ 1 ≤ id.length ∧ id.length ≤ 255 ∧ (sub = 4 → id.length = 6)
  | 2 => ∃ sub id, t.2 = sub :: id ∧ 1 ≤ sub.toNat ∧ sub.toNat ≤ 7 ∧ 1 ≤ id.length ∧ id.length ≤ 255 ∧ (sub = 3 → id.length = 6)
  | 3 => t.2.length = 2
  | 4 => t.2.length ≤ 255
  | 5 => t.2.length ≤ 255
  | 6 => t.2.length ≤ 255
  | 7 => ∃ a b c d, t.2 = [a, b, c, d] ∧ BitsIn (word c d) (word a b)
  | 8 => ∃ len fam addr num a b c d n oid, t.2 = [len, fam] ++ addr ++ [num, a, b, c, d, n] ++ oid ∧ len.toNat = addr.length + 1 ∧
      1 ≤ addr.length ∧ addr.length ≤ 31 ∧ 1 ≤ num.toNat ∧ num.toNat ≤ 3 ∧ n.toNat = oid.length ∧ oid.length ≤ 128 ∧
      (fam = 1 → addr.length = 4) ∧ (fam = 2 → addr.length = 16) ∧ (fam = 6 → addr.length = 6)
  | 127 => ∃ oui sub info, t.2 = oui ++ sub :: info ∧ oui.length = 3 ∧ OrgConforms oui sub info
  | _ => False

/-- The TLVs that may occur only once: OUI and subtype of all organisationally specific ones but VLAN names. -/
def onceOnly (ts : List Tlv) : List Bytes :=
  (ts.filter (fun t => t.1 = 127 ∧ t.2.take 4 ≠ [0x00, 0x80, 0xc2, 3])).map (fun t => t.2.take 4)

/-- The LLDP-MED TLVs. -/
def medTlvs (ts : List Tlv) : List Bytes := (ts.filter (fun t => t.1 = 127 ∧ t.2.take 3 = [0x00, 0x12, 0xbb])).map (·.2)

/-- A data unit: the three mandatory TLVs, others, End.  Port description, system name, system description and capabilities at most once, management
addresses all different, LLDP-MED capabilities before all other LLDP-MED TLVs. -/
structure Conformant (ts : List Tlv) : Prop where
  order : ∃ a b c r, ts = [(1, a), (2, b), (3, c)] ++ r ++ [(0, [])] ∧ ∀ t ∈ r, 4 ≤ t.1
  each : ∀ t ∈ ts, TlvConforms t
  once : ∀ n, 4 ≤ n → n ≤ 7 → (ts.filter (fun t => t.1 = n)).length ≤ 1
  mgmt : (ts.filter (fun t => t.1 = 8)).Nodup
  orgs : (onceOnly ts).Nodup
  med : ∀ v r, medTlvs ts = v :: r → v[3]? = some 1

/-- What C70 assumes beyond the sizes of the fields: announced locations of at most 250 characters, announced VLANs with proper ids, negotiation reported as enabled only where
it is supported, the LLDP-MED basics. -/
structure Announceable (e : PktEnv) : Prop where
  sizes : EnvOk e
  caps : CapsOk e.sys
  location : e.sys.country.length = 2 → e.sys.location.length ≤ 250
  vlans : ∀ v ∈ vlansOf e, v.vlanId < 4095
  autoneg : e.nif.autonegSupported = -1 ∨ (e.nif.autonegSupported = 1 ∧ (e.nif.autonegEnabled = 0 ∨ e.nif.autonegEnabled = 1)) ∨
    (e.nif.autonegSupported = 0 ∧ e.nif.autonegEnabled = 0)
  med : e.sys.capLldpmed.testBit 0 = true ∧ 0 ≤ e.sys.lldpmedDevtype ∧ e.sys.lldpmedDevtype ≤ 4

end Ladvd.Spec

