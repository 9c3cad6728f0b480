import Verif.Model.Tlv
import Verif.Spec.Text
/-!
# Specification of the wire formats

A protocol data unit is described as a list of TLVs (type, value) and an encoding of such lists; decoding
is specified as "the payload is the encoding of some TLV list, and the meanings of the TLVs are applied in
order".  Only the record types `Msg`/`Peer` and the byte order helpers are shared with the model.
-/

namespace Ladvd.Spec

/-- A TLV: type and value. -/
abbrev Tlv := Nat × Bytes

/-- CDP/FDP: 16-bit type, 16-bit length including the four header bytes, value. -/
def cdpEnc1 (t : Tlv) : Bytes := be16 t.1 ++ be16 (t.2.length + 4) ++ t.2
/-- Concatenation of CDP/FDP TLVs. -/
def cdpEnc (ts : List Tlv) : Bytes := ts.flatMap cdpEnc1
/-- Types and lengths fit their fields. -/
def CdpWf (ts : List Tlv) : Prop := ∀ t ∈ ts, t.1 < 65536 ∧ t.2.length + 4 < 65536

/-- LLDP: 7-bit type, 9-bit length, value. -/
def lldpEnc1 (t : Tlv) : Bytes := be16 (t.1 * 512 + t.2.length) ++ t.2
/-- Concatenation of LLDP TLVs. -/
def lldpEnc (ts : List Tlv) : Bytes := ts.flatMap lldpEnc1
/-- Types and lengths fit their fields. -/
def LldpWf (ts : List Tlv) : Prop := ∀ t ∈ ts, t.1 < 128 ∧ t.2.length < 512

/-- EDP: marker byte, 8-bit type, 16-bit length including the four header bytes, value.  The receiver accepts any
marker. -/
def edpEnc1 (mk : UInt8) (t : Tlv) : Bytes := [mk, UInt8.ofNat t.1] ++ be16 (t.2.length + 4) ++ t.2
/-- Concatenation of EDP TLVs with their markers. -/
def edpEnc (ts : List (UInt8 × Tlv)) : Bytes := ts.flatMap (fun p => edpEnc1 p.1 p.2)
/-- Types and lengths fit their fields. -/
def EdpWf (ts : List (UInt8 × Tlv)) : Prop := ∀ p ∈ ts, p.2.1 < 256 ∧ p.2.2.length + 4 < 65536

/-- Keep the first value. -/
def first (old : Option Bytes) (new : Bytes) : Option Bytes := old.or (some new)

/-- Capability letters: one letter per bit, lowest bit first. -/
def capLetters (cap : Nat) : Bytes :=
  ([(0, 0x72), (1, 0x42), (2, 0x48), (3, 0x52), (4, 0x53), (5, 0x57), (6, 0x43), (7, 0x54), (8, 0x4f)] :
    List (Nat × UInt8)).filterMap (fun p => if cap.testBit p.1 then some p.2 else none)

/-- Print mode shows a text, the other mode remembers it. -/
def showOr (print : Bool) (text : Bytes) (remember : Peer → Peer) (s : Msg) : Msg :=
  if print then { s with out := s.out ++ [text] } else { s with peer := remember s.peer }

/-! ## CDP -/

/-- An entry of a CDP address TLV: protocol type, protocol, address. -/
structure AddrEntry where
  pt : Nat
  protocol : Bytes
  addr : Bytes
  deriving Repr, DecidableEq

/-- Split the first entry off an address list. -/
def addrEntry (v : Bytes) : Option (AddrEntry × Bytes) :=
  match v with
  | pt :: pl :: r =>
    if r.length < pl.toNat + 2 then none
    else
      let al := beNat ((r.drop pl.toNat).take 2)
      let r3 := r.drop (pl.toNat + 2)
      if r3.length < al then none
      else some (⟨pt.toNat, r.take pl.toNat, r3.take al⟩, r3.drop al)
  | _ => none

/-- Up to `n` entries; the list may end early when the data does. -/
def addrEntries : Nat → Bytes → Option (List AddrEntry)
  | 0, _ => some []
  | n + 1, v => do
    let (e, r) ← addrEntry v
    if r = [] ∨ n = 0 then some [e]
    else do
      let es ← addrEntries n r
      some (e :: es)

/-- Meaning of one address entry: IPv4 is NLPID 0xcc with four bytes, IPv6 is SNAP 86dd with sixteen; other
families are ignored; a recognised family with the wrong length is an error. -/
def addrMeaning (print : Bool) (s : Msg) (e : AddrEntry) : Option Msg :=
  if e.pt = 1 ∧ e.protocol = [0xcc] then
    if e.addr.length = 4 then
      some (showOr print e.addr (fun p => { p with inet4 := first p.inet4 e.addr }) s)
    else none
  else if e.pt = 2 ∧ e.protocol = [0xaa, 0xaa, 0x03, 0x00, 0x00, 0x00, 0x86, 0xdd] then
    if e.addr.length = 16 then
      some (showOr print e.addr (fun p => { p with inet6 := first p.inet6 e.addr }) s)
    else none
  else some s

/-- The number of entries to read: the announced count; a count of zero does not limit the list. -/
def addrLimit (count : Nat) : Nat := if count = 0 then 4294967296 else count

/-- CDP capability bits (router, transparent bridge, source bridge, switch, host, -, repeater, phone) to
displayed capability bits. -/
def cdpCaps (cc : Nat) : Nat :=
  (if cc.testBit 6 then 1 else 0) +
  (if cc.testBit 1 ∨ cc.testBit 2 then 2 else 0) +
  (if cc.testBit 4 then 4 else 0) +
  (if cc.testBit 0 then 8 else 0) +
  (if cc.testBit 3 then 16 else 0) +
  (if cc.testBit 7 then 128 else 0)

/-- Decimal notation of a number below 65536. -/
def decimal (n : Nat) : Bytes :=
  let d (k : Nat) : UInt8 := UInt8.ofNat (48 + n / k % 10)
  if n < 10 then [d 1]
  else if n < 100 then [d 10, d 1]
  else if n < 1000 then [d 100, d 10, d 1]
  else if n < 10000 then [d 1000, d 100, d 10, d 1]
  else [d 10000, d 1000, d 100, d 10, d 1]

/-- Meaning of one CDP TLV. -/
def cdpMeaning (print : Bool) (s : Msg) (t : Tlv) : Option Msg :=
  let v := t.2
  match t.1 with
  | 0x01 | 0x14 => some (showOr print (shown v) (fun p => { p with hostname := first p.hostname (shown v) }) s)
  | 0x03 => some (showOr print (shown v) (fun p => { p with portname := first p.portname (shown v) }) s)
  | 0x04 =>
    if v.length = 4 then
      let txt := capLetters (cdpCaps (beNat v))
      some (showOr print txt (fun p => { p with cap := first p.cap txt }) s)
    else none
  | 0x02 | 0x16 =>
    if v.length < 4 then none
    else do
      let es ← addrEntries (addrLimit (beNat (v.take 4))) (v.drop 4)
      es.foldlM (addrMeaning print) s
  | 0x05 | 0x06 | 0x09 => some (if print then { s with out := s.out ++ [shown v] } else s)
  | 0x0a =>
    if v.length = 2 then
      let txt := decimal (beNat v)
      some (showOr print txt (fun p => { p with vlan := first p.vlan txt }) s)
    else none
  | 0x0b => if print ∧ v.length ≠ 1 then none else some s
  | _ => some s

/-- Meaning of a CDP payload: version 1 or 2, hold time, two checksum bytes that are not looked at, TLVs. -/
def cdpPayload (print : Bool) (payload : Bytes) (s s' : Msg) : Prop :=
  ∃ (ver ttl k0 k1 : UInt8) (ts : List Tlv),
    payload = [ver, ttl, k0, k1] ++ cdpEnc ts ∧ CdpWf ts ∧ (ver = 1 ∨ ver = 2) ∧
    ts.foldlM (cdpMeaning print)
      { s with proto := (if ver = 1 then 5 else 1), ttl := ttl.toNat } = some s'

/-! ## FDP -/

/-- Capability bit of an FDP capability name. -/
def fdpCapBit (v : Bytes) : Nat :=
  let name := v.takeWhile (· ≠ 0)
  if name = [0x52, 0x6f, 0x75, 0x74, 0x65, 0x72] then 8
  else if name = [0x53, 0x77, 0x69, 0x74, 0x63, 0x68] then 16
  else if name = [0x42, 0x72, 0x69, 0x64, 0x67, 0x65] then 2
  else if name = [0x48, 0x6f, 0x73, 0x74] then 4
  else 0

/-- Meaning of one FDP TLV (FDP has no separate print mode). -/
def fdpMeaning (s : Msg) (t : Tlv) : Msg :=
  match t.1 with
  | 1 => { s with peer := { s.peer with hostname := first s.peer.hostname (shownGlob t.2) } }
  | 3 => { s with peer := { s.peer with portname := first s.peer.portname (shownGlob t.2) } }
  | 4 => { s with peer := { s.peer with cap := first s.peer.cap (capLetters (fdpCapBit t.2)) } }
  | _ => s

/-- Meaning of an FDP payload. -/
def fdpPayload (payload : Bytes) (s s' : Msg) : Prop :=
  ∃ (ttl k0 k1 : UInt8) (ts : List Tlv),
    payload = [1, ttl, k0, k1] ++ cdpEnc ts ∧ CdpWf ts ∧
    s' = ts.foldl fdpMeaning { s with ttl := ttl.toNat }

/-! ## EDP -/

/-- Meaning of one EDP TLV. -/
def edpMeaning (s : Msg) (t : UInt8 × Tlv) : Msg :=
  match t.2.1 with
  | 1 => { s with peer := { s.peer with hostname := first s.peer.hostname (shownGlob t.2.2) } }
  | _ => s

/-- Meaning of an EDP payload: sixteen header bytes, the first of which is the version 1. -/
def edpPayload (payload : Bytes) (s s' : Msg) : Prop :=
  ∃ (hdr : Bytes) (ts : List (UInt8 × Tlv)),
    payload = 1 :: hdr ++ edpEnc ts ∧ hdr.length = 15 ∧ EdpWf ts ∧
    s' = ts.foldl edpMeaning { s with ttl := 180 }

/-! ## LLDP -/

/-- LLDP capability bits (other, repeater, bridge, wlan, router, phone, docsis, station only) to displayed
capability bits. -/
def lldpCaps (lc : Nat) : Nat :=
  if lc = 128 then 4
  else
    (if lc.testBit 1 then 1 else 0) + (if lc.testBit 2 then 2 else 0) + (if lc.testBit 4 then 8 else 0) +
    (if lc.testBit 3 then 32 else 0) + (if lc.testBit 6 then 64 else 0) + (if lc.testBit 5 then 128 else 0) +
    (if lc.testBit 0 then 256 else 0)

/-- Text of an address-valued identifier in print mode: only an address of the right length is shown. -/
def showAddr (family : Nat) (v : Bytes) (s : Msg) : Msg :=
  if (family = 4 ∧ v.length = 4) ∨ (family = 5 ∧ v.length = 16) ∨ (family = 6 ∧ v.length = 6) then
    { s with out := s.out ++ [v] }
  else s

/-- Meaning of the chassis ID value: subtype and 1..255 bytes; only looked at in print mode. -/
def chassisMeaning (print : Bool) (s : Msg) (v : Bytes) : Option Msg :=
  match v with
  | [] | [_] => none
  | sub :: r =>
    if r.length > 255 then none
    else if !print then some s
    else if sub ∈ [1, 2, 3, 6, 7] then some { s with out := s.out ++ [shown r] }
    else if sub = 4 then some (showAddr 6 r s)
    else if sub = 5 then some (showAddr (r.headD 0).toNat r.tail s)
    else some s

/-- Meaning of the port ID value: subtype and 1..255 bytes. -/
def portMeaning (print : Bool) (s : Msg) (v : Bytes) : Option Msg :=
  match v with
  | [] | [_] => none
  | sub :: r =>
    if r.length > 255 then none
    else if sub ∈ [1, 2, 5, 6, 7] then
      some (showOr print (shown r) (fun p => { p with portname := first p.portname (shown r) }) s)
    else if sub = 3 then some (if print then showAddr 6 r s else s)
    else some s

/-- Meaning of a management address value. -/
def mgmtMeaning (print : Bool) (s : Msg) (v : Bytes) : Option Msg :=
  match v with
  | alen :: fam :: r =>
    let n := (alen - 1).toNat
    if ¬ (fam = 1 ∨ fam = 2 ∨ fam = 6) then none
    else if r.length ≤ n then none
    else
      let a := r.take n
      if fam = 1 then
        if !print ∧ s.peer.inet4.isSome then some s
        else if n = 4 then some (showOr print a (fun p => { p with inet4 := first p.inet4 a }) s) else none
      else if fam = 2 then
        if !print ∧ s.peer.inet6.isSome then some s
        else if n = 16 then some (showOr print a (fun p => { p with inet6 := first p.inet6 a }) s) else none
      else
        if !print ∧ s.peer.mac.isSome then some s
        else if n = 6 then some (showOr print a (fun p => { p with mac := first p.mac a }) s) else none
  | _ => none

/-- Meaning of an organisationally specific value: only the IEEE 802.1 port VLAN id is used. -/
def orgMeaning (print : Bool) (s : Msg) (v : Bytes) : Option Msg :=
  if v.length < 3 then none
  else if v.take 3 ≠ [0x00, 0x80, 0xc2] then some s
  else
    match v.drop 3 with
    | [] => none
    | sub :: r =>
      if sub ≠ 1 then some s
      else if r.length = 2 then
        some (showOr print (decimal (beNat r)) (fun p => { p with vlan := first p.vlan (decimal (beNat r)) }) s)
      else none

/-- Meaning of one LLDP TLV after the mandatory three and before the End TLV. -/
def lldpMeaning (print : Bool) (s : Msg) (t : Tlv) : Option Msg :=
  let v := t.2
  if t.1 = 0 then none
  else if t.1 = 5 then
    if v.length > 255 then none
    else if s.peer.hostname.isSome then none
    else some { s with
      out := if print then s.out ++ [shown v] else s.out
      peer := { s.peer with hostname := some (shown v) } }
  else if t.1 = 4 then
    some (showOr print (shown v) (fun p => { p with portdescr := first p.portdescr (shown v) }) s)
  else if t.1 = 6 then some (if print then { s with out := s.out ++ [shown v] } else s)
  else if t.1 = 7 then
    if v.length ≠ 4 then none
    else
      let avail := beNat (v.take 2)
      let act := beNat (v.drop 2)
      if act &&& avail ≠ act then none
      else if avail.testBit 7 ∧ avail ≠ 128 then none
      else some (if print then
          { s with out := s.out ++ [capLetters (lldpCaps avail), capLetters (lldpCaps act)] }
        else { s with peer := { s.peer with cap := first s.peer.cap (capLetters (lldpCaps act)) } })
  else if t.1 = 8 then mgmtMeaning print s v
  else if t.1 = 127 then orgMeaning print s v
  else if 9 ≤ t.1 ∧ t.1 ≤ 126 then none
  else some s

/-- Meaning of an LLDP data unit: chassis ID, port ID, TTL, other TLVs and an empty End TLV. -/
def lldpPdu (print : Bool) (pdu : Bytes) (s s' : Msg) : Prop :=
  ∃ (chassis port : Bytes) (t0 t1 : UInt8) (ts : List Tlv) (s1 s2 : Msg),
    pdu = lldpEnc ([(1, chassis), (2, port), (3, [t0, t1])] ++ ts ++ [(0, [])]) ∧
    LldpWf ([(1, chassis), (2, port)] ++ ts) ∧
    chassisMeaning print s chassis = some s1 ∧
    portMeaning print s1 port = some s2 ∧
    ts.foldlM (lldpMeaning print) { s2 with ttl := t0.toNat * 256 + t1.toNat } = some s'

/-! ## Frames -/

/-- The bytes before the payload of an LLC/SNAP encapsulated frame: destination, source, optional VLAN tag,
length, SNAP header with organisation and protocol id. -/
def LlcPrefix (dst org pid : Bytes) (pre : Bytes) : Prop :=
  ∃ (src len : Bytes), src.length = 6 ∧ len.length = 2 ∧
    ((pre = dst ++ src ++ len ++ [0xaa, 0xaa, 0x03] ++ org ++ pid ∧ len ≠ [0x81, 0x00]) ∨
     (∃ tag : Bytes, tag.length = 2 ∧
       pre = dst ++ src ++ [0x81, 0x00] ++ tag ++ len ++ [0xaa, 0xaa, 0x03] ++ org ++ pid))

/-- The bytes before the payload of an LLDP frame. -/
def LldpPrefix (pre : Bytes) : Prop :=
  ∃ (src : Bytes), src.length = 6 ∧
    (pre = [0x01, 0x80, 0xc2, 0x00, 0x00, 0x0e] ++ src ++ [0x88, 0xcc] ∨
     (∃ tag : Bytes, tag.length = 2 ∧
       pre = [0x01, 0x80, 0xc2, 0x00, 0x00, 0x0e] ++ src ++ [0x81, 0x00] ++ tag ++ [0x88, 0xcc]))

/-- Frame with a SNAP encapsulated payload. -/
def LlcFrame (dst org pid : Bytes) (f payload : Bytes) : Prop :=
  ∃ pre, LlcPrefix dst org pid pre ∧ f = pre ++ payload

/-- CDP frame: Cisco multicast address, organisation and protocol id. -/
def CdpFrame : Bytes → Bytes → Prop :=
  LlcFrame [0x01, 0x00, 0x0c, 0xcc, 0xcc, 0xcc] [0x00, 0x00, 0x0c] [0x20, 0x00]
/-- EDP frame: Extreme multicast address, organisation and protocol id. -/
def EdpFrame : Bytes → Bytes → Prop :=
  LlcFrame [0x00, 0xe0, 0x2b, 0x00, 0x00, 0x00] [0x00, 0xe0, 0x2b] [0x00, 0xbb]
/-- FDP frame: Foundry multicast address, organisation and protocol id. -/
def FdpFrame : Bytes → Bytes → Prop :=
  LlcFrame [0x01, 0xe0, 0x52, 0xcc, 0xcc, 0xcc] [0x00, 0xe0, 0x52] [0x20, 0x00]
/-- NDP frame: Nortel multicast address, organisation and protocol id. -/
def NdpFrame : Bytes → Bytes → Prop :=
  LlcFrame [0x01, 0x00, 0x81, 0x00, 0x01, 0x00] [0x00, 0x00, 0x81] [0x01, 0xa2]
/-- LLDP frame. -/
def LldpFrame (f payload : Bytes) : Prop := ∃ pre, LldpPrefix pre ∧ f = pre ++ payload

end Ladvd.Spec
