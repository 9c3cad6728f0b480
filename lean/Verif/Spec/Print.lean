import Verif.Spec.Wire
import Verif.Spec.Cli
import Verif.Model.Print
/-!
# Specification of the full report

What `ladvdc -f` prints for a frame, TLV by TLV.  Only the record `PrintEnv` (time, reception time, interface name, libc's notation of IPv6
addresses) is shared with the model.
-/

namespace Ladvd.Spec

/-- Texts with a separator between them. -/
def sepBy (sep : UInt8) : List Bytes → Bytes
  | [] => []
  | [t] => t
  | t :: u :: r => t ++ [sep] ++ sepBy sep (u :: r)

/-- Two lower case hexadecimal digits. -/
def hexByte (b : UInt8) : Bytes :=
  let d (k : UInt8) : UInt8 := if k < 10 then 0x30 + k else 0x57 + k
  [d (b / 16), d (b % 16)]

/-- An Ethernet address: `01:23:45:67:89:ab`. -/
def etherText (a : Bytes) : Bytes := sepBy 0x3a (a.map hexByte)

/-- An IPv4 address: `192.0.2.1`. -/
def dottedText (a : Bytes) : Bytes := sepBy 0x2e (a.map (fun b => decimal b.toNat))

/-- `label: value` and a line end. -/
def labelled (label value : Bytes) : Bytes := label ++ [0x3a, 0x20] ++ value ++ [0x0a]

/-- A description: on the same line, or one line for each line of the text, indented by two blanks. -/
def paragraph (label value : Bytes) : Bytes :=
  if 0x0a ∈ value then label ++ [0x3a, 0x0a] ++ (splitAtByte 0x0a value).flatMap (fun l => [0x20, 0x20] ++ l ++ [0x0a])
  else labelled label value

/-- Seconds until the information expires, modulo 2^16. -/
def secondsLeft (env : PrintEnv) (ttl : Nat) : Nat := (((ttl : Int) - (env.clock - env.received)) % 65536).toNat

/-! ## LLDP -/

/-- The chassis id: subtype and 1 to 255 bytes; nothing is printed for unknown subtypes and for addresses of the wrong length. -/
def chassisLine (env : PrintEnv) (v : Bytes) : Option Bytes :=
  match v with
  | [] | [_] => none
  | sub :: r =>
    if r.length > 255 then none
    else if sub ∈ [1, 2, 3, 6, 7] then some (labelled (lit "Chassis id") (shown r))
    else if sub = 4 ∧ r.length = 6 then some (labelled (lit "Chassis id") (etherText r))
    else if sub = 5 ∧ r.head? = some 4 ∧ r.length = 5 then some (labelled (lit "Chassis id") (dottedText r.tail))
    else if sub = 5 ∧ r.head? = some 5 ∧ r.length = 17 then some (labelled (lit "Chassis id") (env.ntop6 r.tail))
    else if sub = 5 ∧ r.head? = some 6 ∧ r.length = 7 then some (labelled (lit "Chassis id") (etherText r.tail))
    else some []

/-- A port id that claims to be an Ethernet address and is not six bytes long. -/
def BadMac (v : Bytes) : Prop := v.head? = some 3 ∧ 2 ≤ v.length ∧ v.length ≤ 256 ∧ v.length ≠ 7

/-- The port id. -/
def portLine (v : Bytes) : Option Bytes :=
  match v with
  | [] | [_] => none
  | sub :: r =>
    if r.length > 255 then none
    else if sub ∈ [1, 2, 5, 6, 7] then some (labelled (lit "Port id") (shown r))
    else if sub = 3 then some (labelled (lit "Port id") (etherText r))
    else some []

/-- A management address. -/
def mgmtLine (env : PrintEnv) (v : Bytes) : Option Bytes :=
  match v with
  | alen :: fam :: r =>
    let n := (alen - 1).toNat
    if r.length ≤ n then none
    else if fam = 1 ∧ n = 4 then some (labelled (lit "Management Address IPv4") (dottedText (r.take n)))
    else if fam = 2 ∧ n = 16 then some (labelled (lit "Management Address IPv6") (env.ntop6 (r.take n)))
    else if fam = 6 ∧ n = 6 then some (labelled (lit "Management Address Ethernet") (etherText (r.take n)))
    else none
  | _ => none

/-- An organisationally specific TLV: only the IEEE 802.1 port VLAN id is printed. -/
def orgLine (v : Bytes) : Option Bytes :=
  match v with
  | o0 :: o1 :: o2 :: r =>
    if [o0, o1, o2] ≠ [0x00, 0x80, 0xc2] then some []
    else
      match r with
      | [] => none
      | sub :: id =>
        if sub ≠ 1 then some []
        else if id.length = 2 then some (labelled (lit "Port VLAN ID") (decimal (beNat id)))
        else none
  | _ => none

/-- Capabilities, available and enabled. -/
def capsLine (v : Bytes) : Option Bytes :=
  if v.length ≠ 4 then none
  else
    let avail := beNat (v.take 2)
    let act := beNat (v.drop 2)
    if act &&& avail ≠ act then none
    else if avail.testBit 7 ∧ avail ≠ 128 then none
    else some (labelled (lit "System Capabilities") (capLetters (lldpCaps avail)) ++
      labelled (lit "Enabled Capabilities") (capLetters (lldpCaps act)))

/-- What is printed for a TLV behind the mandatory three; `none`: the frame is rejected.  `named`: a system name was seen before. -/
def lldpLine (env : PrintEnv) (named : Bool) (t : Tlv) : Option Bytes :=
  if t.1 = 5 then (if t.2.length > 255 ∨ named then none else some (labelled (lit "System Name") (shown t.2)))
  else if t.1 = 4 then some (paragraph (lit "Port Description") (shown t.2))
  else if t.1 = 6 then some (paragraph (lit "System Description") (shown t.2))
  else if t.1 = 7 then capsLine t.2
  else if t.1 = 8 then mgmtLine env t.2
  else if t.1 = 127 then orgLine t.2
  else if 9 ≤ t.1 ∧ t.1 ≤ 126 then none
  else some []

/-- What is printed for a list of TLVs, up to the first one that makes the frame invalid, and whether there is none. -/
def lldpLines (env : PrintEnv) : Bool → List Tlv → Bytes × Bool
  | _, [] => ([], true)
  | named, t :: ts =>
    match lldpLine env named t with
    | none => ([], false)
    | some x => (x ++ (lldpLines env (named || t.1 == 5) ts).1, (lldpLines env (named || t.1 == 5) ts).2)

/-- What is printed for a frame with the given TLVs, and whether all of them are valid. -/
def lldpReport (env : PrintEnv) (named : Bool) (ts : List Tlv) : Bytes × Bool :=
  match ts with
  | [] => ([], false)
  | (t1, chassis) :: ts =>
    match (if t1 = 1 then chassisLine env chassis else none) with
    | none => ([], false)
    | some a =>
      match ts with
      | [] => (a, false)
      | (t2, port) :: ts =>
        match (if t2 = 2 then portLine port else none) with
        | none => (a, false)
        | some b =>
          match ts with
          | [] => (a ++ b, false)
          | (t3, ttl) :: ts =>
            if t3 = 3 ∧ ttl.length = 2 then
              (a ++ b ++ lit "Time remaining: " ++ decimal (secondsLeft env (beNat ttl)) ++ lit " seconds\n" ++ (lldpLines env named ts).1,
                (lldpLines env named ts).2)
            else (a ++ b, false)

/-- The data behind the last complete TLV is no End TLV: it is cut off, or an End TLV with a value. -/
def LldpCut (rest : Bytes) : Prop :=
  rest.length < 2 ∨ rest.length < 2 + beNat (rest.take 2) % 512 ∨ (beNat (rest.take 2) / 512 = 0 ∧ beNat (rest.take 2) % 512 ≠ 0)

/-! ## CDP -/

/-- One entry of an address list. -/
def addrLine (env : PrintEnv) (e : AddrEntry) : Option Bytes :=
  if e.pt = 1 ∧ e.protocol = [0xcc] then
    if e.addr.length = 4 then some (labelled (lit "  IP address") (dottedText e.addr)) else none
  else if e.pt = 2 ∧ e.protocol = [0xaa, 0xaa, 0x03, 0x00, 0x00, 0x00, 0x86, 0xdd] then
    if e.addr.length = 16 then some (labelled (lit "  IPv6 address") (env.ntop6 e.addr)) else none
  else some []

/-- The entries of an address list, at most `n`: what is printed up to the first invalid one, and whether there is none. -/
def addrLines (env : PrintEnv) : Nat → Bytes → Bytes × Bool
  | 0, _ => ([], true)
  | n + 1, v =>
    match addrEntry v with
    | none => ([], false)
    | some (e, r) =>
      match addrLine env e with
      | none => ([], false)
      | some x => if r = [] then (x, true) else (x ++ (addrLines env n r).1, (addrLines env n r).2)

/-- An address TLV: the number of addresses and the addresses. -/
def addrsLine (env : PrintEnv) (label v : Bytes) : Bytes × Bool :=
  if v.length < 4 then ([], false)
  else
    (label ++ lit " address(es):\n" ++ (addrLines env (addrLimit (beNat (v.take 4))) (v.drop 4)).1,
      (addrLines env (addrLimit (beNat (v.take 4))) (v.drop 4)).2)

/-- What is printed for a TLV, and whether it is valid. -/
def cdpLine (env : PrintEnv) (t : Tlv) : Bytes × Bool :=
  let v := t.2
  match t.1 with
  | 0x01 => (labelled (lit "Device ID") (shown v), true)
  | 0x14 => (labelled (lit "System Name") (shown v), true)
  | 0x03 => (lit "Interface: " ++ env.name ++ lit ", Port ID (outgoing port): " ++ shown v ++ lit "\n", true)
  | 0x04 => if v.length = 4 then (labelled (lit "Capabilities") (capLetters (cdpCaps (beNat v))), true) else ([], false)
  | 0x02 => addrsLine env (lit "Entry") v
  | 0x16 => addrsLine env (lit "Management") v
  | 0x05 => (paragraph (lit "Version") (shown v), true)
  | 0x06 => (paragraph (lit "Platform") (shown v), true)
  | 0x09 => (lit "VTP Management Domain: '" ++ shown v ++ lit "'\n", true)
  | 0x0a => if v.length = 2 then (labelled (lit "Native VLAN") (decimal (beNat v)), true) else ([], false)
  | 0x0b =>
    match v with
    | [d] => (labelled (lit "Duplex") (if d = 0 then lit "half" else lit "full"), true)
    | _ => ([], false)
  | _ => ([], true)

/-- What is printed for a list of TLVs, up to and including the first one that makes the frame invalid, and whether there is none. -/
def cdpLines (env : PrintEnv) : List Tlv → Bytes × Bool
  | [] => ([], true)
  | t :: ts =>
    if (cdpLine env t).2 then ((cdpLine env t).1 ++ (cdpLines env ts).1, (cdpLines env ts).2)
    else ((cdpLine env t).1, false)

/-- What is printed for a frame with the given version, hold time and TLVs, and whether all are valid. -/
def cdpReport (env : PrintEnv) (ver ttl : UInt8) (ts : List Tlv) : Bytes × Bool :=
  if ver = 1 ∨ ver = 2 then
    (labelled (lit "CDP Version") (decimal ver.toNat) ++ labelled (lit "Holdtime") (decimal (secondsLeft env ttl.toNat)) ++ (cdpLines env ts).1,
      (cdpLines env ts).2)
  else ([], false)

/-- The data behind the last complete TLV is cut off: less than a header, or a length smaller than the header or larger than the data. -/
def CdpCut (rest : Bytes) : Prop :=
  (0 < rest.length ∧ rest.length < 4) ∨
  (4 ≤ rest.length ∧ (beNat ((rest.drop 2).take 2) < 4 ∨ rest.length < beNat ((rest.drop 2).take 2)))

/-! ## Entries and runs -/

/-- What is printed for a frame of the protocol, and whether the frame is valid to the end.  Nothing is printed for EDP, FDP and NDP. -/
def Reported (env : PrintEnv) (p : Proto) (f text : Bytes) (ok : Bool) : Prop :=
  match p with
  | .lldp => ∃ ts rest, LldpFrame f (lldpEnc ts ++ rest) ∧ LldpWf ts ∧ (∀ t ∈ ts, t.1 ≠ 0) ∧
      (LldpCut rest ∨ ∃ trailer, rest = 0 :: 0 :: trailer) ∧ text = (lldpReport env false ts).1 ∧
      (ok = true ↔ (lldpReport env false ts).2 = true ∧ ¬ LldpCut rest)
  | .cdp | .cdp1 => ∃ ver ttl k0 k1 ts rest, CdpFrame f ([ver, ttl, k0, k1] ++ (cdpEnc ts ++ rest)) ∧ CdpWf ts ∧ (rest = [] ∨ CdpCut rest) ∧
      text = (cdpReport env ver ttl ts).1 ∧ (ok = true ↔ (cdpReport env ver ttl ts).2 = true ∧ rest = [])
  | .edp => text = [] ∧ (ok = true ↔ ∃ payload s, EdpFrame f payload ∧ edpPayload payload {} s)
  | .fdp => text = [] ∧ (ok = true ↔ ∃ payload s, FdpFrame f payload ∧ fdpPayload payload {} s)
  | .ndp => text = [] ∧ (ok = true ↔ ∃ payload, NdpFrame f payload ∧ 11 ≤ payload.length)

/-- The port id of a LLDP frame claims to be an Ethernet address and is not six bytes long. -/
def MacPort (f : Bytes) : Prop :=
  ∃ (first : Tlv) (port rest : Bytes), first.1 < 128 ∧ first.2.length < 512 ∧ port.length < 512 ∧
    LldpFrame f (lldpEnc [first, (2, port)] ++ rest) ∧ BadMac port

/-- What is printed for an entry read at a time, and whether it is shown to the end: nothing unless it is one of those asked for. -/
def EntryReport (c : CliConf) (ntop6 : Bytes → Bytes) (clock : Int) (e : CliIn) (text : Bytes) (ok : Bool) : Prop :=
  (¬ Selected c e ∧ text = [] ∧ ok = false) ∨
  (Selected c e ∧ ∃ p, Proto.ofNum e.proto = some p ∧ Reported ⟨clock, e.received, e.name, ntop6⟩ p (e.msg.take e.len.toNat) text ok)

/-- The output of a run: the reports, an empty line behind every report that is complete; with `-o` the first complete one is the last. -/
def outputOf (once : Bool) : List (Bytes × Bool) → Bytes
  | [] => []
  | (text, ok) :: r => if ok && once then text else text ++ (if ok then [0x0a] else []) ++ outputOf once r

/-! ## Lines -/

/-- A text of whole lines, each of which is indented by two blanks or begins with one of the labels. -/
def LinesOf (label : Bytes → Prop) (text : Bytes) : Prop :=
  ∃ ls : List Bytes, text = ls.flatMap (fun l => l ++ [0x0a]) ∧
    ∀ l ∈ ls, 0x0a ∉ l ∧ ([0x20, 0x20] <+: l ∨ ∃ x, label x ∧ x <+: l)

/-- The labels of the lines that LLDP TLVs of a type are reported with. -/
def lldpLabels : Nat → List Bytes
  | 1 => [lit "Chassis id: "]
  | 2 => [lit "Port id: "]
  | 3 => [lit "Time remaining: "]
  | 4 => [lit "Port Description:"]
  | 5 => [lit "System Name: "]
  | 6 => [lit "System Description:"]
  | 7 => [lit "System Capabilities: ", lit "Enabled Capabilities: "]
  | 8 => [lit "Management Address IPv4: ", lit "Management Address IPv6: ", lit "Management Address Ethernet: "]
  | 127 => [lit "Port VLAN ID: "]
  | _ => []

/-- The labels of the lines that CDP TLVs of a type are reported with. -/
def cdpLabels : Nat → List Bytes
  | 0x01 => [lit "Device ID: "]
  | 0x02 => [lit "Entry address(es):"]
  | 0x03 => [lit "Interface: "]
  | 0x04 => [lit "Capabilities: "]
  | 0x05 => [lit "Version:"]
  | 0x06 => [lit "Platform:"]
  | 0x09 => [lit "VTP Management Domain: "]
  | 0x0a => [lit "Native VLAN: "]
  | 0x0b => [lit "Duplex: "]
  | 0x14 => [lit "System Name: "]
  | 0x16 => [lit "Management address(es):"]
  | _ => []

/-- The texts of LLDP that are put on one line contain no line feed: system names, and chassis and port ids that are texts. -/
def LldpPlain (t : Tlv) : Prop :=
  (t.1 = 5 ∨ (t.1 = 1 ∧ t.2.head? ∈ [some 1, some 2, some 3, some 6, some 7]) ∨
    (t.1 = 2 ∧ t.2.head? ∈ [some 1, some 2, some 5, some 6, some 7])) → 0x0a ∉ t.2

/-- The texts of CDP that are put on one line contain no line feed: device id, system name, port id and VTP domain. -/
def CdpPlain (t : Tlv) : Prop := t.1 ∈ [0x01, 0x14, 0x03, 0x09] → 0x0a ∉ t.2

end Ladvd.Spec
