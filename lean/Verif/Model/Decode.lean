import Verif.Model.Tlv
/-!
# Frame checks and decoders of the five protocols

`m` is the object `msg->msg` (or at least as much of it as may be accessed) and `len` is `msg->len`.
`print` is `msg->decode == DECODE_PRINT`; the other value in use is `DECODE_STR`
(/repo/src/common.h lines 254-255).  Log messages are not modelled.
-/

namespace Ladvd

/-! ## Frame checks -/

/-- `CDP_MULTICAST_ADDR`, /repo/src/proto/cdp.h line 25. -/
def CDP_DST : Bytes := [0x01, 0x00, 0x0c, 0xcc, 0xcc, 0xcc]
/-- `LLC_ORG_CISCO`, /repo/src/proto/cdp.h line 26. -/
def CDP_ORG : Bytes := [0x00, 0x00, 0x0c]
/-- `LLC_PID_CDP`, /repo/src/proto/cdp.h line 27. -/
def CDP_PID : Nat := 0x2000
/-- `EDP_MULTICAST_ADDR`, /repo/src/proto/edp.h line 23. -/
def EDP_DST : Bytes := [0x00, 0xe0, 0x2b, 0x00, 0x00, 0x00]
/-- `LLC_ORG_EXTREME`, /repo/src/proto/edp.h line 24. -/
def EDP_ORG : Bytes := [0x00, 0xe0, 0x2b]
/-- `LLC_PID_EDP`, /repo/src/proto/edp.h line 25. -/
def EDP_PID : Nat := 0x00bb
/-- `FDP_MULTICAST_ADDR`, /repo/src/proto/fdp.h line 24. -/
def FDP_DST : Bytes := [0x01, 0xe0, 0x52, 0xcc, 0xcc, 0xcc]
/-- `LLC_ORG_FOUNDRY`, /repo/src/proto/fdp.h line 25. -/
def FDP_ORG : Bytes := [0x00, 0xe0, 0x52]
/-- `LLC_PID_FDP`, /repo/src/proto/fdp.h line 26. -/
def FDP_PID : Nat := 0x2000
/-- `NDP_MULTICAST_ADDR`, /repo/src/proto/ndp.h line 23. -/
def NDP_DST : Bytes := [0x01, 0x00, 0x81, 0x00, 0x01, 0x00]
/-- `LLC_ORG_NORTEL`, /repo/src/proto/ndp.h line 24. -/
def NDP_ORG : Bytes := [0x00, 0x00, 0x81]
/-- `LLC_PID_NDP_HELLO`, /repo/src/proto/ndp.h line 25. -/
def NDP_PID : Nat := 0x01a2
/-- `LLDP_MULTICAST_ADDR`, /repo/src/proto/lldp.h line 24. -/
def LLDP_DST : Bytes := [0x01, 0x80, 0xc2, 0x00, 0x00, 0x0e]
/-- `ETHERTYPE_VLAN`, /repo/src/ether.h line 70. -/
def ETHERTYPE_VLAN : Nat := 0x8100
/-- `ETHERTYPE_LLDP`, /repo/src/ether.h line 76. -/
def ETHERTYPE_LLDP : Nat := 0x88cc

/-- `cdp_check`, `edp_check`, `fdp_check` and `ndp_check`, which differ only in the constants:
/repo/src/proto/cdp.c lines 322-348, edp.c lines 165-191, fdp.c lines 192-218, ndp.c lines 83-109.
`ok p` is the payload offset, `fail` is NULL, `abort` a failed `assert`. -/
def llcCheck (dst org : Bytes) (pid : Nat) (m : Bytes) (length : Nat) : Res Nat :=
  if ¬ (length > 14 + 8) ∨ ¬ (length ≤ ETHER_MAX_LEN) then .abort
  else do
    let ether ← rd m 0 14
    if ether.take 6 ≠ dst then .fail
    else do
      let offset := if beNat (ether.drop 12) = ETHERTYPE_VLAN then 4 else 0
      let llc ← rd m (14 + offset) 8
      if llc.take 3 ≠ [0xaa, 0xaa, 0x03] then .fail
      else if (llc.drop 3).take 3 = org ∧ beNat (llc.drop 6) = pid then
        .ok (14 + offset + 8)
      else .fail

/-- `cdp_check`, /repo/src/proto/cdp.c lines 322-348. -/
def cdpCheck : Bytes → Nat → Res Nat := llcCheck CDP_DST CDP_ORG CDP_PID
/-- `edp_check`, /repo/src/proto/edp.c lines 165-191. -/
def edpCheck : Bytes → Nat → Res Nat := llcCheck EDP_DST EDP_ORG EDP_PID
/-- `fdp_check`, /repo/src/proto/fdp.c lines 192-218. -/
def fdpCheck : Bytes → Nat → Res Nat := llcCheck FDP_DST FDP_ORG FDP_PID
/-- `ndp_check`, /repo/src/proto/ndp.c lines 83-109. -/
def ndpCheck : Bytes → Nat → Res Nat := llcCheck NDP_DST NDP_ORG NDP_PID

/-- `lldp_check`, /repo/src/proto/lldp.c lines 443-467. -/
def lldpCheck (m : Bytes) (length : Nat) : Res Nat :=
  if ¬ (length > 14) ∨ ¬ (length ≤ ETHER_MAX_LEN) then .abort
  else do
    let ether ← rd m 0 14
    if ether.take 6 ≠ LLDP_DST then .fail
    else if beNat (ether.drop 12) = ETHERTYPE_VLAN then do
      let ty ← rd m (12 + 4) 2
      if beNat ty = ETHERTYPE_LLDP then .ok (14 + 4) else .fail
    else if beNat (ether.drop 12) = ETHERTYPE_LLDP then .ok 14
    else .fail

/-- `assert((pos = check(packet, length)) != NULL)`, e.g. /repo/src/proto/cdp.c line 366. -/
def assertCheck (r : Res Nat) : Res Nat :=
  match r with
  | .fail => .abort
  | r => r

/-- `length -= VOIDP_DIFF(pos, packet)` on a 64-bit `size_t`, which wraps around when the payload
offset is larger than the frame, e.g. /repo/src/proto/cdp.c line 367. -/
def subSize (a b : Nat) : Nat := if b ≤ a then a - b else a + 2 ^ 64 - b

/-! ## CDP -/

/-- `cdp_header_check`, /repo/src/proto/cdp.c lines 445-480.  Simplification: the hold time printed in
print mode is derived from the clock, not from peer text, and is left out. -/
def cdpHeaderCheck (m : Bytes) (c : Cur) (s : Msg) : Res Msg :=
  if c.length < 4 then .fail
  else do
    let h ← rd m c.pos 4
    let version := beNat (h.take 1)
    if version < 1 ∨ version > 2 then .fail
    else
      pure { s with proto := (if version = 1 then 5 else 1), ttl := beNat ((h.drop 1).take 1) }

/-- `cdp_system_name`, /repo/src/proto/cdp.c lines 482-498. -/
def cdpSystemName (m : Bytes) (print : Bool) (c : Cur) (s : Msg) : Res Msg := do
  let str ← tlvStrCopy m c.pos c.length
  if print then pure { s with out := s.out ++ [str] }
  else pure { s with peer := { s.peer with hostname := peerStr s.peer.hostname str } }

/-- `cdp_port_id`, /repo/src/proto/cdp.c lines 500-516. -/
def cdpPortId (m : Bytes) (print : Bool) (c : Cur) (s : Msg) : Res Msg := do
  let str ← tlvStrCopy m c.pos c.length
  if print then pure { s with out := s.out ++ [str] }
  else pure { s with peer := { s.peer with portname := peerStr s.peer.portname str } }

/-- `cdp_descr_print` and `cdp_vtp_print`, /repo/src/proto/cdp.c lines 518-548 and 676-686.
Simplification: the text is recorded as one item, not split at newlines. -/
def cdpTextPrint (m : Bytes) (c : Cur) (s : Msg) : Res Msg := do
  let str ← tlvStrCopy m c.pos c.length
  pure { s with out := s.out ++ [str] }

/-- The capability mapping of `cdp_system_cap`, /repo/src/proto/cdp.c lines 561-567, with the constants of
/repo/src/proto/cdp.h lines 62-69 and /repo/src/common.h lines 193-201. -/
def cdpCapMap (cc : Nat) : Nat :=
  (if cc.testBit 0 then 8 else 0) ||| (if cc.testBit 1 then 2 else 0) |||
  (if cc.testBit 2 then 2 else 0) ||| (if cc.testBit 3 then 16 else 0) |||
  (if cc.testBit 4 then 4 else 0) ||| (if cc.testBit 6 then 1 else 0) |||
  (if cc.testBit 7 then 128 else 0)

/-- `cdp_system_cap`, /repo/src/proto/cdp.c lines 550-578. -/
def cdpSystemCap (m : Bytes) (print : Bool) (c : Cur) (s : Msg) : Res Msg :=
  if c.length ≠ 4 then .fail
  else do
    let (cc, _) ← grab m 4 c
    let str := tlvStrCap (cdpCapMap cc)
    if print then pure { s with out := s.out ++ [str] }
    else pure { s with peer := { s.peer with cap := peerStr s.peer.cap str } }

/-- `ADDR_PROTO_IPV4`/`ADDR_PROTO_IPV6` protocol bytes, /repo/src/proto/cdp.h lines 88-97. -/
def PROTO_IPV4 : Bytes := [0xcc]
@[inherit_doc PROTO_IPV4] def PROTO_IPV6 : Bytes := [0xaa, 0xaa, 0x03, 0x00, 0x00, 0x00, 0x86, 0xdd]

/-- The address family of a CDP address entry, /repo/src/proto/cdp.c lines 607-618; `memcmp` only loads
`pl` bytes in the two cases where `pl` has the expected value. 0 means unhandled. -/
def cdpAf (m : Bytes) (pos pt pl : Nat) : Res Nat :=
  if pt = 1 ∧ pl = 1 then do
    let b ← rd m pos pl
    pure (if b = PROTO_IPV4 then PEER_ADDR_INET4 else 0)
  else if pt = 2 ∧ pl = 8 then do
    let b ← rd m pos pl
    pure (if b = PROTO_IPV6 then PEER_ADDR_INET6 else 0)
  else .ok 0

/-- The body of `cdp_addr` from `next_addr` to before the `goto`, /repo/src/proto/cdp.c lines 596-647. -/
def cdpAddrOne (m : Bytes) (print : Bool) (c : Cur) (s : Msg) : Res (Cur × Msg) := do
  let (pt, c) ← grab m 1 c
  let (pl, c) ← grab m 1 c
  if c.length < pl + 2 then .fail
  else do
    let af ← cdpAf m c.pos pt pl
    let c ← skip pl c
    let (al, c) ← grab m 2 c
    if c.length < al then .fail
    else do
      let s ←
        if af ≠ 0 then do
          let str ← tlvStrAddr af m c.pos al
          if print then pure { s with out := s.out ++ [str] }
          else pure { s with peer := s.peer.setAddr af str }
        else pure s
      let c ← skip al c
      pure (c, s)

/-- The loop of `cdp_addr`, /repo/src/proto/cdp.c lines 596-653.  `count` is the `uint32_t addr_count`,
which wraps around when the frame announces 0 addresses.  `fuel` is the iteration budget. -/
def cdpAddrLoop (m : Bytes) (print : Bool) : Nat → Nat → Cur → Msg → Res Msg
  | 0, _, _, _ => .stuck
  | fuel + 1, count, c, s => do
    let (c, s) ← cdpAddrOne m print c s
    let count := (count + 4294967296 - 1) % 4294967296
    if c.length ≠ 0 ∧ count > 0 then cdpAddrLoop m print fuel count c s
    else pure s

/-- `cdp_addr`, /repo/src/proto/cdp.c lines 580-654. -/
def cdpAddr (m : Bytes) (print : Bool) (c : Cur) (s : Msg) : Res Msg := do
  let (count, c') ← grab m 4 c
  cdpAddrLoop m print (c.length + 1) count c' s

/-- `cdp_vlan`, /repo/src/proto/cdp.c lines 656-674. -/
def cdpVlan (m : Bytes) (print : Bool) (c : Cur) (s : Msg) : Res Msg :=
  if c.length ≠ 2 then .fail
  else do
    let (v, _) ← grab m 2 c
    if print then pure { s with out := s.out ++ [decimal16 v] }
    else pure { s with peer := { s.peer with vlan := peerStr s.peer.vlan (decimal16 v) } }

/-- `cdp_duplex_print`, /repo/src/proto/cdp.c lines 688-701. -/
def cdpDuplexPrint (m : Bytes) (c : Cur) (s : Msg) : Res Msg :=
  if c.length ≠ 1 then .fail
  else do
    let (_, _) ← grab m 1 c
    pure s

/-- The `switch` of `cdp_decode`, /repo/src/proto/cdp.c lines 387-433; `c` covers exactly the TLV value. -/
def cdpTlv (m : Bytes) (print : Bool) (t : Nat) (c : Cur) (s : Msg) : Res Msg :=
  if t = 0x01 ∨ t = 0x14 then cdpSystemName m print c s
  else if t = 0x03 then cdpPortId m print c s
  else if t = 0x04 then cdpSystemCap m print c s
  else if t = 0x02 ∨ t = 0x16 then cdpAddr m print c s
  else if t = 0x05 ∨ t = 0x06 then (if print then cdpTextPrint m c s else pure s)
  else if t = 0x09 then (if print then cdpTextPrint m c s else pure s)
  else if t = 0x0a then cdpVlan m print c s
  else if t = 0x0b then (if print then cdpDuplexPrint m c s else pure s)
  else pure s

/-- The TLV loop of `cdp_decode`, /repo/src/proto/cdp.c lines 376-439. -/
def cdpLoop (m : Bytes) (print : Bool) : Nat → Cur → Msg → Res (Cur × Msg)
  | 0, _, _ => .stuck
  | fuel + 1, c, s =>
    if c.length = 0 then .ok (c, s)
    else do
      let (t, l, c) ← grabCdpTlv m c
      if c.length < l then .fail
      else do
        let s ← cdpTlv m print t ⟨c.pos, l⟩ s
        let c ← skip l c
        cdpLoop m print fuel c s

/-- `cdp_decode`, /repo/src/proto/cdp.c lines 350-443: updated message and return value. -/
def cdpDecode (print : Bool) (m : Bytes) (len : Nat) (s : Msg) : Res (Msg × Nat) := do
  let p ← assertCheck (cdpCheck m len)
  let length := subSize len p
  let s ← cdpHeaderCheck m ⟨p, length⟩ s
  let (c, s) ← cdpLoop m print (length + 1) ⟨p + 4, length - 4⟩ s
  pure (s, c.pos)

/-! ## LLDP -/

/-- `lldp_chassis_id`, /repo/src/proto/lldp.c lines 593-639. -/
def lldpChassisId (m : Bytes) (print : Bool) (c : Cur) (s : Msg) : Res Msg :=
  if c.length ≤ 1 ∨ c.length > 256 then .fail
  else if !print then pure s
  else do
    let (sub, c) ← grab m 1 c
    if sub = 1 ∨ sub = 2 ∨ sub = 3 ∨ sub = 6 ∨ sub = 7 then do
      let str ← tlvStrCopy m c.pos c.length
      pure { s with out := s.out ++ [str] }
    else if sub = 4 then
      match tlvStrAddr PEER_ADDR_802 m c.pos c.length with
      | .ok str => pure { s with out := s.out ++ [str] }
      | .fail => pure s
      | .oob => .oob
      | .abort => .abort
      | .stuck => .stuck
    else if sub = 5 then do
      let (af, c) ← grab m 1 c
      match tlvStrAddr af m c.pos c.length with
      | .ok str => pure { s with out := s.out ++ [str] }
      | .fail => pure s
      | .oob => .oob
      | .abort => .abort
      | .stuck => .stuck
    else pure s

/-- `lldp_port_id`, /repo/src/proto/lldp.c lines 641-683.  Simplification: printing a NULL pointer with `%s`
(malformed MAC port id in print mode, line 675) is treated as printing nothing. -/
def lldpPortId (m : Bytes) (print : Bool) (c : Cur) (s : Msg) : Res Msg :=
  if c.length ≤ 1 ∨ c.length > 256 then .fail
  else do
    let (sub, c) ← grab m 1 c
    if sub = 1 ∨ sub = 2 ∨ sub = 5 ∨ sub = 6 ∨ sub = 7 then do
      let str ← tlvStrCopy m c.pos c.length
      if print then pure { s with out := s.out ++ [str] }
      else pure { s with peer := { s.peer with portname := peerStr s.peer.portname str } }
    else if sub = 3 then
      if print then
        match tlvStrAddr PEER_ADDR_802 m c.pos c.length with
        | .ok str => pure { s with out := s.out ++ [str] }
        | .fail => pure s
        | .oob => .oob
        | .abort => .abort
        | .stuck => .stuck
      else pure s
    else pure s

/-- `lldp_system_name`, /repo/src/proto/lldp.c lines 685-709. -/
def lldpSystemName (m : Bytes) (print : Bool) (c : Cur) (s : Msg) : Res Msg :=
  if c.length > 255 then .fail
  else if s.peer.hostname.isSome then .fail
  else do
    let str ← tlvStrCopy m c.pos c.length
    let s := if print then { s with out := s.out ++ [str] } else s
    pure { s with peer := { s.peer with hostname := peerStr s.peer.hostname str } }

/-- The capability mapping of `lldp_system_cap`, /repo/src/proto/lldp.c lines 780-790 and 798-808. -/
def lldpCapMap (lc : Nat) : Nat :=
  if lc = 128 then 4
  else
    (if lc.testBit 0 then 256 else 0) ||| (if lc.testBit 1 then 1 else 0) |||
    (if lc.testBit 2 then 2 else 0) ||| (if lc.testBit 3 then 32 else 0) |||
    (if lc.testBit 4 then 8 else 0) ||| (if lc.testBit 5 then 128 else 0) |||
    (if lc.testBit 6 then 64 else 0)

/-- `lldp_system_cap`, /repo/src/proto/lldp.c lines 757-819. -/
def lldpSystemCap (m : Bytes) (print : Bool) (c : Cur) (s : Msg) : Res Msg :=
  if c.length ≠ 4 then .fail
  else do
    let (avail, c) ← grab m 2 c
    let (act, _) ← grab m 2 c
    if avail ≠ act ||| avail then .fail
    else if avail.testBit 7 ∧ avail ≠ 128 then .fail
    else if print then
      pure { s with out := s.out ++ [tlvStrCap (lldpCapMap avail), tlvStrCap (lldpCapMap act)] }
    else
      pure { s with peer := { s.peer with cap := peerStr s.peer.cap (tlvStrCap (lldpCapMap act)) } }

/-- `lldp_mgmt_addr`, /repo/src/proto/lldp.c lines 821-880. -/
def lldpMgmtAddr (m : Bytes) (print : Bool) (c : Cur) (s : Msg) : Res Msg := do
  let (aflen, c) ← grab m 1 c
  let (afnum, c) ← grab m 1 c
  let aflen := (aflen + 256 - 1) % 256
  let af := if afnum = 1 then PEER_ADDR_INET4 else if afnum = 2 then PEER_ADDR_INET6
    else if afnum = 6 then PEER_ADDR_802 else 0
  if af = 0 then .fail
  else if ¬ (aflen < c.length) then .fail
  else if !print ∧ (s.peer.addr af).isSome then pure s
  else do
    let str ← tlvStrAddr af m c.pos aflen
    if print then pure { s with out := s.out ++ [str] }
    else pure { s with peer := s.peer.setAddr af str }

/-- `lldp_private_8021`, /repo/src/proto/lldp.c lines 899-929. -/
def lldpPrivate8021 (m : Bytes) (print : Bool) (c : Cur) (s : Msg) : Res Msg := do
  let (sub, c) ← grab m 1 c
  if sub = 1 then
    if c.length ≠ 2 then .fail
    else do
      let (v, _) ← grab m 2 c
      if print then pure { s with out := s.out ++ [decimal16 v] }
      else pure { s with peer := { s.peer with vlan := peerStr s.peer.vlan (decimal16 v) } }
  else pure s

/-- `lldp_private`, /repo/src/proto/lldp.c lines 882-897. -/
def lldpPrivate (m : Bytes) (print : Bool) (c : Cur) (s : Msg) : Res Msg := do
  let (oui, c) ← grabBytes m 3 c
  if oui = [0x00, 0x80, 0xc2] then lldpPrivate8021 m print c s
  else pure s

/-- The `PORT_DESCR`/`SYSTEM_DESCR` cases of `lldp_decode` with `lldp_descr_print`,
/repo/src/proto/lldp.c lines 546-555 and 711-741. -/
def lldpDescr (m : Bytes) (print : Bool) (t : Nat) (c : Cur) (s : Msg) : Res Msg := do
  let s ←
    if t = 4 ∧ !print then do
      let str ← tlvStrCopy m c.pos c.length
      pure { s with peer := { s.peer with portdescr := peerStr s.peer.portdescr str } }
    else pure s
  if print then do
    let str ← tlvStrCopy m c.pos c.length
    pure { s with out := s.out ++ [str] }
  else pure s

/-- The `switch` of `lldp_decode` except for `LLDP_TYPE_END`, /repo/src/proto/lldp.c lines 542-574. -/
def lldpTlv (m : Bytes) (print : Bool) (t : Nat) (c : Cur) (s : Msg) : Res Msg :=
  if t = 5 then lldpSystemName m print c s
  else if t = 4 ∨ t = 6 then lldpDescr m print t c s
  else if t = 7 then lldpSystemCap m print c s
  else if t = 8 then lldpMgmtAddr m print c s
  else if t = 127 then lldpPrivate m print c s
  else if 8 < t ∧ t < 127 then .fail
  else pure s

/-- The TLV loop of `lldp_decode` up to `out:`, /repo/src/proto/lldp.c lines 524-580.  `t0` is the
variable `tlv_type`, which the code after the loop looks at. -/
def lldpLoop (m : Bytes) (print : Bool) : Nat → Nat → Cur → Msg → Res (Nat × Cur × Msg)
  | 0, _, _, _ => .stuck
  | fuel + 1, t0, c, s =>
    if c.length = 0 then .ok (t0, c, s)
    else do
      let (t, l, c) ← grabLldpTlv m c
      if c.length < l then .fail
      else if t = 0 then
        if l ≠ 0 then .fail else pure (t, c, s)
      else do
        let s ← lldpTlv m print t ⟨c.pos, l⟩ s
        let c ← skip l c
        lldpLoop m print fuel t c s

/-- `lldp_decode`, /repo/src/proto/lldp.c lines 469-590.  Simplification: `lldp_ttl_print` prints a clock
value only and is left out. -/
def lldpDecode (print : Bool) (m : Bytes) (len : Nat) (s : Msg) : Res (Msg × Nat) := do
  let p ← assertCheck (lldpCheck m len)
  let length := subSize len p
  let (t, l, c) ← grabLldpTlv m ⟨p, length⟩
  if t ≠ 1 then .fail
  else if c.length < l then .fail
  else do
    let s ← lldpChassisId m print ⟨c.pos, l⟩ s
    let c ← skip l c
    let (t, l, c) ← grabLldpTlv m c
    if t ≠ 2 then .fail
    else if c.length < l then .fail
    else do
      let s ← lldpPortId m print ⟨c.pos, l⟩ s
      let c ← skip l c
      let (t, l, c) ← grabLldpTlv m c
      if t ≠ 3 then .fail
      else if l ≠ 2 then .fail
      else do
        let (ttl, c) ← grab m 2 c
        let s := { s with ttl := ttl }
        let (t, c, s) ← lldpLoop m print (length + 1) t c s
        if t ≠ 0 then .fail
        else pure (s, c.pos)

/-! ## EDP, FDP, NDP -/

/-- The TLV loop of `edp_decode`, /repo/src/proto/edp.c lines 230-252. -/
def edpLoop (m : Bytes) : Nat → Cur → Msg → Res (Cur × Msg)
  | 0, _, _ => .stuck
  | fuel + 1, c, s =>
    if c.length = 0 then .ok (c, s)
    else do
      let (t, l, c) ← grabEdpTlv m c
      if t = 1 then
        if c.length ≥ l then do
          let h ← tlvValueStr m c.pos l s.peer.hostname
          let c ← skip l c
          edpLoop m fuel c { s with peer := { s.peer with hostname := h } }
        else .fail
      else do
        let c ← skip l c
        edpLoop m fuel c s

/-- `edp_decode`, /repo/src/proto/edp.c lines 193-256. -/
def edpDecode (m : Bytes) (len : Nat) (s : Msg) : Res (Msg × Nat) := do
  let p ← assertCheck (edpCheck m len)
  let length := subSize len p
  if length < 16 then .fail
  else do
    let h ← rd m p 16
    if beNat (h.take 1) ≠ 1 then .fail
    else do
      let s := { s with ttl := LADVD_TTL }
      let (c, s) ← edpLoop m (length + 1) ⟨p + 16, length - 16⟩ s
      pure (s, c.pos)

/-- The capability names of `fdp_decode`, /repo/src/proto/fdp.c lines 283-290: bits added to `cap`. -/
def fdpCapBits (v : Bytes) : Nat :=
  let str := cstr v
  if str = lit "Router" then 8
  else if str = lit "Switch" then 16
  else if str = lit "Bridge" then 2
  else if str = lit "Host" then 4
  else 0

/-- The TLV loop of `fdp_decode`, /repo/src/proto/fdp.c lines 259-303.  `cap` is the function's local
variable, which accumulates over capability TLVs. -/
def fdpLoop (m : Bytes) : Nat → Cur → Nat → Msg → Res (Cur × Msg)
  | 0, _, _, _ => .stuck
  | fuel + 1, c, cap, s =>
    if c.length = 0 then .ok (c, s)
    else do
      let (t, l, c) ← grabCdpTlv m c
      if t = 1 then
        if c.length ≥ l then do
          let h ← tlvValueStr m c.pos l s.peer.hostname
          let c ← skip l c
          fdpLoop m fuel c cap { s with peer := { s.peer with hostname := h } }
        else .fail
      else if t = 3 then
        if c.length ≥ l then do
          let h ← tlvValueStr m c.pos l s.peer.portname
          let c ← skip l c
          fdpLoop m fuel c cap { s with peer := { s.peer with portname := h } }
        else .fail
      else if t = 4 then do
        let (v, c) ← grabBytes m l c
        let cap := cap ||| fdpCapBits v
        fdpLoop m fuel c cap { s with peer := { s.peer with cap := peerStr s.peer.cap (tlvStrCap cap) } }
      else do
        let c ← skip l c
        fdpLoop m fuel c cap s

/-- `fdp_decode`, /repo/src/proto/fdp.c lines 220-307. -/
def fdpDecode (m : Bytes) (len : Nat) (s : Msg) : Res (Msg × Nat) := do
  let p ← assertCheck (fdpCheck m len)
  let length := subSize len p
  if length < 4 then .fail
  else do
    let h ← rd m p 4
    if beNat (h.take 1) ≠ 1 then .fail
    else do
      let s := { s with ttl := beNat ((h.drop 1).take 1) }
      let (c, s) ← fdpLoop m (length + 1) ⟨p + 4, length - 4⟩ 0 s
      pure (s, c.pos)

/-- `ndp_decode`, /repo/src/proto/ndp.c lines 111-142. -/
def ndpDecode (m : Bytes) (len : Nat) (s : Msg) : Res (Msg × Nat) := do
  let p ← assertCheck (ndpCheck m len)
  let length := subSize len p
  if length < 11 then .fail
  else
    pure ({ s with ttl := LADVD_TTL }, p + 11)

/-! ## The protocol table -/

/-- The entries of `protos[]`, /repo/src/main.h lines 24-38, in table order; `cdp1` is the second CDP
entry (index 5, /repo/src/proto/protos.h). -/
inductive Proto where
  | lldp | cdp | edp | fdp | ndp | cdp1
  deriving Repr, DecidableEq

/-- `PROTO_*` numbers, /repo/src/proto/protos.h. -/
def Proto.num : Proto → Nat
  | .lldp => 0 | .cdp => 1 | .edp => 2 | .fdp => 3 | .ndp => 4 | .cdp1 => 5

/-- `protos[n]`, /repo/src/main.h lines 24-38. -/
def Proto.ofNum : Nat → Option Proto
  | 0 => some .lldp | 1 => some .cdp | 2 => some .edp | 3 => some .fdp | 4 => some .ndp
  | 5 => some .cdp1 | _ => none

/-- `protos[p].dst_addr`, /repo/src/main.h lines 24-38. -/
def Proto.dst : Proto → Bytes
  | .lldp => LLDP_DST | .cdp => CDP_DST | .edp => EDP_DST | .fdp => FDP_DST | .ndp => NDP_DST
  | .cdp1 => CDP_DST

/-- `protos[p].check`, /repo/src/main.h lines 24-38. -/
def Proto.check : Proto → Bytes → Nat → Res Nat
  | .lldp => lldpCheck | .cdp => cdpCheck | .edp => edpCheck | .fdp => fdpCheck | .ndp => ndpCheck
  | .cdp1 => cdpCheck

/-- `protos[p].decode`, /repo/src/main.h lines 24-38. -/
def Proto.decode (print : Bool) : Proto → Bytes → Nat → Msg → Res (Msg × Nat)
  | .lldp => lldpDecode print | .cdp => cdpDecode print | .edp => edpDecode | .fdp => fdpDecode
  | .ndp => ndpDecode | .cdp1 => cdpDecode print

end Ladvd
