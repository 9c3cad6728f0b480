import Verif.Model.Cli
/-!
# The full report of `ladvdc -f`

The decoders of /repo/src/proto/lldp.c and cdp.c in `DECODE_PRINT` mode with everything they write to the standard output, and the loop
of /repo/src/cli.c in `MODE_PRINT`.  `Decode.lean` models the same functions for both modes but only records the peer's texts; here the
output is modelled byte for byte, including what a decoder wrote before it rejected the frame.
-/

namespace Ladvd

/-! ## Writing to the standard output -/

/-- A piece of code that writes to the standard output: what it wrote and how it ended.  What was written before an error exit stays
written. -/
structure Pr (α : Type) where
  text : Bytes
  res : Res α
  deriving Repr, DecidableEq

namespace Pr

/-- Sequencing of C statements: the texts follow each other, an outcome other than normal completion ends the code. -/
@[inline] def bind {α β : Type} (x : Pr α) (f : α → Pr β) : Pr β :=
  match x.res with
  | .ok a => ⟨x.text ++ (f a).text, (f a).res⟩
  | .fail => ⟨x.text, .fail⟩
  | .oob => ⟨x.text, .oob⟩
  | .abort => ⟨x.text, .abort⟩
  | .stuck => ⟨x.text, .stuck⟩

instance : Monad Pr where
  pure a := ⟨[], .ok a⟩
  bind := bind

end Pr

/-- Code that writes nothing. -/
def quiet {α : Type} (r : Res α) : Pr α := ⟨[], r⟩

/-- `printf` of a text. -/
def printf (t : Bytes) : Pr Unit := ⟨t, .ok ()⟩

/-- What the printing code reads besides the frame: the results of `time(NULL)`, the members `received` and `name` of `struct parent_msg`, and
libc's `inet_ntop(AF_INET6, ...)`.  Simplification: `time(NULL)` does not fail. -/
structure PrintEnv where
  clock : Int
  received : Int
  name : Bytes
  ntop6 : Bytes → Bytes

/-- `holdtime = msg->ttl - (now - msg->received)`, an `uint16_t`, and its `PRIu16` notation: /repo/src/proto/lldp.c lines 746-753 and cdp.c
lines 450-476. -/
def holdText (env : PrintEnv) (ttl : Nat) : Bytes :=
  decimal16 (((ttl : Int) - (env.clock - env.received)) % 65536).toNat

/-- `tlv_str_addr(type, pos, length)`, /repo/src/proto/tlv.c lines 118-155, with the text it returns; `none` is NULL.  Simplification:
`inet_ntop` and `asprintf` succeed. -/
def tlvAddrText (env : PrintEnv) (type : Nat) (m : Bytes) (pos length : Nat) : Res (Option Bytes) :=
  if type = PEER_ADDR_INET4 then
    if length ≠ 4 then .ok none
    else do
      let a ← rd m pos 4
      pure (some (inet4Text a))
  else if type = PEER_ADDR_INET6 then
    if length ≠ 16 then .ok none
    else do
      let a ← rd m pos 16
      pure (some (env.ntop6 a))
  else if type = PEER_ADDR_802 then
    if length ≠ 6 then .ok none
    else do
      let a ← rd m pos 6
      pure (some (macText a))
  else .ok none

/-- `while ((token_str = strsep(&str, "\n")) != NULL) printf("  %s\n", token_str)`, /repo/src/proto/lldp.c lines 733-734 and cdp.c lines
540-541.  `cur` is the piece read so far. -/
def indented (cur : Bytes) : Bytes → Bytes
  | [] => lit "  " ++ cur ++ lit "\n"
  | b :: r => if b = 0x0a then lit "  " ++ cur ++ lit "\n" ++ indented [] r else indented (cur ++ [b]) r

/-- The printing half of `lldp_descr_print` and `cdp_descr_print`, /repo/src/proto/lldp.c lines 731-737 and cdp.c lines 538-544. -/
def descrLines (label str : Bytes) : Bytes :=
  if str.contains 0x0a then label ++ lit ":\n" ++ indented [] str
  else label ++ lit ": " ++ str ++ lit "\n"

/-! ## LLDP -/

/-- `lldp_chassis_id`, /repo/src/proto/lldp.c lines 593-639. -/
def lldpChassisIdP (env : PrintEnv) (m : Bytes) (c : Cur) : Pr Unit :=
  if c.length ≤ 1 ∨ c.length > 256 then quiet .fail
  else do
    let (sub, c) ← quiet (grab m 1 c)
    let str ←
      if sub = 1 ∨ sub = 2 ∨ sub = 3 ∨ sub = 6 ∨ sub = 7 then do
        let str ← quiet (tlvStrCopy m c.pos c.length)
        pure (some str)
      else if sub = 4 then quiet (tlvAddrText env PEER_ADDR_802 m c.pos c.length)
      else if sub = 5 then do
        let (af, c) ← quiet (grab m 1 c)
        quiet (tlvAddrText env af m c.pos c.length)
      else pure none
    match str with
    | some str => printf (lit "Chassis id: " ++ str ++ lit "\n")
    | none => pure ()

/-- `lldp_port_id`, /repo/src/proto/lldp.c lines 641-683.  `printf("%s")` of a NULL pointer (line 675, malformed MAC address) is undefined
behaviour, the outcome `oob`. -/
def lldpPortIdP (env : PrintEnv) (m : Bytes) (c : Cur) : Pr Unit :=
  if c.length ≤ 1 ∨ c.length > 256 then quiet .fail
  else do
    let (sub, c) ← quiet (grab m 1 c)
    if sub = 1 ∨ sub = 2 ∨ sub = 5 ∨ sub = 6 ∨ sub = 7 then do
      let str ← quiet (tlvStrCopy m c.pos c.length)
      printf (lit "Port id: " ++ str ++ lit "\n")
    else if sub = 3 then do
      let str ← quiet (tlvAddrText env PEER_ADDR_802 m c.pos c.length)
      match str with
      | some str => printf (lit "Port id: " ++ str ++ lit "\n")
      | none => quiet .oob
    else pure ()

/-- `lldp_system_name`, /repo/src/proto/lldp.c lines 685-709. -/
def lldpSystemNameP (m : Bytes) (c : Cur) (s : Msg) : Pr Msg :=
  if c.length > 255 then quiet .fail
  else if s.peer.hostname.isSome then quiet .fail
  else do
    let str ← quiet (tlvStrCopy m c.pos c.length)
    printf (lit "System Name: " ++ str ++ lit "\n")
    pure { s with peer := { s.peer with hostname := peerStr s.peer.hostname str } }

/-- The entries of `lldp_tlv_types[]` that `lldp_descr_print` is called for, /repo/src/proto/lldp.c lines 30-42 and 718-728. -/
def lldpDescrLabel (t : Nat) : Bytes :=
  if t = 4 then lit "Port Description"
  else if t = 6 then lit "System Description"
  else lit "Unknown"

/-- `lldp_descr_print`, /repo/src/proto/lldp.c lines 711-741.  The memory of `str` that `strsep` makes unreachable is not modelled. -/
def lldpDescrPrint (t : Nat) (m : Bytes) (c : Cur) : Pr Unit := do
  let str ← quiet (tlvStrCopy m c.pos c.length)
  printf (descrLines (lldpDescrLabel t) str)

/-- `lldp_ttl_print`, /repo/src/proto/lldp.c lines 743-755. -/
def lldpTtlPrint (env : PrintEnv) (ttl : Nat) : Pr Unit :=
  printf (lit "Time remaining: " ++ holdText env ttl ++ lit " seconds\n")

/-- `lldp_system_cap`, /repo/src/proto/lldp.c lines 757-819. -/
def lldpSystemCapP (m : Bytes) (c : Cur) : Pr Unit :=
  if c.length ≠ 4 then quiet .fail
  else do
    let (avail, c) ← quiet (grab m 2 c)
    let (act, _) ← quiet (grab m 2 c)
    if avail ≠ act ||| avail then quiet .fail
    else if avail.testBit 7 ∧ avail ≠ 128 then quiet .fail
    else do
      printf (lit "System Capabilities: " ++ tlvStrCap (lldpCapMap avail) ++ lit "\n")
      printf (lit "Enabled Capabilities: " ++ tlvStrCap (lldpCapMap act) ++ lit "\n")

/-- `lldp_mgmt_addr`, /repo/src/proto/lldp.c lines 821-880. -/
def lldpMgmtAddrP (env : PrintEnv) (m : Bytes) (c : Cur) : Pr Unit := do
  let (aflen, c) ← quiet (grab m 1 c)
  let (afnum, c) ← quiet (grab m 1 c)
  let aflen := (aflen + 256 - 1) % 256
  let (af, astr) := if afnum = 1 then (PEER_ADDR_INET4, lit "IPv4") else if afnum = 2 then (PEER_ADDR_INET6, lit "IPv6")
    else if afnum = 6 then (PEER_ADDR_802, lit "Ethernet") else (0, [])
  if af = 0 then quiet .fail
  else if ¬ (aflen < c.length) then quiet .fail
  else do
    let str ← quiet (tlvAddrText env af m c.pos aflen)
    match str with
    | none => quiet .fail
    | some str => printf (lit "Management Address " ++ astr ++ lit ": " ++ str ++ lit "\n")

/-- `lldp_private_8021`, /repo/src/proto/lldp.c lines 899-929. -/
def lldpPrivate8021P (m : Bytes) (c : Cur) : Pr Unit := do
  let (sub, c) ← quiet (grab m 1 c)
  if sub = 1 then
    if c.length ≠ 2 then quiet .fail
    else do
      let (v, _) ← quiet (grab m 2 c)
      printf (lit "Port VLAN ID: " ++ decimal16 v ++ lit "\n")
  else pure ()

/-- `lldp_private`, /repo/src/proto/lldp.c lines 882-897. -/
def lldpPrivateP (m : Bytes) (c : Cur) : Pr Unit := do
  let (oui, c) ← quiet (grabBytes m 3 c)
  if oui = [0x00, 0x80, 0xc2] then lldpPrivate8021P m c
  else pure ()

/-- The `switch` of `lldp_decode` except for `LLDP_TYPE_END`, /repo/src/proto/lldp.c lines 542-574. -/
def lldpTlvP (env : PrintEnv) (m : Bytes) (t : Nat) (c : Cur) (s : Msg) : Pr Msg :=
  if t = 5 then lldpSystemNameP m c s
  else if t = 4 ∨ t = 6 then do
    lldpDescrPrint t m c
    pure s
  else if t = 7 then do
    lldpSystemCapP m c
    pure s
  else if t = 8 then do
    lldpMgmtAddrP env m c
    pure s
  else if t = 127 then do
    lldpPrivateP m c
    pure s
  else if 8 < t ∧ t < 127 then quiet .fail
  else pure s

/-- The TLV loop of `lldp_decode` up to `out:`, /repo/src/proto/lldp.c lines 524-580. -/
def lldpLoopP (env : PrintEnv) (m : Bytes) : Nat → Nat → Cur → Msg → Pr (Nat × Cur × Msg)
  | 0, _, _, _ => quiet .stuck
  | fuel + 1, t0, c, s =>
    if c.length = 0 then pure (t0, c, s)
    else do
      let (t, l, c) ← quiet (grabLldpTlv m c)
      if c.length < l then quiet .fail
      else if t = 0 then
        if l ≠ 0 then quiet .fail else pure (t, c, s)
      else do
        let s ← lldpTlvP env m t ⟨c.pos, l⟩ s
        let c ← quiet (skip l c)
        lldpLoopP env m fuel t c s

/-- `lldp_decode` in print mode, /repo/src/proto/lldp.c lines 469-590. -/
def lldpDecodeP (env : PrintEnv) (m : Bytes) (len : Nat) (s : Msg) : Pr (Msg × Nat) := do
  let p ← quiet (assertCheck (lldpCheck m len))
  let length := subSize len p
  let (t, l, c) ← quiet (grabLldpTlv m ⟨p, length⟩)
  if t ≠ 1 then quiet .fail
  else if c.length < l then quiet .fail
  else do
    lldpChassisIdP env m ⟨c.pos, l⟩
    let c ← quiet (skip l c)
    let (t, l, c) ← quiet (grabLldpTlv m c)
    if t ≠ 2 then quiet .fail
    else if c.length < l then quiet .fail
    else do
      lldpPortIdP env m ⟨c.pos, l⟩
      let c ← quiet (skip l c)
      let (t, l, c) ← quiet (grabLldpTlv m c)
      if t ≠ 3 then quiet .fail
      else if l ≠ 2 then quiet .fail
      else do
        let (ttl, c) ← quiet (grab m 2 c)
        let s := { s with ttl := ttl }
        lldpTtlPrint env ttl
        let (t, c, s) ← lldpLoopP env m (length + 1) t c s
        if t ≠ 0 then quiet .fail
        else pure (s, c.pos)

/-! ## CDP -/

/-- `cdp_header_check`, /repo/src/proto/cdp.c lines 445-480. -/
def cdpHeaderCheckP (env : PrintEnv) (m : Bytes) (c : Cur) (s : Msg) : Pr Msg :=
  if c.length < 4 then quiet .fail
  else do
    let h ← quiet (rd m c.pos 4)
    let version := beNat (h.take 1)
    let ttl := beNat ((h.drop 1).take 1)
    if version < 1 ∨ version > 2 then quiet .fail
    else do
      printf (lit "CDP Version: " ++ decimal16 version ++ lit "\nHoldtime: " ++ holdText env ttl ++ lit "\n")
      pure { s with proto := (if version = 1 then 5 else 1), ttl := ttl }

/-- `cdp_system_name`, /repo/src/proto/cdp.c lines 482-498. -/
def cdpSystemNameP (m : Bytes) (t : Nat) (c : Cur) : Pr Unit := do
  let str ← quiet (tlvStrCopy m c.pos c.length)
  printf ((if t = 0x01 then lit "Device ID" else lit "System Name") ++ lit ": " ++ str ++ lit "\n")

/-- `cdp_port_id`, /repo/src/proto/cdp.c lines 500-516. -/
def cdpPortIdP (env : PrintEnv) (m : Bytes) (c : Cur) : Pr Unit := do
  let str ← quiet (tlvStrCopy m c.pos c.length)
  printf (lit "Interface: " ++ env.name ++ lit ", Port ID (outgoing port): " ++ str ++ lit "\n")

/-- The entries of `cdp_tlv_types[]` that `cdp_descr_print` is called for, /repo/src/proto/cdp.c lines 35-58 and 525-535. -/
def cdpDescrLabel (t : Nat) : Bytes :=
  if t = 0x05 then lit "Version"
  else if t = 0x06 then lit "Platform"
  else lit "Unknown"

/-- `cdp_descr_print`, /repo/src/proto/cdp.c lines 518-548. -/
def cdpDescrPrint (t : Nat) (m : Bytes) (c : Cur) : Pr Unit := do
  let str ← quiet (tlvStrCopy m c.pos c.length)
  printf (descrLines (cdpDescrLabel t) str)

/-- `cdp_system_cap`, /repo/src/proto/cdp.c lines 550-578. -/
def cdpSystemCapP (m : Bytes) (c : Cur) : Pr Unit :=
  if c.length ≠ 4 then quiet .fail
  else do
    let (cc, _) ← quiet (grab m 4 c)
    printf (lit "Capabilities: " ++ tlvStrCap (cdpCapMap cc) ++ lit "\n")

/-- The body of `cdp_addr` from `next_addr` to before the `goto`, /repo/src/proto/cdp.c lines 596-647. -/
def cdpAddrOneP (env : PrintEnv) (m : Bytes) (c : Cur) : Pr Cur := do
  let (pt, c) ← quiet (grab m 1 c)
  let (pl, c) ← quiet (grab m 1 c)
  if c.length < pl + 2 then quiet .fail
  else do
    let af ← quiet (cdpAf m c.pos pt pl)
    let c ← quiet (skip pl c)
    let (al, c) ← quiet (grab m 2 c)
    if c.length < al then quiet .fail
    else do
      if af ≠ 0 then do
        let str ← quiet (tlvAddrText env af m c.pos al)
        match str with
        | none => quiet .fail
        | some str => printf (lit "  IP" ++ (if af = PEER_ADDR_INET6 then lit "v6" else []) ++ lit " address: " ++ str ++ lit "\n")
      else pure ()
      quiet (skip al c)

/-- The loop of `cdp_addr`, /repo/src/proto/cdp.c lines 596-653, see `cdpAddrLoop`. -/
def cdpAddrLoopP (env : PrintEnv) (m : Bytes) : Nat → Nat → Cur → Pr Unit
  | 0, _, _ => quiet .stuck
  | fuel + 1, count, c => do
    let c ← cdpAddrOneP env m c
    let count := (count + 4294967296 - 1) % 4294967296
    if c.length ≠ 0 ∧ count > 0 then cdpAddrLoopP env m fuel count c
    else pure ()

/-- `cdp_addr`, /repo/src/proto/cdp.c lines 580-654. -/
def cdpAddrP (env : PrintEnv) (m : Bytes) (t : Nat) (c : Cur) : Pr Unit := do
  let (count, c') ← quiet (grab m 4 c)
  printf ((if t = 0x16 then lit "Management" else lit "Entry") ++ lit " address(es):\n")
  cdpAddrLoopP env m (c.length + 1) count c'

/-- `cdp_vlan`, /repo/src/proto/cdp.c lines 656-674. -/
def cdpVlanP (m : Bytes) (c : Cur) : Pr Unit :=
  if c.length ≠ 2 then quiet .fail
  else do
    let (v, _) ← quiet (grab m 2 c)
    printf (lit "Native VLAN: " ++ decimal16 v ++ lit "\n")

/-- `cdp_vtp_print`, /repo/src/proto/cdp.c lines 676-686. -/
def cdpVtpPrint (m : Bytes) (c : Cur) : Pr Unit := do
  let str ← quiet (tlvStrCopy m c.pos c.length)
  printf (lit "VTP Management Domain: '" ++ str ++ lit "'\n")

/-- `cdp_duplex_print`, /repo/src/proto/cdp.c lines 688-701. -/
def cdpDuplexPrintP (m : Bytes) (c : Cur) : Pr Unit :=
  if c.length ≠ 1 then quiet .fail
  else do
    let (d, _) ← quiet (grab m 1 c)
    printf (lit "Duplex: " ++ (if d ≠ 0 then lit "full" else lit "half") ++ lit "\n")

/-- The `switch` of `cdp_decode`, /repo/src/proto/cdp.c lines 387-433. -/
def cdpTlvP (env : PrintEnv) (m : Bytes) (t : Nat) (c : Cur) : Pr Unit :=
  if t = 0x01 ∨ t = 0x14 then cdpSystemNameP m t c
  else if t = 0x03 then cdpPortIdP env m c
  else if t = 0x04 then cdpSystemCapP m c
  else if t = 0x02 ∨ t = 0x16 then cdpAddrP env m t c
  else if t = 0x05 ∨ t = 0x06 then cdpDescrPrint t m c
  else if t = 0x09 then cdpVtpPrint m c
  else if t = 0x0a then cdpVlanP m c
  else if t = 0x0b then cdpDuplexPrintP m c
  else pure ()

/-- The TLV loop of `cdp_decode`, /repo/src/proto/cdp.c lines 376-439. -/
def cdpLoopP (env : PrintEnv) (m : Bytes) : Nat → Cur → Pr Cur
  | 0, _ => quiet .stuck
  | fuel + 1, c =>
    if c.length = 0 then pure c
    else do
      let (t, l, c) ← quiet (grabCdpTlv m c)
      if c.length < l then quiet .fail
      else do
        cdpTlvP env m t ⟨c.pos, l⟩
        let c ← quiet (skip l c)
        cdpLoopP env m fuel c

/-- `cdp_decode` in print mode, /repo/src/proto/cdp.c lines 350-443. -/
def cdpDecodeP (env : PrintEnv) (m : Bytes) (len : Nat) (s : Msg) : Pr (Msg × Nat) := do
  let p ← quiet (assertCheck (cdpCheck m len))
  let length := subSize len p
  let s ← cdpHeaderCheckP env m ⟨p, length⟩ s
  let c ← cdpLoopP env m (length + 1) ⟨p + 4, length - 4⟩
  pure (s, c.pos)

/-! ## The client -/

/-- `protos[p].decode` in print mode, /repo/src/main.h lines 24-38; the decoders of EDP, FDP and NDP (edp.c lines 193-256, fdp.c lines 220-307,
ndp.c lines 111-142) print nothing. -/
def Proto.decodeP (env : PrintEnv) : Proto → Bytes → Nat → Msg → Pr (Msg × Nat)
  | .lldp, m, len, s => lldpDecodeP env m len s
  | .cdp, m, len, s => cdpDecodeP env m len s
  | .cdp1, m, len, s => cdpDecodeP env m len s
  | .edp, m, len, s => quiet (edpDecode m len s)
  | .fdp, m, len, s => quiet (fdpDecode m len s)
  | .ndp, m, len, s => quiet (ndpDecode m len s)

/-- One pass of the loop with `mode == MODE_PRINT`, /repo/src/cli.c lines 176-224, without the empty line behind a message: what is printed,
and the state with whether the message was shown to the end (not skipped, rejected or expired).  `now` was read when the client started,
`clock` is the time while it decodes. -/
def reportMsg (c : CliConf) (ntop6 : Bytes → Bytes) (now clock : Int) (st : CliSt) (e : CliIn) : Pr (CliSt × Bool) :=
  match Proto.ofNum e.proto with
  | none => pure (st, false)
  | some p =>
    if e.len < ETHER_MIN_LEN - 4 ∨ e.len > ETHER_MAX_LEN then pure (st, false)
    else if !cliWants c e.index then pure (st, false)
    else if !c.protos.testBit e.proto then pure (st, false)
    else
      let d := p.decodeP ⟨clock, e.received, e.name, ntop6⟩ (e.msg ++ [2, 0]) e.len.toNat
        { proto := e.proto, ttl := st.ttl, peer := st.peer }
      match d.res with
      | .abort => ⟨d.text, .abort⟩
      | .oob => ⟨d.text, .oob⟩
      | .stuck => ⟨d.text, .stuck⟩
      | .fail => ⟨d.text, .ok ({}, false)⟩
      | .ok (m, n) =>
        if n = 0 then ⟨d.text, .ok ({}, false)⟩
        else if (m.ttl : Int) < now - e.received then ⟨d.text, .ok (⟨m.ttl, m.peer⟩, false)⟩
        else ⟨d.text, .ok ({}, true)⟩

/-- The loop of the client with `mode == MODE_PRINT`, /repo/src/cli.c lines 176-224: an empty line follows every message shown unless `-o` ends
the loop.  The messages come with the time at which they are decoded. -/
def reportLoop (c : CliConf) (ntop6 : Bytes → Bytes) (now : Int) : CliSt → List (Int × CliIn) → Pr Unit
  | _, [] => pure ()
  | st, (clock, e) :: es => do
    let (st, done) ← reportMsg c ntop6 now clock st e
    if done && c.once then pure ()
    else do
      printf (if done then lit "\n" else [])
      reportLoop c ntop6 now st es

end Ladvd
