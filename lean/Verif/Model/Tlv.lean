import Verif.Model.Vis
/-!
# The TLV macros of /repo/src/proto/tlv.h and the helpers of /repo/src/proto/tlv.c
-/

namespace Ladvd

/-! ## Reading -/

/-- The local variables `pos` (as an offset into the frame) and `length` of every decoder. -/
structure Cur where
  pos : Nat
  length : Nat
  deriving Repr, DecidableEq

/-- `SKIP(b)`, /repo/src/proto/tlv.h lines 106-112. -/
def skip (n : Nat) (c : Cur) : Res Cur :=
  if c.length ≥ n then .ok ⟨c.pos + n, c.length - n⟩ else .fail

/-- `GRAB_BYTES(d, b)`, /repo/src/proto/tlv.h lines 78-86 (also the `memcpy` half of
`GRAB_STRING`, lines 87-96). -/
def grabBytes (m : Bytes) (n : Nat) (c : Cur) : Res (Bytes × Cur) :=
  if c.length ≥ n then do
    let b ← rd m c.pos n
    pure (b, ⟨c.pos + n, c.length - n⟩)
  else .fail

/-- `GRAB_UINT8`, `GRAB_UINT16`, `GRAB_UINT32`, /repo/src/proto/tlv.h lines 66-77: an `n` byte big
endian integer. -/
def grab (m : Bytes) (n : Nat) (c : Cur) : Res (Nat × Cur) :=
  if c.length ≥ n then do
    let b ← rd m c.pos n
    pure (beNat b, ⟨c.pos + n, c.length - n⟩)
  else .fail

/-- 16-bit subtraction, as in `l -= 2 * sizeof(uint16_t)` on a `uint16_t`. -/
def sub16 (a b : Nat) : Nat := (a + 65536 - b) % 65536

/-- `GRAB_CDP_TLV(t, l)` and the identical `GRAB_FDP_TLV`, /repo/src/proto/tlv.h lines 124-128 and
176-180. -/
def grabCdpTlv (m : Bytes) (c : Cur) : Res (Nat × Nat × Cur) := do
  let (t, c) ← grab m 2 c
  let (l, c) ← grab m 2 c
  pure (t, sub16 l 4, c)

/-- `GRAB_LLDP_TLV(t, l)`, /repo/src/proto/tlv.h lines 141-147.  As in the C code the two bytes are
loaded *before* `SKIP(2)` checks that they are there. -/
def grabLldpTlv (m : Bytes) (c : Cur) : Res (Nat × Nat × Cur) := do
  let b ← rd m c.pos 2
  let c ← skip 2 c
  pure (beNat b / 512, beNat b % 512, c)

/-- `GRAB_EDP_TLV(t, l)`, /repo/src/proto/tlv.h lines 160-164; the marker byte is not looked at. -/
def grabEdpTlv (m : Bytes) (c : Cur) : Res (Nat × Nat × Cur) := do
  let c ← skip 1 c
  let (t, c) ← grab m 1 c
  let (l, c) ← grab m 2 c
  pure (t, sub16 l 4, c)

/-! ## Peer data -/

/-- `msg->peer[PEER_MAX]`, /repo/src/common.h lines 257-266 and 289.  Text entries hold the C string.
Simplification: the three address entries hold the raw address bytes instead of the text that libc's
`inet_ntop`/`asprintf("%02x:...")` makes of them. -/
structure Peer where
  hostname : Option Bytes := none
  portname : Option Bytes := none
  portdescr : Option Bytes := none
  cap : Option Bytes := none
  inet4 : Option Bytes := none
  inet6 : Option Bytes := none
  mac : Option Bytes := none
  vlan : Option Bytes := none
  deriving Repr, DecidableEq

/-- `PEER_STR(x, y)`: keep the first value, /repo/src/common.h line 266. -/
def peerStr (x : Option Bytes) (y : Bytes) : Option Bytes :=
  match x with
  | some v => some v
  | none => some y

/-- The fields of `struct parent_msg` that decoding can change (/repo/src/common.h lines 279-295), plus
the peer-controlled texts printed in `DECODE_PRINT` mode, in order.  Simplification: of the `printf` calls
only the peer-derived text is recorded, not the fixed label. -/
structure Msg where
  proto : Nat := 0
  ttl : Nat := 0
  peer : Peer := {}
  out : List Bytes := []
  deriving Repr, DecidableEq

/-- Length limit of the temporary buffer, `TLV_LEN - 1`, /repo/src/proto/tlv.h line 35. -/
def TLV_STR_MAX : Nat := 511

/-- `tlv_str_copy`, /repo/src/proto/tlv.c lines 92-103, on the bytes `v` found at `pos`. -/
def tlvStrCopyVal (v : Bytes) : Bytes :=
  let s := v.take TLV_STR_MAX
  (strnvis COPY_FLAGS (cstr s) (s.length * 4 + 1)).1

/-- `tlv_str_copy(pos, length)` including its load, /repo/src/proto/tlv.c lines 92-103. -/
def tlvStrCopy (m : Bytes) (pos length : Nat) : Res Bytes := do
  let v ← rd m pos (min length TLV_STR_MAX)
  pure (tlvStrCopyVal v)

/-- The hostname/portname cases of `tlv_value_str`, /repo/src/proto/tlv.c lines 41-49, on the loaded bytes. -/
def tlvValueStrVal (v : Bytes) : Bytes :=
  let s := v.take TLV_STR_MAX
  (strnvis VALUE_FLAGS (cstr s) (s.length * 4 + 1)).1

/-- The hostname/portname cases of `tlv_value_str`, /repo/src/proto/tlv.c lines 28-49 and 88-89: nothing
is loaded when the peer entry is already set. -/
def tlvValueStr (m : Bytes) (pos length : Nat) (cur : Option Bytes) : Res (Option Bytes) :=
  match cur with
  | some v => .ok (some v)
  | none => do
    let v ← rd m pos (min length TLV_STR_MAX)
    pure (some (tlvValueStrVal v))

/-- `CAP_STRING`, /repo/src/common.h line 203. -/
def CAP_STRING : Bytes := lit "rBHRSWCTO"

/-- `tlv_str_cap(cap)`, /repo/src/proto/tlv.c lines 105-116 (and the `PEER_CAP` case of `tlv_value_str`,
lines 50-57): the letters of the bits that are set. -/
def tlvStrCap (cap : Nat) : Bytes :=
  (List.range 9).flatMap (fun i => if cap.testBit i then (CAP_STRING.drop i).take 1 else [])

/-- Address families as `PEER_ADDR_*` codes, /repo/src/common.h lines 261-263. -/
def PEER_ADDR_INET4 : Nat := 4
@[inherit_doc PEER_ADDR_INET4] def PEER_ADDR_INET6 : Nat := 5
@[inherit_doc PEER_ADDR_INET4] def PEER_ADDR_802 : Nat := 6

/-- `tlv_str_addr(type, pos, length)`, /repo/src/proto/tlv.c lines 118-155; `fail` is the NULL result.
Simplification: returns the raw address bytes (see `Peer`); `inet_ntop` and `asprintf` succeed. -/
def tlvStrAddr (type : Nat) (m : Bytes) (pos length : Nat) : Res Bytes :=
  if type = PEER_ADDR_INET4 then
    if length ≠ 4 then .fail else rd m pos 4
  else if type = PEER_ADDR_INET6 then
    if length ≠ 16 then .fail else rd m pos 16
  else if type = PEER_ADDR_802 then
    if length ≠ 6 then .fail else rd m pos 6
  else .fail

/-- `msg->peer[af]` for an address family code, used by `cdp_addr` and `lldp_mgmt_addr`. -/
def Peer.addr (p : Peer) (af : Nat) : Option Bytes :=
  if af = PEER_ADDR_INET4 then p.inet4
  else if af = PEER_ADDR_INET6 then p.inet6
  else if af = PEER_ADDR_802 then p.mac
  else none

/-- `PEER_STR(msg->peer[af], str)` for an address family code. -/
def Peer.setAddr (p : Peer) (af : Nat) (v : Bytes) : Peer :=
  if af = PEER_ADDR_INET4 then { p with inet4 := peerStr p.inet4 v }
  else if af = PEER_ADDR_INET6 then { p with inet6 := peerStr p.inet6 v }
  else if af = PEER_ADDR_802 then { p with mac := peerStr p.mac v }
  else p

/-- Decimal digits of a number, least significant digit last (`%" PRIu16 "`).  `fuel` bounds the number of
digits. -/
def decimalAux : Nat → Nat → Bytes → Bytes
  | 0, _, acc => acc
  | fuel + 1, n, acc =>
    let acc := UInt8.ofNat (48 + n % 10) :: acc
    if n / 10 = 0 then acc else decimalAux fuel (n / 10) acc

/-- `asprintf(&str, "%" PRIu16, n)`, e.g. /repo/src/proto/cdp.c line 670. -/
def decimal16 (n : Nat) : Bytes := decimalAux 5 n []

/-! ## Writing -/

/-- The local variables of the packet builders: the frame buffer, `pos` (as an offset into it)
and the remaining `length`. -/
structure W where
  mem : Bytes
  pos : Nat
  length : Nat
  deriving Repr, DecidableEq

/-- `PUSH_BYTES(value, bytes)` and the integer `PUSH` macros, /repo/src/proto/tlv.h lines 45-64. -/
def push (v : Bytes) (w : W) : Res W :=
  if w.length ≥ v.length then do
    let mem ← wr w.mem w.pos v
    pure ⟨mem, w.pos + v.length, w.length - v.length⟩
  else .fail

/-- `PUSH_UINT8`, /repo/src/proto/tlv.h line 54. -/
def push8 (n : Nat) : W → Res W := push [UInt8.ofNat n]
/-- `PUSH_UINT16`, /repo/src/proto/tlv.h line 55. -/
def push16 (n : Nat) : W → Res W := push (be16 n)
/-- `PUSH_UINT32`, /repo/src/proto/tlv.h line 56. -/
def push32 (n : Nat) : W → Res W := push (be32 n)

/-- Sequencing of PUSH macros with `&&`. -/
def seqW (f g : W → Res W) : W → Res W := fun w => f w >>= g

@[inherit_doc] infixr:55 " ⋙ " => seqW

/-- Nothing to push. -/
def nopW : W → Res W := fun w => .ok w

/-- `if (cond) { ... }` around pushes. -/
def whenW (b : Bool) (f : W → Res W) : W → Res W := if b then f else nopW

/-- `START_CDP_TLV(t)`, the pushes in `body`, `END_CDP_TLV`; also the identical FDP macros.
/repo/src/proto/tlv.h lines 114-123 and 166-175. -/
def cdpTlvW (t : Nat) (body : W → Res W) : W → Res W := fun w => do
  let w1 ← (push16 t ⋙ push16 0 ⋙ body) w
  let mem ← wr w1.mem (w.pos + 2) (be16 (w1.pos - w.pos))
  pure { w1 with mem := mem }

/-- `START_LLDP_TLV(t)`, the pushes in `body`, `END_LLDP_TLV`: the length is or-ed into the low nine bits.
/repo/src/proto/tlv.h lines 130-140. -/
def lldpTlvW (t : Nat) (body : W → Res W) : W → Res W := fun w => do
  let w1 ← (push16 (t * 512) ⋙ body) w
  let b ← rd w1.mem w.pos 2
  let mem ← wr w1.mem w.pos (be16 (beNat b ||| ((w1.pos - (w.pos + 2)) % 512)))
  pure { w1 with mem := mem }

/-- `START_EDP_TLV(t)`, the pushes in `body`, `END_EDP_TLV`.
/repo/src/proto/tlv.h lines 149-159. -/
def edpTlvW (t : Nat) (body : W → Res W) : W → Res W := fun w => do
  let w1 ← (push8 0x99 ⋙ push8 t ⋙ push16 0 ⋙ body) w
  let mem ← wr w1.mem (w.pos + 2) (be16 (w1.pos - w.pos))
  pure { w1 with mem := mem }

end Ladvd
