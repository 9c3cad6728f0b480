import Verif.Model.Child
/-!
# Dynamic memory of the receiving process

The other files treat the texts learned from a neighbour as values.  Here they are what they are in the code: blocks
obtained from `malloc` that the eight pointers `msg->peer[]` of a message refer to, and that somebody has to release.
The decoders of all protocols (in `DECODE_STR` mode, the only one the daemon uses), `peer_free`, `child_queue`,
`child_expire`, `child_free`, `netif_descr` and the client sessions are modelled a second time on that level.

Simplifications: `malloc` succeeds (`my_malloc` ends the process otherwise); addresses are never reused, so that a
stale pointer is recognisable; a block holds the finished text (`malloc` and the code that fills the block are one step);
entries and sessions have their own address space, in which `nextId` counts as in `Verif.Model.Child`.
-/

namespace Ladvd

/-! ## Memory -/

/-- The blocks currently allocated (address and contents) and the next address to be handed out. -/
structure Heap where
  next : Nat := 0
  live : List (Nat × Bytes) := []
  deriving Repr, DecidableEq

/-- Access through a pointer. -/
def Heap.at (h : Heap) (p : Nat) : Option Bytes := h.live.lookup p

/-- `my_malloc`, `asprintf`, `my_strdup`, /repo/src/util.c lines 80-105, with the initialisation of the block. -/
def Heap.malloc (h : Heap) (b : Bytes) : Nat × Heap := (h.next, ⟨h.next + 1, (h.next, b) :: h.live⟩)

/-- `free(p)` of a pointer that is not NULL: releasing what is not allocated is undefined behaviour. -/
def Heap.free (h : Heap) (p : Nat) : Res Heap :=
  match h.at p with
  | none => .oob
  | some _ => .ok { h with live := h.live.filter (fun b => b.1 != p) }

/-- Reading a text through a pointer that is not NULL. -/
def Heap.load (h : Heap) (p : Nat) : Res Bytes :=
  match h.at p with
  | none => .oob
  | some b => .ok b

/-- The part of `struct parent_msg` (/repo/src/common.h lines 279-295) that decoding changes, and the memory.  `peer` are the
eight pointers, `none` is NULL. -/
structure HMsg where
  heap : Heap
  proto : Nat := 0
  ttl : Nat := 0
  peer : List (Option Nat) := List.replicate 8 none
  deriving Repr, DecidableEq

/-- Outcomes as in `Res`; an error exit leaves the memory as it is at that point. -/
inductive HRes (α : Type) where
  | ok (a : α) (s : HMsg)
  | fail (s : HMsg)
  | oob
  | abort
  | stuck
  deriving Repr

/-- Code that uses the message and the memory. -/
def HM (α : Type) : Type := HMsg → HRes α

/-- Sequencing; error exits (`return 0`) skip the rest. -/
def HM.bind {α β : Type} (x : HM α) (f : α → HM β) : HM β := fun s =>
  match x s with
  | .ok a s => f a s
  | .fail s => .fail s
  | .oob => .oob
  | .abort => .abort
  | .stuck => .stuck

instance : Monad HM where
  pure a := fun s => .ok a s
  bind := HM.bind

/-- `return 0`. -/
def hFail {α : Type} : HM α := fun s => .fail s
/-- The iteration budget is exhausted. -/
def hStuck {α : Type} : HM α := fun _ => .stuck

/-- Code without memory effects: the macros of /repo/src/proto/tlv.h lines 66-128 on the local variables `pos` and
`length`. -/
def hLift {α : Type} (r : Res α) : HM α := fun s =>
  match r with
  | .ok a => .ok a s
  | .fail => .fail s
  | .oob => .oob
  | .abort => .abort
  | .stuck => .stuck

/-- Allocation of an initialised block. -/
def hMalloc (b : Bytes) : HM Nat := fun s => .ok (s.heap.malloc b).1 { s with heap := (s.heap.malloc b).2 }

/-- `free` of a pointer that is not NULL. -/
def hFree (p : Nat) : HM Unit := fun s =>
  match s.heap.free p with
  | .ok h => .ok () { s with heap := h }
  | _ => .oob

/-- The pointer `msg->peer[i]`. -/
def hSlot (i : Nat) : HM (Option Nat) := fun s =>
  match s.peer[i]? with
  | none => .oob
  | some o => .ok o s

/-- `msg->peer[i] = p`. -/
def hSet (i : Nat) (p : Nat) : HM Unit := fun s => .ok () { s with peer := s.peer.set i (some p) }

/-- `PEER_STR(msg->peer[i], p)`, /repo/src/common.h line 266: keep the first text, release any further one. -/
def hPeerStr (i p : Nat) : HM Unit := do
  let o ← hSlot i
  match o with
  | some _ => hFree p
  | none => hSet i p

/-! ## Text conversion -/

/-- `tlv_str_copy`, /repo/src/proto/tlv.c lines 92-103. -/
def hStrCopy (m : Bytes) (pos length : Nat) : HM Nat := do
  let v ← hLift (tlvStrCopy m pos length)
  hMalloc v

/-- `tlv_str_addr`, /repo/src/proto/tlv.c lines 118-155.  The NULL result makes both callers in `DECODE_STR` mode fail. -/
def hStrAddr (af : Nat) (m : Bytes) (pos length : Nat) : HM Nat := do
  let v ← hLift (tlvStrAddr af m pos length)
  hMalloc v

/-- The hostname and portname cases of `tlv_value_str`, /repo/src/proto/tlv.c lines 28-49 and 88-89. -/
def hValueStr (i : Nat) (m : Bytes) (pos length : Nat) : HM Unit := do
  let o ← hSlot i
  match o with
  | some _ => pure ()
  | none =>
    let v ← hLift (rd m pos (min length TLV_STR_MAX))
    let p ← hMalloc (tlvValueStrVal v)
    hSet i p

/-- The `PEER_CAP` case of `tlv_value_str`, /repo/src/proto/tlv.c lines 37-38, 50-57 and 88-89. -/
def hValueCap (cap : Nat) : HM Unit := do
  let o ← hSlot 3
  match o with
  | some _ => pure ()
  | none =>
    let p ← hMalloc (tlvStrCap cap)
    hSet 3 p

/-! ## CDP -/

/-- `cdp_header_check`, /repo/src/proto/cdp.c lines 445-480. -/
def hCdpHeader (m : Bytes) (c : Cur) : HM Unit :=
  if c.length < 4 then hFail
  else do
    let h ← hLift (rd m c.pos 4)
    let version := beNat (h.take 1)
    if version < 1 ∨ version > 2 then hFail
    else fun s => .ok () { s with proto := (if version = 1 then 5 else 1), ttl := beNat ((h.drop 1).take 1) }

/-- `cdp_system_name` and `cdp_port_id`, /repo/src/proto/cdp.c lines 482-516; `i` is the peer entry. -/
def hCdpText (i : Nat) (m : Bytes) (c : Cur) : HM Unit := do
  let p ← hStrCopy m c.pos c.length
  hPeerStr i p

/-- `cdp_system_cap`, /repo/src/proto/cdp.c lines 550-578. -/
def hCdpCap (m : Bytes) (c : Cur) : HM Unit :=
  if c.length ≠ 4 then hFail
  else do
    let (cc, _) ← hLift (grab m 4 c)
    let p ← hMalloc (tlvStrCap (cdpCapMap cc))
    hPeerStr 3 p

/-- `cdp_addr` from `next_addr` to before the `goto`, /repo/src/proto/cdp.c lines 596-647. -/
def hCdpAddrOne (m : Bytes) (c : Cur) : HM Cur := do
  let (pt, c) ← hLift (grab m 1 c)
  let (pl, c) ← hLift (grab m 1 c)
  if c.length < pl + 2 then hFail
  else do
    let af ← hLift (cdpAf m c.pos pt pl)
    let c ← hLift (skip pl c)
    let (al, c) ← hLift (grab m 2 c)
    if c.length < al then hFail
    else do
      if af ≠ 0 then do
        let p ← hStrAddr af m c.pos al
        hPeerStr af p
      else pure ()
      hLift (skip al c)

/-- The loop of `cdp_addr`, /repo/src/proto/cdp.c lines 596-653. -/
def hCdpAddrLoop (m : Bytes) : Nat → Nat → Cur → HM Unit
  | 0, _, _ => hStuck
  | fuel + 1, count, c => do
    let c ← hCdpAddrOne m c
    let count := (count + 4294967296 - 1) % 4294967296
    if c.length ≠ 0 ∧ count > 0 then hCdpAddrLoop m fuel count c
    else pure ()

/-- `cdp_addr`, /repo/src/proto/cdp.c lines 580-654. -/
def hCdpAddr (m : Bytes) (c : Cur) : HM Unit := do
  let (count, c') ← hLift (grab m 4 c)
  hCdpAddrLoop m (c.length + 1) count c'

/-- `cdp_vlan`, /repo/src/proto/cdp.c lines 656-674. -/
def hCdpVlan (m : Bytes) (c : Cur) : HM Unit :=
  if c.length ≠ 2 then hFail
  else do
    let (v, _) ← hLift (grab m 2 c)
    let p ← hMalloc (decimal16 v)
    hPeerStr 7 p

/-- The `switch` of `cdp_decode`, /repo/src/proto/cdp.c lines 387-433. -/
def hCdpTlv (m : Bytes) (t : Nat) (c : Cur) : HM Unit :=
  if t = 0x01 ∨ t = 0x14 then hCdpText 0 m c
  else if t = 0x03 then hCdpText 1 m c
  else if t = 0x04 then hCdpCap m c
  else if t = 0x02 ∨ t = 0x16 then hCdpAddr m c
  else if t = 0x0a then hCdpVlan m c
  else pure ()

/-- The TLV loop of `cdp_decode`, /repo/src/proto/cdp.c lines 376-439. -/
def hCdpLoop (m : Bytes) : Nat → Cur → HM Cur
  | 0, _ => hStuck
  | fuel + 1, c =>
    if c.length = 0 then pure c
    else do
      let (t, l, c) ← hLift (grabCdpTlv m c)
      if c.length < l then hFail
      else do
        hCdpTlv m t ⟨c.pos, l⟩
        let c ← hLift (skip l c)
        hCdpLoop m fuel c

/-- `cdp_decode`, /repo/src/proto/cdp.c lines 350-443. -/
def hCdpDecode (m : Bytes) (len : Nat) : HM Nat := do
  let p ← hLift (assertCheck (cdpCheck m len))
  let length := subSize len p
  hCdpHeader m ⟨p, length⟩
  let c ← hCdpLoop m (length + 1) ⟨p + 4, length - 4⟩
  pure c.pos

/-! ## LLDP -/

/-- `lldp_chassis_id`, /repo/src/proto/lldp.c lines 593-639, in `DECODE_STR` mode. -/
def hLldpChassis (c : Cur) : HM Unit :=
  if c.length ≤ 1 ∨ c.length > 256 then hFail else pure ()

/-- `lldp_port_id`, /repo/src/proto/lldp.c lines 641-683. -/
def hLldpPort (m : Bytes) (c : Cur) : HM Unit :=
  if c.length ≤ 1 ∨ c.length > 256 then hFail
  else do
    let (sub, c) ← hLift (grab m 1 c)
    if sub = 1 ∨ sub = 2 ∨ sub = 5 ∨ sub = 6 ∨ sub = 7 then do
      let p ← hStrCopy m c.pos c.length
      hPeerStr 1 p
    else pure ()

/-- `lldp_system_name`, /repo/src/proto/lldp.c lines 685-709. -/
def hLldpName (m : Bytes) (c : Cur) : HM Unit :=
  if c.length > 255 then hFail
  else do
    let o ← hSlot 0
    match o with
    | some _ => hFail
    | none =>
      let p ← hStrCopy m c.pos c.length
      hPeerStr 0 p

/-- `lldp_system_cap`, /repo/src/proto/lldp.c lines 757-819. -/
def hLldpCap (m : Bytes) (c : Cur) : HM Unit :=
  if c.length ≠ 4 then hFail
  else do
    let (avail, c) ← hLift (grab m 2 c)
    let (act, _) ← hLift (grab m 2 c)
    if avail ≠ act ||| avail then hFail
    else if avail.testBit 7 ∧ avail ≠ 128 then hFail
    else do
      let p ← hMalloc (tlvStrCap (lldpCapMap act))
      hPeerStr 3 p

/-- `lldp_mgmt_addr`, /repo/src/proto/lldp.c lines 821-880. -/
def hLldpMgmt (m : Bytes) (c : Cur) : HM Unit := do
  let (aflen, c) ← hLift (grab m 1 c)
  let (afnum, c) ← hLift (grab m 1 c)
  let aflen := (aflen + 256 - 1) % 256
  let af := if afnum = 1 then PEER_ADDR_INET4 else if afnum = 2 then PEER_ADDR_INET6
    else if afnum = 6 then PEER_ADDR_802 else 0
  if af = 0 then hFail
  else if ¬ (aflen < c.length) then hFail
  else do
    let o ← hSlot af
    match o with
    | some _ => pure ()
    | none =>
      let p ← hStrAddr af m c.pos aflen
      hPeerStr af p

/-- `lldp_private_8021`, /repo/src/proto/lldp.c lines 899-929. -/
def hLldpPrivate8021 (m : Bytes) (c : Cur) : HM Unit := do
  let (sub, c) ← hLift (grab m 1 c)
  if sub = 1 then
    if c.length ≠ 2 then hFail
    else do
      let (v, _) ← hLift (grab m 2 c)
      let p ← hMalloc (decimal16 v)
      hPeerStr 7 p
  else pure ()

/-- `ret = f(); free(p); return ret;`, /repo/src/proto/lldp.c lines 892-896. -/
def hThenFree (p : Nat) (x : HM Unit) : HM Unit := fun s =>
  match x s with
  | .ok _ s => hFree p s
  | .fail s =>
    match hFree p s with
    | .ok _ s => .fail s
    | r => r
  | r => r

/-- `lldp_private`, /repo/src/proto/lldp.c lines 882-897: `GRAB_BYTES` allocates. -/
def hLldpPrivate (m : Bytes) (c : Cur) : HM Unit := do
  let (v, c) ← hLift (grabBytes m 3 c)
  let oui ← hMalloc v
  hThenFree oui (if v = [0x00, 0x80, 0xc2] then hLldpPrivate8021 m c else pure ())

/-- The `PORT_DESCR` case of `lldp_decode`, /repo/src/proto/lldp.c lines 546-549. -/
def hLldpDescr (m : Bytes) (c : Cur) : HM Unit := do
  let p ← hStrCopy m c.pos c.length
  hPeerStr 2 p

/-- The `switch` of `lldp_decode` except for `LLDP_TYPE_END`, /repo/src/proto/lldp.c lines 542-574. -/
def hLldpTlv (m : Bytes) (t : Nat) (c : Cur) : HM Unit :=
  if t = 5 then hLldpName m c
  else if t = 4 then hLldpDescr m c
  else if t = 6 then pure ()
  else if t = 7 then hLldpCap m c
  else if t = 8 then hLldpMgmt m c
  else if t = 127 then hLldpPrivate m c
  else if 8 < t ∧ t < 127 then hFail
  else pure ()

/-- The TLV loop of `lldp_decode`, /repo/src/proto/lldp.c lines 524-580. -/
def hLldpLoop (m : Bytes) : Nat → Nat → Cur → HM (Nat × Cur)
  | 0, _, _ => hStuck
  | fuel + 1, t0, c =>
    if c.length = 0 then pure (t0, c)
    else do
      let (t, l, c) ← hLift (grabLldpTlv m c)
      if c.length < l then hFail
      else if t = 0 then
        if l ≠ 0 then hFail else pure (t, c)
      else do
        hLldpTlv m t ⟨c.pos, l⟩
        let c ← hLift (skip l c)
        hLldpLoop m fuel t c

/-- `msg->ttl = ...`. -/
def hTtl (ttl : Nat) : HM Unit := fun s => .ok () { s with ttl := ttl }

/-- `lldp_decode`, /repo/src/proto/lldp.c lines 469-590. -/
def hLldpDecode (m : Bytes) (len : Nat) : HM Nat := do
  let p ← hLift (assertCheck (lldpCheck m len))
  let length := subSize len p
  let (t, l, c) ← hLift (grabLldpTlv m ⟨p, length⟩)
  if t ≠ 1 then hFail
  else if c.length < l then hFail
  else do
    hLldpChassis ⟨c.pos, l⟩
    let c ← hLift (skip l c)
    let (t, l, c) ← hLift (grabLldpTlv m c)
    if t ≠ 2 then hFail
    else if c.length < l then hFail
    else do
      hLldpPort m ⟨c.pos, l⟩
      let c ← hLift (skip l c)
      let (t, l, c) ← hLift (grabLldpTlv m c)
      if t ≠ 3 then hFail
      else if l ≠ 2 then hFail
      else do
        let (ttl, c) ← hLift (grab m 2 c)
        hTtl ttl
        let (t, c) ← hLldpLoop m (length + 1) t c
        if t ≠ 0 then hFail
        else pure c.pos

/-! ## EDP, FDP, NDP -/

/-- The TLV loop of `edp_decode`, /repo/src/proto/edp.c lines 230-252. -/
def hEdpLoop (m : Bytes) : Nat → Cur → HM Cur
  | 0, _ => hStuck
  | fuel + 1, c =>
    if c.length = 0 then pure c
    else do
      let (t, l, c) ← hLift (grabEdpTlv m c)
      if t = 1 then
        if c.length ≥ l then do
          hValueStr 0 m c.pos l
          let c ← hLift (skip l c)
          hEdpLoop m fuel c
        else hFail
      else do
        let c ← hLift (skip l c)
        hEdpLoop m fuel c

/-- `edp_decode`, /repo/src/proto/edp.c lines 193-256. -/
def hEdpDecode (m : Bytes) (len : Nat) : HM Nat := do
  let p ← hLift (assertCheck (edpCheck m len))
  let length := subSize len p
  if length < 16 then hFail
  else do
    let h ← hLift (rd m p 16)
    if beNat (h.take 1) ≠ 1 then hFail
    else do
      hTtl LADVD_TTL
      let c ← hEdpLoop m (length + 1) ⟨p + 16, length - 16⟩
      pure c.pos

/-- The TLV loop of `fdp_decode`, /repo/src/proto/fdp.c lines 259-303: `GRAB_STRING` allocates. -/
def hFdpLoop (m : Bytes) : Nat → Cur → Nat → HM Cur
  | 0, _, _ => hStuck
  | fuel + 1, c, cap =>
    if c.length = 0 then pure c
    else do
      let (t, l, c) ← hLift (grabCdpTlv m c)
      if t = 1 then
        if c.length ≥ l then do
          hValueStr 0 m c.pos l
          let c ← hLift (skip l c)
          hFdpLoop m fuel c cap
        else hFail
      else if t = 3 then
        if c.length ≥ l then do
          hValueStr 1 m c.pos l
          let c ← hLift (skip l c)
          hFdpLoop m fuel c cap
        else hFail
      else if t = 4 then do
        let (v, c) ← hLift (grabBytes m l c)
        let str ← hMalloc v
        let cap := cap ||| fdpCapBits v
        hValueCap cap
        hFree str
        hFdpLoop m fuel c cap
      else do
        let c ← hLift (skip l c)
        hFdpLoop m fuel c cap

/-- `fdp_decode`, /repo/src/proto/fdp.c lines 220-307. -/
def hFdpDecode (m : Bytes) (len : Nat) : HM Nat := do
  let p ← hLift (assertCheck (fdpCheck m len))
  let length := subSize len p
  if length < 4 then hFail
  else do
    let h ← hLift (rd m p 4)
    if beNat (h.take 1) ≠ 1 then hFail
    else do
      hTtl (beNat ((h.drop 1).take 1))
      let c ← hFdpLoop m (length + 1) ⟨p + 4, length - 4⟩ 0
      pure c.pos

/-- `ndp_decode`, /repo/src/proto/ndp.c lines 111-142. -/
def hNdpDecode (m : Bytes) (len : Nat) : HM Nat := do
  let p ← hLift (assertCheck (ndpCheck m len))
  let length := subSize len p
  if length < 11 then hFail
  else do
    hTtl LADVD_TTL
    pure (p + 11)

/-- `protos[p].decode`, /repo/src/main.h lines 24-38. -/
def Proto.hDecode : Proto → Bytes → Nat → HM Nat
  | .lldp => hLldpDecode | .cdp => hCdpDecode | .edp => hEdpDecode | .fdp => hFdpDecode
  | .ndp => hNdpDecode | .cdp1 => hCdpDecode

/-! ## The table -/

/-- `peer_free`, /repo/src/common.h lines 268-277. -/
def peerFree (h : Heap) : List (Option Nat) → Res Heap
  | [] => .ok h
  | none :: ps => peerFree h ps
  | some p :: ps => (h.free p).bind (fun h => peerFree h ps)

/-- An entry of the table: `e` are the fields of `struct parent_msg` (without the peer data), `peer` the pointers. -/
structure HEntry where
  e : Entry
  peer : List (Option Nat)
  deriving Repr, DecidableEq

/-- The state of the process, as `Child`, with its memory: `heap` holds the texts, `objs` are the addresses of the entries
and sessions that are allocated. -/
structure HChild where
  netifs : List Netif := []
  queue : List HEntry := []
  sessions : List Session := []
  nextId : Nat := 0
  heap : Heap := {}
  objs : List Nat := []
  out : List (Nat × Bytes) := []
  sent : List (Nat × Entry) := []
  deriving Repr, DecidableEq

/-- `free` of an entry or a session. -/
def objFree (objs : List Nat) (id : Nat) : Res (List Nat) :=
  if id ∈ objs then .ok (objs.filter (· != id)) else .oob

/-- Reading `msg->peer[i]`. -/
def loadSlot (h : Heap) (ps : List (Option Nat)) (i : Nat) : Res (Option Bytes) :=
  match ps[i]? with
  | none => .oob
  | some none => .ok none
  | some (some p) => (h.load p).bind (fun b => .ok (some b))

/-- The local variables of the loop in `netif_descr`, /repo/src/util.c lines 375-381: pointers to copies. -/
structure HDescr where
  peer : Option Nat := none
  suffix : Option Nat := none
  paddr : Bytes := [0, 0, 0, 0, 0, 0]
  peers : Nat := 0
  deriving Repr, DecidableEq

/-- `if (!dst && src) dst = my_strdup(src)`, /repo/src/util.c lines 390-396; `f` is what is done to the copy. -/
def dupOnce (h : Heap) (dst : Option Nat) (ps : List (Option Nat)) (i : Nat) (f : Bytes → Bytes) :
    Res (Option Nat × Heap) :=
  match dst with
  | some p => .ok (some p, h)
  | none =>
    (loadSlot h ps i).bind (fun o =>
      match o with
      | none => .ok (none, h)
      | some b => .ok (some (h.malloc (f b)).1, (h.malloc (f b)).2))

/-- The loop of `netif_descr`, /repo/src/util.c lines 386-405. -/
def hDescrLoop (useDescr : Bool) (index : Nat) : List HEntry → Heap → HDescr → Res (HDescr × Heap)
  | [], h, a => .ok (a, h)
  | q :: qs, h, a =>
    if index ≠ q.e.index then hDescrLoop useDescr index qs h a
    else
      (dupOnce h a.peer q.peer 0 (fun b => b.takeWhile (· ≠ 0x2e))).bind (fun (peer, h) =>
        (dupOnce h a.suffix q.peer (if useDescr then 2 else 1) id).bind (fun (suffix, h) =>
          let src := (q.e.msg.drop 6).take 6
          if a.paddr = src then hDescrLoop useDescr index qs h { a with peer := peer, suffix := suffix }
          else hDescrLoop useDescr index qs h ⟨peer, suffix, src, (a.peers + 1) % 65536⟩))

/-- `%s` of a copy that may be missing. -/
def loadOpt (h : Heap) : Option Nat → Res (Option Bytes)
  | none => .ok none
  | some p => (h.load p).bind (fun b => .ok (some b))

/-- `if (p) free(p)`, /repo/src/util.c lines 421-424. -/
def freeOpt (h : Heap) : Option Nat → Res Heap
  | none => .ok h
  | some p => h.free p

/-- `netif_descr`, /repo/src/util.c lines 374-440: the request made, if any, and the memory afterwards.  The request itself
is allocated and released after the exchange with the privileged process. -/
def hNetifDescr (o : Opts) (n : Netif) (queue : List HEntry) (h : Heap) : Res (Option (Nat × Bytes) × Heap) :=
  (hDescrLoop (o.has OPT_USEDESCR) n.index queue h {}).bind (fun (a, h) =>
  (loadOpt h a.peer).bind (fun peer =>
  (loadOpt h a.suffix).bind (fun suffix =>
    let d :=
      if a.peers = 0 then []
      else if a.peers = 1 then
        match peer, suffix.map portnameAbbr with
        | some p, some s => snprintf64 (lit "connected to " ++ p ++ lit " (" ++ s ++ lit ")")
        | some p, none => snprintf64 (lit "connected to " ++ p)
        | none, _ => []
      else snprintf64 (lit "connected to " ++ decimal16 a.peers ++ lit " peers")
    (freeOpt h a.peer).bind (fun h =>
    (freeOpt h a.suffix).bind (fun h =>
      if d = n.description then .ok (none, h)
      else
        let (mreq, h) := h.malloc d
        (h.free mreq).bind (fun h => .ok (some (n.index, d), h)))))))

/-- `if (options & OPT_AUTO) netif_protos(netif, &mqueue)`, /repo/src/child.c lines 451-452. -/
def hProtos (o : Opts) (netif : Netif) (st : HChild) : Res HChild :=
  if o.has OPT_AUTO then
    (netifProtos st.netifs netif (st.queue.map (·.e))).bind (fun p =>
      .ok { st with netifs := setNetif st.netifs netif.index (fun n => { n with protos := p }) })
  else .ok st

/-- `if (options & OPT_IFDESCR) netif_descr(subif, &mqueue)`, /repo/src/child.c lines 391-392 and 454-455. -/
def hDescribe (o : Opts) (subif : Netif) (st : HChild) : Res HChild :=
  if o.has OPT_IFDESCR then
    (hNetifDescr o subif st.queue st.heap).bind (fun (r, h) => .ok { st with out := st.out ++ r.toList, heap := h })
  else .ok st

/-- The update loop of `child_expire`, /repo/src/child.c lines 440-461. -/
def hUpdateNetifs (o : Opts) : List Nat → HChild → Res HChild
  | [], st => .ok st
  | i :: is, st =>
    match netifByIndex st.netifs i with
    | none => hUpdateNetifs o is st
    | some subif =>
      if subif.update = 0 then hUpdateNetifs o is st
      else
        (hProtos o (parentOf st.netifs subif) st).bind (fun st =>
          (hDescribe o subif st).bind (fun st =>
            hUpdateNetifs o is { st with netifs := setNetif st.netifs i (fun n => { n with update := 0 }) }))

/-- The removal loop of `child_expire`, /repo/src/child.c lines 420-439: the entries kept and the memory. -/
def hRemove (now : Int) : List HEntry → Heap → List Nat → Res (List HEntry × Heap × List Nat)
  | [], h, objs => .ok ([], h, objs)
  | q :: qs, h, objs =>
    if keeps now q.e then
      (hRemove now qs h objs).bind (fun (r, h, objs) => .ok (q :: r, h, objs))
    else
      (peerFree h q.peer).bind (fun h =>
        (objFree objs q.e.id).bind (fun objs => hRemove now qs h objs))

/-- `child_expire`, /repo/src/child.c lines 411-462. -/
def hExpire (o : Opts) (now : Int) (st : HChild) : Res HChild :=
  let gone := st.queue.filter (fun q => !keeps now q.e)
  let netifs := st.netifs.map (fun n => if gone.any (fun q => q.e.index == n.index) then { n with update := 1 } else n)
  (hRemove now st.queue st.heap st.objs).bind (fun (queue, heap, objs) =>
    let st := { st with queue := queue, netifs := netifs, heap := heap, objs := objs }
    hUpdateNetifs o (st.netifs.map (·.index)) st)

/-- Replacement or insertion, /repo/src/child.c lines 341-381: `q` is `rmsg`, its `id` is used only if a new entry is
allocated. -/
def hPut (st : HChild) (q : HEntry) : Res HChild :=
  match queueScan q.e.index q.e.proto (q.e.msg.take 12) (st.queue.map (·.e)) 0 none with
  | (some i, _) =>
    match st.queue.drop i with
    | [] => .oob
    | o :: r =>
      (peerFree st.heap o.peer).bind (fun h =>
        .ok { st with queue := st.queue.take i ++ { q with e := { q.e with id := o.e.id } } :: r, heap := h,
                      nextId := st.nextId + 1 })
  | (none, pm) =>
    let queue := match pm with
      | some i => st.queue.take (i + 1) ++ q :: st.queue.drop (i + 1)
      | none => st.queue ++ [q]
    .ok { st with queue := queue, objs := q.e.id :: st.objs, nextId := st.nextId + 1 }

/-- `child_queue`, /repo/src/child.c lines 334-408, once `rmsg` is complete. -/
def hStore (o : Opts) (now : Int) (subif : Netif) (q : HEntry) (st : HChild) : Res HChild :=
  let netif := parentOf st.netifs subif
  (hPut st q).bind (fun st =>
    if q.e.ttl = 0 then hExpire o now st
    else
      (hDescribe o subif st).bind (fun st =>
        if !o.has OPT_AUTO || netif.protos.testBit q.e.proto then .ok st
        else if o.has OPT_ARGV && subif.argv == 0 && netif.argv == 0 then .ok st
        else
          let nl := setNetif st.netifs netif.index
            (fun n => { n with protos := (n.protos ||| (1 <<< q.e.proto)) % 256 })
          .ok { st with netifs := nl }))

/-- `child_queue`, /repo/src/child.c lines 298-409; see `childQueue` for the conditions. -/
def hQueue (o : Opts) (now : Option Int) (r : RawMsg) (st : HChild) : Res HChild :=
  if r.size < PARENT_MSG_MIN ∨ (r.size : Int) ≠ PARENT_MSG_MIN + r.len then .ok st
  else
    match now with
    | none => .ok st
    | some now =>
      match Proto.ofNum r.proto with
      | none => .abort
      | some p =>
        if r.len > ETHER_MAX_LEN then .abort
        else
          match netifByIndex st.netifs r.index with
          | none => .ok st
          | some subif =>
            if st.netifs.any (fun n => n.hwaddr == (r.msg.drop 6).take 6) then .ok st
            else
              match p.hDecode (r.msg ++ [1, 0]) r.len.toNat { heap := st.heap, proto := r.proto } with
              | .abort => .abort
              | .oob => .oob
              | .stuck => .stuck
              | .fail m => (peerFree m.heap m.peer).bind (fun h => .ok { st with heap := h })
              | .ok n m =>
                if n = 0 then (peerFree m.heap m.peer).bind (fun h => .ok { st with heap := h })
                else
                  hStore o now subif
                    ⟨{ id := st.nextId, index := r.index, name := subif.name, proto := m.proto,
                       received := (if m.ttl ≠ 0 then now else r.received),
                       len := r.len.toNat, msg := r.msg, ttl := m.ttl, peer := {}, lock := 0 }, m.peer⟩
                    { st with heap := m.heap }

/-- `child_free`, /repo/src/child.c lines 464-473: the memory when the process exits. -/
def hFreeAll : List HEntry → Heap → List Nat → Res (Heap × List Nat)
  | [], h, objs => .ok (h, objs)
  | q :: qs, h, objs =>
    (peerFree h q.peer).bind (fun h =>
      (objFree objs q.e.id).bind (fun objs => hFreeAll qs h objs))

/-! ## Client sessions -/

/-- `child_cli_accept`, /repo/src/child.c lines 475-494. -/
def hAccept (st : HChild) : HChild :=
  { st with
    sessions := st.sessions ++ [{ sid := st.nextId }]
    objs := st.nextId :: st.objs
    nextId := st.nextId + 1 }

/-- Change the lock count of an entry. -/
def hSetLock (q : List HEntry) (id : Nat) (f : Nat → Nat) : List HEntry :=
  q.map (fun x => if x.e.id = id then { x with e := { x.e with lock := f x.e.lock % 256 } } else x)

/-- `child_cli_write`, /repo/src/child.c lines 496-530. -/
def hWrite (sid : Nat) (ws : Option (List WriteRes)) (st : HChild) : Res HChild :=
  match st.sessions.find? (fun s => s.sid == sid) with
  | none => .ok st
  | some sess =>
    let others := st.sessions.filter (fun s => s.sid != sid)
    match ws with
    | none => (objFree st.objs sid).bind (fun objs => .ok { st with sessions := others, objs := objs })
    | some ws =>
      let start : Res (List HEntry × List HEntry) :=
        match sess.msg with
        | none => .ok (st.queue, st.queue)
        | some id =>
          let queue := hSetLock st.queue id (fun n => n + 255)
          match queue.dropWhile (fun x => x.e.id != id) with
          | [] => .oob
          | x :: r => .ok (queue, x :: r)
      start.bind (fun (queue, suffix) =>
        let (c, s) := cliLoop (suffix.map (·.e)) ws
        let sent := st.sent ++ s.map (fun e => (sid, e))
        match c with
        | .blocked c =>
          let sessions := st.sessions.map (fun t => if t.sid = sid then { t with msg := some c } else t)
          .ok { st with queue := hSetLock queue c (fun n => n + 1), sessions := sessions, sent := sent }
        | _ =>
          (objFree st.objs sid).bind (fun objs =>
            .ok { st with queue := queue, sessions := others, sent := sent, objs := objs }))

/-! ## Histories -/

/-- One event, /repo/src/child.c line 157. -/
def hStep (o : Opts) (st : HChild) : ChildOp → Res HChild
  | .recv now r => hQueue o now r st
  | .expire now => hExpire o now st
  | .fetch l => .ok { st with netifs := l }
  | .accept => .ok (hAccept st)
  | .write sid ws => hWrite sid ws st

/-- A sequence of events, /repo/src/child.c line 157. -/
def hRun (o : Opts) : HChild → List ChildOp → Res HChild
  | st, [] => .ok st
  | st, op :: ops => (hStep o st op).bind (fun st => hRun o st ops)

end Ladvd
