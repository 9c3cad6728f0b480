import Verif.Model.Parent
import Verif.Spec.Wire
/-!
# Specification of the privileged process

What a request is, which requests are served, and what a request entitles its sender to.
-/

namespace Ladvd.Spec

/-- Answers of the kernel that fit the kernel's own limits: interface names have at most 15 bytes, the ethtool structures 44 and 196. -/
structure PEnvOk (env : PEnv) : Prop where
  name : ∀ i n, env.ifName i = some n → n.length ≤ 15
  ethtool : ∀ drv n d, env.ethtool drv n = some d → d.length = if drv then 196 else 44

/-- A datagram that is a request (or reply) with operation `op` about interface `i`: 1 byte operation, 3 bytes padding, 4 bytes index, 16 bytes
name, 8 bytes length of the payload, payload of at most 512 bytes. -/
def Asks (dg : Bytes) (op i : Nat) (payload : Bytes) : Prop :=
  ∃ pad name : Bytes, pad.length = 3 ∧ name.length = 16 ∧ op < 256 ∧ i < 2 ^ 32 ∧ payload.length ≤ 512 ∧
    dg = UInt8.ofNat op :: pad ++ leBytes 4 i ++ name ++ leBytes 8 payload.length ++ payload

/-- The requests served: nine operations, those for ethtool with the size of the structure, descriptions up to 64 bytes. -/
def Served (op len : Nat) : Prop := op < 9 ∧ (op = 6 → len = 44) ∧ (op = 7 → len = 196) ∧ (op = 2 → len ≤ 64)

/-- The multicast groups of the protocols. -/
def groups : List Bytes :=
  [[0x01, 0x80, 0xc2, 0x00, 0x00, 0x0e], [0x01, 0x00, 0x0c, 0xcc, 0xcc, 0xcc], [0x00, 0xe0, 0x2b, 0x00, 0x00, 0x00],
   [0x01, 0xe0, 0x52, 0xcc, 0xcc, 0xcc], [0x01, 0x00, 0x81, 0x00, 0x01, 0x00]]

/-- The effects a request with operation `op` and this payload may have, for interface `i` with this name. -/
def Entitled (op i : Nat) (name payload : Bytes) : Act → Prop
  | .socket j n _ => op = 0 ∧ j = i ∧ n = name
  | .member j add g => j = i ∧ g ∈ groups ∧ (op = 0 ∧ add = true ∨ op = 1)
  | .close j => op = 1 ∧ j = i
  | .ethtool drv n => n = name ∧ op = if drv then 7 else 6
  | .aliasRead n => op = 3 ∧ n = name
  | .aliasWrite n text => op = 2 ∧ n = name ∧ text = payload.takeWhile (· ≠ 0)
  | .device n => op = 4 ∧ n = name
  | .deviceId n => op = 5 ∧ n = name
  | .team j => op = 8 ∧ j = i
  | .frame _ _ => False
  | .dump _ => False

/-- A valid advertisement of the protocol with this number. -/
def Advert : Nat → Bytes → Prop
  | 0, f => ∃ q, LldpFrame f q
  | 1, f => ∃ q, CdpFrame f q
  | 2, f => ∃ q, EdpFrame f q
  | 3, f => ∃ q, FdpFrame f q
  | 4, f => ∃ q, NdpFrame f q
  | 5, f => ∃ q, CdpFrame f q
  | _, _ => False

/-- A datagram that hands over a frame: 4 bytes index, 16 bytes name, 1 byte protocol, 3 bytes padding, 8 bytes time, 8 bytes length,
frame of at most 1518 bytes. -/
def Hands (dg : Bytes) (i p : Nat) (f : Bytes) : Prop :=
  ∃ name rest : Bytes, name.length = 16 ∧ rest.length = 11 ∧ i < 2 ^ 32 ∧ p < 256 ∧ f.length ≤ 1518 ∧
    dg = leBytes 4 i ++ name ++ [UInt8.ofNat p] ++ rest ++ leBytes 8 f.length ++ f

/-- The effects a datagram on the message socket may have: the frame it hands over is transmitted (or shown in a debug run) if it is a valid
advertisement of at least 60 bytes, and the socket for it is opened and closed. -/
def Conveys (env : PEnv) (dg : Bytes) : Act → Prop
  | .frame j g => ∃ p, Hands (dg.take 1558) j p g ∧ 60 ≤ g.length ∧ Advert p g
  | .dump g => ∃ j p, Hands (dg.take 1558) j p g ∧ 60 ≤ g.length ∧ Advert p g
  | .socket j n _ => (∃ p g, Hands (dg.take 1558) j p g) ∧ env.ifName j = some n
  | .member j _ g => (∃ p f, Hands (dg.take 1558) j p f) ∧ g ∈ groups
  | .close j => ∃ p g, Hands (dg.take 1558) j p g
  | _ => False

/-- The effects an event may have. -/
def Allowed : PEvent → Act → Prop
  | .req env dg, a => ∃ op i payload name, Asks (dg.take 544) op i payload ∧ env.ifName i = some name ∧ Served op payload.length ∧
      Entitled op i name payload a
  | .send env dg, a => Conveys env dg a
  | .recv _ _, _ => False

/-- The answers of the kernel during an event are within the kernel's limits. -/
def PEventOk : PEvent → Prop
  | .req env _ => PEnvOk env
  | .send env _ => PEnvOk env
  | .recv _ _ => True

/-- The kernel accepts every membership asked for during an event. -/
def Accepting : PEvent → Prop
  | .req env _ => ∀ add g, env.member add g = true
  | .send env _ => ∀ add g, env.member add g = true
  | .recv _ _ => True

/-- The groups joined on an interface, one membership for each protocol: those of the protocols enabled, all when protocols are
detected automatically. -/
def joined (on : Proto → Bool) (auto : Bool) : List Bytes :=
  ([(.lldp, [0x01, 0x80, 0xc2, 0x00, 0x00, 0x0e]), (.cdp, [0x01, 0x00, 0x0c, 0xcc, 0xcc, 0xcc]), (.edp, [0x00, 0xe0, 0x2b, 0x00, 0x00, 0x00]),
    (.fdp, [0x01, 0xe0, 0x52, 0xcc, 0xcc, 0xcc]), (.ndp, [0x01, 0x00, 0x81, 0x00, 0x01, 0x00]),
    (.cdp1, [0x01, 0x00, 0x0c, 0xcc, 0xcc, 0xcc])] : List (Proto × Bytes)).filterMap
    fun x => if on x.1 || auto then some x.2 else none

/-- First line of a text, up to a NUL byte and to `n` bytes. -/
def firstLine (n : Nat) (text : Bytes) : Bytes := (text.take n).takeWhile (fun b => b ≠ 0x0a && b ≠ 0)

/-- White space. -/
def White (b : UInt8) : Prop := b = 0x20 ∨ b = 0x09 ∨ b = 0x0a ∨ b = 0x0b ∨ b = 0x0c ∨ b = 0x0d

/-- `t` is `s` without white space at its end. -/
def Trimmed (s t : Bytes) : Prop := ∃ w, s = t ++ w ∧ (∀ b ∈ w, White b) ∧ ∀ b, t.getLast? = some b → ¬ White b

/-- The first line of a file, of at most `n` bytes; empty if the file is missing. -/
def devLine (env : PEnv) (name : Bytes) (n : Nat) (f : DevFile) : Bytes := ((env.devFile name f).map (firstLine n)).getD []

/-- The name of a device: nothing without PCI support or subsystem; for a USB device the product followed by the manufacturer in parentheses,
otherwise what the PCI database says; nothing if a file is missing or its first line is empty. -/
def DeviceName (env : PEnv) (name out : Bytes) : Prop :=
  match env.pci, env.subsystem name with
  | false, _ => out = []
  | true, none => out = []
  | true, some path =>
    if (0x2f : UInt8) ∉ path.take 255 then out = []
    else if (lit "/usb").isSuffixOf (path.take 255) then
      if devLine env name 31 .usbVendor = [] ∨ devLine env name 31 .usbProduct = [] then out = []
      else ∃ v p, Trimmed (devLine env name 31 .usbVendor) v ∧ Trimmed (devLine env name 31 .usbProduct) p ∧ out = p ++ lit " (" ++ v ++ lit ")"
    else if devLine env name 15 .pciVendor = [] ∨ devLine env name 15 .pciDevice = [] then out = []
    else out = ((env.pciName (devLine env name 15 .pciVendor) (devLine env name 15 .pciDevice)).takeWhile (· ≠ 0)).take 511

/-- What is known about a team: mode (2 for active-backup, 3 otherwise), number of ports, up to 32 ports, active port. -/
def TeamReport (payload out : Bytes) : TeamAnswer → Prop
  | .noHandle => out = []
  | .error => out = (payload ++ List.replicate 136 0).take 136
  | .info mode active ports =>
    let ps := ports.take 32
    let backup := mode = lit "activebackup"
    out = [if backup then 2 else 3, UInt8.ofNat ps.length, 0, 0] ++ ps.flatMap (leBytes 4) ++ List.replicate (128 - 4 * ps.length) 0 ++
      leBytes 4 (if backup then active else 0)

/-- The answer to a request. -/
def Answers (env : PEnv) (op i : Nat) (name payload out : Bytes) : Prop :=
  let text := payload.takeWhile (· ≠ 0)
  (op = 0 ∨ op = 1 → out = payload) ∧
  (op = 2 → out.length = if (env.alias name).isSome then min ((env.aliasWrite name text).getD 0) text.length else 0) ∧
  (op = 3 → out = ((env.alias name).map (firstLine 63)).getD []) ∧
  (op = 4 → out.length = if env.device name then 1 else 0) ∧
  (op = 5 → DeviceName env name out) ∧
  (op = 6 → out = (env.ethtool false name).getD []) ∧
  (op = 7 → out = (env.ethtool true name).getD []) ∧
  (op = 8 → TeamReport payload out (env.team i))

end Ladvd.Spec
