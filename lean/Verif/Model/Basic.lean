/-!
# Bytes, C outcomes and memory access

Shared vocabulary of the model.  Bytes are `UInt8`, C strings are byte lists without NUL.
Undefined behaviour is never hidden behind a default value: every access outside an
object is the separate outcome `Res.oob`.
-/

namespace Ladvd

/-- A sequence of octets (`unsigned char *` contents in /repo/src). -/
abbrev Bytes := List UInt8

/-- Outcome of a piece of C code.
* `ok a`   – normal completion with result `a`;
* `fail`   – the function takes one of its error exits (`return 0`, `return NULL`);
* `oob`    – a load or store outside the object (undefined behaviour);
* `abort`  – an `assert` failed or `my_fatal` was called, the process exits;
* `stuck`  – a loop did not finish within its iteration budget (used to make
             termination a theorem instead of an assumption). -/
inductive Res (α : Type) where
  | ok (a : α)
  | fail
  | oob
  | abort
  | stuck
  deriving Repr, DecidableEq

namespace Res

/-- Sequencing of C statements: error exits and undefined behaviour propagate. -/
@[inline] def bind {α β : Type} : Res α → (α → Res β) → Res β
  | .ok a, f => f a
  | .fail, _ => .fail
  | .oob, _ => .oob
  | .abort, _ => .abort
  | .stuck, _ => .stuck

instance : Monad Res where
  pure := .ok
  bind := bind

@[simp] theorem pure_eq {α : Type} (a : α) : (pure a : Res α) = .ok a := rfl
@[simp] theorem bind_eq {α β : Type} (x : Res α) (f : α → Res β) : (x >>= f) = x.bind f := rfl
@[simp] theorem bind_ok {α β : Type} (a : α) (f : α → Res β) : (Res.ok a).bind f = f a := rfl
@[simp] theorem bind_fail {α β : Type} (f : α → Res β) : (Res.fail : Res α).bind f = .fail := rfl
@[simp] theorem bind_oob {α β : Type} (f : α → Res β) : (Res.oob : Res α).bind f = .oob := rfl
@[simp] theorem bind_abort {α β : Type} (f : α → Res β) : (Res.abort : Res α).bind f = .abort := rfl
@[simp] theorem bind_stuck {α β : Type} (f : α → Res β) : (Res.stuck : Res α).bind f = .stuck := rfl

end Res

/-- Value of a byte string read most significant byte first
(`ntohs`/`ntohl` after `memcpy`, /repo/src/proto/tlv.h lines 66-77). -/
def beNat (bs : Bytes) : Nat := bs.foldl (fun acc b => acc * 256 + b.toNat) 0

/-- `htons` followed by `memcpy`: the two bytes of a `uint16_t`, most significant first.
The argument is converted to `uint16_t`, i.e. reduced modulo 65536
(/repo/src/proto/tlv.h lines 45-55). -/
def be16 (n : Nat) : Bytes := [UInt8.ofNat (n / 256), UInt8.ofNat n]

/-- `htonl` followed by `memcpy`: the four bytes of a `uint32_t`, most significant first
(/repo/src/proto/tlv.h lines 45-56). -/
def be32 (n : Nat) : Bytes :=
  [UInt8.ofNat (n / 16777216), UInt8.ofNat (n / 65536), UInt8.ofNat (n / 256), UInt8.ofNat n]

/-- `memcpy` of `n` bytes out of object `m` at offset `p`: `oob` unless the whole range
lies inside the object. -/
def rd (m : Bytes) (p n : Nat) : Res Bytes :=
  if p + n ≤ m.length then .ok ((m.drop p).take n) else .oob

/-- `memcpy` of `v` into object `m` at offset `p`: `oob` unless the whole range
lies inside the object. -/
def wr (m : Bytes) (p : Nat) (v : Bytes) : Res Bytes :=
  if p + v.length ≤ m.length then .ok (m.take p ++ v ++ m.drop (p + v.length)) else .oob

/-- The C string stored at the start of a byte array: everything before the first NUL
(`strlen`, `%s`, `strcmp` semantics). -/
def cstr (bs : Bytes) : Bytes := bs.takeWhile (· ≠ 0)

/-- ASCII string literal as bytes. -/
def lit (s : String) : Bytes := s.toList.map (fun c => UInt8.ofNat c.toNat)

/-! Sizes, /repo/src/ether.h and /repo/src/common.h. -/

/-- `ETHER_MAX_LEN`, /repo/src/ether.h. -/
def ETHER_MAX_LEN : Nat := 1518
/-- `ETHER_MIN_LEN`, /repo/src/ether.h. -/
def ETHER_MIN_LEN : Nat := 64
/-- `LADVD_TTL`, /repo/src/common.h line 97. -/
def LADVD_TTL : Nat := 180

end Ladvd
