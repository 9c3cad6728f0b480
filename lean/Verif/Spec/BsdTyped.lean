import Verif.Model.BsdTyped
import Verif.Spec.Typed
import Verif.Spec.Argv
import Verif.Spec.BsdTimer
/-!
# Specification of systems of either kind from the words of their command lines on
-/

namespace Ladvd.Spec

open Ladvd

/-- As `TypedDue`, on FreeBSD. -/
def BsdTypedDue (os : List Opt) (args : List Bytes) (k : BsdKernel) (us : List Link) (known : Nat → Nat) (i : Nat) (p : Proto) : Prop :=
  ∃ e ∈ us, AskedFor os e ∧ (if args = [] then ∀ a ∈ us, e.index ∉ bsdPortsAt k us a else e.name ∈ args) ∧
    ∃ s ∈ us, s.index = i ∧ AskedFor os s ∧ (if e.kind > 10 then i ∈ bsdPortsAt k us e else s = e) ∧
      ((∃ c, protoLetter p = some c ∧ given os [c]) ∨ (known e.index).testBit p.num = true)

/-- A system was started with the words `ws`, which mean the options `os` and the operands `args`; its kernel answers consistently or not at all. -/
structure TypedUptime (l : Libc) (prog : Bytes) (ws : List Bytes) (os : List Opt) (args : List Bytes) (u : Uptime) : Prop where
  text : ∀ w ∈ ws, ∀ b ∈ w, b ≠ (0 : UInt8)
  written : Written daemonLetters l.permute ws os args
  runs : match u with
    | .linux s _ k _ h => s.opts = os ∧ s.args = args ∧ SysEnvOk s.env ∧ typedStart l prog s.host s.env ws = .ok (s.conf, s.pwd, s.start) ∧ Sane k ∧ ∀ x ∈ h, SaneEvent x.2
    | .bsd s _ k _ h => s.opts = os ∧ s.args = args ∧ BsdSysOk s.env ∧ (∀ u ∈ s.env.uname, u.sysname = lit "FreeBSD") ∧
      bsdTypedStart l prog s.host s.env ws = .ok (s.conf, s.pwd, s.start) ∧ BsdSane k ∧ ∀ x ∈ h, BsdSaneEvent x.2

/-- In every round the kernel answers, knows the interfaces named or any, and the words ask for a frame with protocol `p` on interface `i`. -/
def TypedAlways (os : List Opt) (args : List Bytes) (i : Nat) (p : Proto) : Uptime → Prop
  | .linux _ t0 k m h => ∀ x ∈ (t0, Event.timer k m t0) :: h, ∀ k m now, x.2 = .timer k m now → ∃ addrs, Sane k ∧ k.ifaddrs = some addrs ∧
      (if args = [] then usables k addrs ≠ [] else ∀ name ∈ args, ∃ e ∈ usables k addrs, e.name = name ∧ e.kind ≠ -1) ∧
      (usables k addrs).length < 65536 ∧ ((usables k addrs).filter (fun e => e.kind = -1)).length ≤ 10 ∧
      TypedDue os args k (usables k addrs) (fun _ => 0) i p
  | .bsd _ t0 k m h => ∀ x ∈ (t0, BsdEvent.timer k m t0) :: h, ∀ k m now, x.2 = .timer k m now → ∃ addrs, BsdSane k ∧ k.ifaddrs = some addrs ∧
      (if args = [] then bsdUsables k addrs ≠ [] else ∀ name ∈ args, ∃ e ∈ bsdUsables k addrs, e.name = name ∧ e.kind ≠ -1) ∧
      (bsdUsables k addrs).length < 65536 ∧ ((bsdUsables k addrs).filter (fun e => e.kind = -1)).length ≤ 10 ∧
      BsdTypedDue os args k (bsdUsables k addrs) (fun _ => 0) i p

end Ladvd.Spec
