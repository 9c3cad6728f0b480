import Verif.Model.Netlink
/-!
# Specification of link notifications
-/

namespace Ladvd.Spec

/-- What the kernel reports about an interface in a message (`struct ifinfomsg`), and the circumstances: type and flags of the message, and the
system while it is handled. -/
structure Report where
  msgType : Nat
  msgFlags : Nat := 0
  family : UInt8 := 0
  hwType : Nat
  index : Nat
  flags : Nat
  change : Nat := 0
  attrs : Bytes := []
  k : Kernel
  m : Media := {}

/-- The message carrying a report. -/
def Report.msg (r : Report) : NlMsg where
  type := r.msgType
  flags := r.msgFlags
  payload := [r.family, 0] ++ leBytes 2 r.hwType ++ leBytes 4 r.index ++ leBytes 4 r.flags ++ leBytes 4 r.change ++ r.attrs
  k := r.k
  m := r.m

/-- The members have values they can have; the kernel's indices are positive `int`s. -/
def Report.Fits (r : Report) : Prop := r.hwType < 2 ^ 16 ∧ r.index < 2 ^ 31 ∧ r.flags < 2 ^ 32

instance (r : Report) : Decidable r.Fits := by unfold Report.Fits; infer_instance

/-- An Ethernet interface (`ARPHRD_ETHER`) whose link is up (`IFF_RUNNING`, bit 6, and `IFF_LOWER_UP`, bit 16). -/
def Report.Up (r : Report) : Prop := r.hwType = 1 ∧ r.flags.testBit 6 = true ∧ r.flags.testBit 16 = true

instance (r : Report) : Decidable r.Up := by unfold Report.Up; infer_instance

/-- A message that ends the processing of a datagram: an error, the end of a dump, or an interrupted dump. -/
def Report.Ends (r : Report) : Prop := r.msgType = 2 ∨ r.msgType = 3 ∨ r.msgFlags.testBit 4 = true

instance (r : Report) : Decidable r.Ends := by unfold Report.Ends; infer_instance

/-- The reports the kernel has handed over in the datagrams of a sequence of reads, some of which fail: in each datagram those before a message that
ends it, without the control messages. -/
def conveyed (q : List (Option (List Report))) : List Report :=
  q.flatMap (fun x => ((x.getD []).takeWhile (fun r => ¬ r.Ends)).filter (fun r => r.msgType ≥ 16))

end Ladvd.Spec
