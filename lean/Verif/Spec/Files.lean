import Verif.Model.Files
import Verif.Spec.Parent
/-!
# Specification of the files the privileged process may touch
-/

namespace Ladvd.Spec

/-- The file `what` in the directory that the kernel keeps for the interface. -/
def inDir (name what : Bytes) : Bytes := lit "/sys/class/net/" ++ name ++ lit "/" ++ what

/-- The calls a request with operation `op` and this payload stands for, for the interface with this name: setting the description writes the text that was sent
to `ifalias`, asking for it reads that file, asking for the device looks for `device`, and asking for the maker reads where the bus describes the device.  Nothing
else is ever written. -/
def MayTouch (op : Nat) (name payload : Bytes) : FsCall → Prop
  | .stat p => (op = 2 ∨ op = 3) ∧ p = inDir name (lit "ifalias") ∨ op = 4 ∧ p = inDir name (lit "device") ∨ op = 5 ∧ p = lit "/proc/bus/pci"
  | .readlink p => op = 5 ∧ p = inDir name (lit "device/subsystem")
  | .read p => op = 3 ∧ p = inDir name (lit "ifalias") ∨ op = 5 ∧ ∃ w ∈ [lit "device/vendor", lit "device/device", lit "device/../manufacturer", lit "device/../product"],
      p = inDir name w
  | .write p text => op = 2 ∧ p = inDir name (lit "ifalias") ∧ text = payload.takeWhile (· ≠ 0)

end Ladvd.Spec
