import Verif.Spec.Parent
/-!
# Specification of the multicast groups on FreeBSD
-/

namespace Ladvd.Spec

/-- The groups of the protocols enabled that are multicast addresses: all but EDP's. -/
def bsdGroups (on : Proto → Bool) (auto : Bool) : List Bytes :=
  (joined on auto).filter (fun g => g ≠ [0x00, 0xe0, 0x2b, 0x00, 0x00, 0x00])

/-- What happened last to an interface: opened (`true`), closed (`false`), or nothing. -/
def lastEvent (name : Bytes) (es : List (Bool × Bytes)) : Option Bool := ((es.filter (fun e => e.2 = name)).getLast?).map (·.1)

end Ladvd.Spec
