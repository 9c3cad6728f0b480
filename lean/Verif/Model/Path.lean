import Verif.Model.Filter
import Verif.Model.Send
/-!
# From the privileged to the unprivileged process
-/

namespace Ladvd

/-- What the unprivileged process reads for a frame forwarded to it, /repo/src/parent.c lines 814-816 and /repo/src/child.c lines 299-307:
the first `PARENT_MSG_LEN(len)` bytes of the structure arrive as one datagram, the rest of the structure read into is zero.  `received` is
zero since the privileged process zeroes the structure and does not set it. -/
def rawOf (m : Fwd) : RawMsg where
  size := PARENT_MSG_MIN + m.frame.length
  index := m.index
  proto := m.proto.num
  received := 0
  len := m.frame.length
  msg := m.frame ++ List.replicate (ETHER_MAX_LEN - m.frame.length) 0

end Ladvd
