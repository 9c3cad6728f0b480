import Verif.Model.Vis
/-!
# `strvis` and `strvisx` of /repo/src/compat/vis.c
-/

namespace Ladvd

/-- `strvis(dst, src, flag)`, /repo/src/compat/vis.c lines 156-166, for the C string `src` (its bytes before
the NUL).  Returns what is stored before the final NUL and the return value. -/
def strvis (f : VisFlags) (src : Bytes) : Bytes × Nat :=
  let rec go : Bytes → Bytes → Bytes
    | [], dst => dst
    | c :: src, dst => go src (dst ++ vis f c (nextc src))
  let dst := go src []
  (dst, dst.length)

/-- The loop of `strvisx`, /repo/src/compat/vis.c lines 218-223: while more than one byte is left, the
following byte of the block is handed to `vis`; the last byte is encoded as if a NUL followed. -/
def strvisxLoop (f : VisFlags) : Bytes → Bytes → Bytes
  | [], dst => dst
  | [c], dst => dst ++ vis f c 0
  | c :: d :: src, dst => strvisxLoop f (d :: src) (dst ++ vis f c d)

/-- `strvisx(dst, src, len, flag)`, /repo/src/compat/vis.c lines 212-226, for a block `src` of exactly `len` bytes, any of which
may be NUL.  Returns what is stored before the final NUL and the return value. -/
def strvisx (f : VisFlags) (src : Bytes) : Bytes × Nat :=
  let dst := strvisxLoop f src []
  (dst, dst.length)

end Ladvd
