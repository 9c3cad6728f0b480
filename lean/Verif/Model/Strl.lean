import Verif.Model.Basic
/-!
# `strlcpy` and `strlcat` of /repo/src/compat

The destination is an object (`Bytes`) of arbitrary size; every store and load is checked
against that size, independently of the `siz` argument.  The source is a C string.
-/

namespace Ladvd

/-- The copy loop of `strlcpy`, /repo/src/compat/strlcpy.c lines 40-45.  `i` is `d - dst`, `n` the
remaining count.  The result says what `dst` holds, where `d` points and whether the loop
was left by the `break` (terminating NUL copied). -/
def strlcpyLoop : (n i : Nat) → (src dst : Bytes) → Res (Bytes × Nat × Bool)
  | 0, i, _, dst => .ok (dst, i, false)
  | _ + 1, i, [], dst => do
    let dst ← wr dst i [0]
    pure (dst, i + 1, true)
  | n + 1, i, c :: src, dst => do
    let dst ← wr dst i [c]
    strlcpyLoop n (i + 1) src dst

/-- `strlcpy(dst, src, siz)`, /repo/src/compat/strlcpy.c lines 32-56: new contents of the
destination object and the return value. -/
def strlcpy (dst src : Bytes) (siz : Nat) : Res (Bytes × Nat) := do
  let (dst, i, nul) ← strlcpyLoop (siz - 1) 0 src dst
  if nul then pure (dst, src.length)
  else if siz ≠ 0 then do
    let dst ← wr dst i [0]
    pure (dst, src.length)
  else pure (dst, src.length)

/-- The scan for the end of `dst` in `strlcat`, /repo/src/compat/strlcat.c lines 43-45: stops at the
first NUL or after `n` bytes; a load outside the object is `oob`. -/
def strlcatScan : (n : Nat) → (d : Bytes) → (dlen : Nat) → Res Nat
  | 0, _, dlen => .ok dlen
  | _ + 1, [], _ => .oob
  | n + 1, c :: d, dlen => if c = 0 then .ok dlen else strlcatScan n d (dlen + 1)

/-- The append loop of `strlcat`, /repo/src/compat/strlcat.c lines 50-57: `i` is `d - dst`, `n` the
room left including the NUL. -/
def strlcatLoop : (n i : Nat) → (src dst : Bytes) → Res Bytes
  | _, i, [], dst => wr dst i [0]
  | n, i, c :: src, dst =>
    if n ≠ 1 then do
      let dst ← wr dst i [c]
      strlcatLoop (n - 1) (i + 1) src dst
    else strlcatLoop n i src dst

/-- `strlcat(dst, src, siz)`, /repo/src/compat/strlcat.c lines 34-60: new contents of the destination
object and the return value. -/
def strlcat (dst src : Bytes) (siz : Nat) : Res (Bytes × Nat) := do
  let dlen ← strlcatScan siz dst 0
  if siz - dlen = 0 then pure (dst, dlen + src.length)
  else do
    let dst ← strlcatLoop (siz - dlen) dlen src dst
    pure (dst, dlen + src.length)

end Ladvd
