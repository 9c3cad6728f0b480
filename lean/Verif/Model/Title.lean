import Verif.Model.Vis
import Verif.Model.Strl
/-!
# Process titles

`compat_init_setproctitle` and `setproctitle` of /repo/src/compat/setproctitle.c as used on Linux, and the copy of the arguments in
/repo/src/main.c.  The memory in which the kernel has placed the strings of the command line and the environment is an object (`Bytes`); pointers
into it are offsets.
-/

namespace Ladvd

/-- A `char *`: into the memory of the kernel's strings, or to a copy of its own made by `strdup`, /repo/src/compat/setproctitle.c line 112 and
/repo/src/main.c line 75. -/
inductive Str where
  | at (p : Nat)
  | own (s : Bytes)
  deriving Repr, DecidableEq

/-- The string at an offset (`strlen`, `strdup`, /repo/src/compat/setproctitle.c lines 97, 101 and 112); `oob` without a NUL up to the end. -/
def strAt (mem : Bytes) (p : Nat) : Res Bytes := if 0 ∈ mem.drop p then .ok (cstr (mem.drop p)) else .oob

/-- The string behind a pointer. -/
def Str.get (mem : Bytes) : Str → Res Bytes
  | .at p => strAt mem p
  | .own s => .ok s

/-- The state concerned: memory of the strings, `sargv` of /repo/src/main.c line 73, `environ`, and the two static variables
`argv_start` and `argv_env_len` of /repo/src/compat/setproctitle.c lines 62-63. -/
structure Proc where
  mem : Bytes
  args : List Str
  environ : List Str
  start : Nat := 0
  len : Nat := 0
  deriving Repr, DecidableEq

/-- Copies of strings, /repo/src/main.c lines 74-76 and /repo/src/compat/setproctitle.c lines 111-112. -/
def dupAll (mem : Bytes) : List Str → Res (List Str)
  | [] => .ok []
  | s :: ss => (s.get mem).bind (fun x => (dupAll mem ss).bind (fun xs => .ok (.own x :: xs)))

/-- The loop over the arguments, /repo/src/compat/setproctitle.c lines 95-98; `last` is `lastargv`. -/
def lastArg (mem : Bytes) : List Nat → Option Nat → Res (Option Nat)
  | [], last => .ok last
  | p :: ps, last =>
    if last = none ∨ last.map (· + 1) = some p then (strAt mem p).bind (fun s => lastArg mem ps (some (p + s.length)))
    else lastArg mem ps last

/-- The loop over the environment, /repo/src/compat/setproctitle.c lines 99-102. -/
def lastEnv (mem : Bytes) : List Nat → Nat → Res Nat
  | [], last => .ok last
  | p :: ps, last =>
    if last + 1 = p then (strAt mem p).bind (fun s => lastEnv mem ps (p + s.length))
    else lastEnv mem ps last

/-- `compat_init_setproctitle`, /repo/src/compat/setproctitle.c lines 68-115, for the pointers in `argv` and `environ`.  The length is a `size_t`.
Simplification: the memory allocations succeed; `argv` itself, whose second element is cleared, is not used any more
(/repo/src/main.c line 81). -/
def titleInit (argv envp : List Nat) (pr : Proc) : Res Proc :=
  match argv with
  | [] => .ok pr
  | a0 :: _ => do
    let last ← lastArg pr.mem argv none
    let last ← lastEnv pr.mem envp (last.getD 0)
    let env ← dupAll pr.mem (envp.map .at)
    pure { pr with environ := env, start := a0, len := (last + 2 ^ 64 - a0 - 1) % 2 ^ 64 }

/-- The start of `main`, /repo/src/main.c lines 71-82: `sargv` is copied first. -/
def titleStart (mem : Bytes) (argv envp : List Nat) : Res Proc := do
  let args ← dupAll mem (argv.map .at)
  titleInit argv envp { mem := mem, args := args, environ := envp.map .at }

/-- The flags of the title, /repo/src/compat/setproctitle.c line 146. -/
def TITLE_FLAGS : VisFlags := { cstyle := true, nl := true, tab := true, octal := true }

/-- The contents of `buf`, /repo/src/compat/setproctitle.c lines 136-144, for the program name and the formatted text; `vsnprintf` stores at most
the size less one.  `buf` is an object of 1024 bytes; what it contains before does not matter. -/
def titleBuf (name text : Bytes) : Res Bytes := do
  let (buf, _) ← strlcpy (List.replicate 1024 0) name 1024
  let (buf, len) ← strlcat buf (lit ": ") 1024
  if len < 1024 then wr buf len (text.take (1024 - len - 1) ++ [0]) else pure buf

/-- Stores of a loop that writes `n` zero bytes from offset `p`, /repo/src/compat/setproctitle.c lines 156-157. -/
def pad (m : Bytes) (p n : Nat) : Res Bytes :=
  if p + n ≤ m.length then .ok (m.take p ++ List.replicate n 0 ++ m.drop (p + n)) else .oob

/-- `setproctitle`, /repo/src/compat/setproctitle.c lines 119-160. -/
def setTitle (name text : Bytes) (pr : Proc) : Res Proc :=
  if pr.len = 0 then .ok pr
  else do
    let buf ← titleBuf name text
    let ptitle := (strnvis TITLE_FLAGS (cstr buf) 1024).1
    let (dst, n) ← strlcpy (pr.mem.drop pr.start) ptitle pr.len
    let mem := pr.mem.take pr.start ++ dst
    let mem ← if n < pr.len then pad mem (pr.start + n) (pr.len - n) else pure mem
    pure { pr with mem := mem }

/-- Any number of titles set one after the other, as by /repo/src/child.c line 119 and /repo/src/parent.c line 95. -/
def setTitles (name : Bytes) : List Bytes → Proc → Res Proc
  | [], pr => .ok pr
  | t :: ts, pr => (setTitle name t pr).bind (setTitles name ts)

end Ladvd
