import Verif.Model.Parent
import Verif.Model.Cli
/-!
# Dumps of frames

`my_pcap_init`, `my_pcap_write` and `my_pcap_close`, /repo/src/util.c lines 463-510, used by `ladvd -d` (/repo/src/parent.c lines 99-102, 327-331 and
177-178) and `ladvdc -d` (/repo/src/cli.c lines 327-337).  The library calls are modelled after pcap-savefile(5), for a little-endian machine.
-/

namespace Ladvd

/-- What standard output is, /repo/src/util.c lines 470-476: not open, a terminal, something `fdopen` does not take, or a file or pipe. -/
inductive Stdout where
  | missing | terminal | unusable | file
  deriving Repr, DecidableEq

/-- `p_dump` and what has been written: `fflush` follows every write. -/
structure Pcap where
  dumping : Bool := false
  file : Bytes := []
  deriving Repr, DecidableEq

/-- The file header written by `pcap_dump_fopen` for `pcap_open_dead(DLT_EN10MB, ETHER_MAX_LEN)`, /repo/src/util.c lines 478-479: magic number, version
2.4, time zone and accuracy 0, snapshot length, link type 1. -/
def pcapHeader : Bytes :=
  leBytes 4 0xa1b2c3d4 ++ leBytes 2 2 ++ leBytes 2 4 ++ leBytes 4 0 ++ leBytes 4 0 ++ leBytes 4 ETHER_MAX_LEN ++ leBytes 4 1

/-- `my_pcap_init`, /repo/src/util.c lines 467-481.  Simplification: standard output takes everything written. -/
def pcapInit (o : Stdout) (p : Pcap) : Res Pcap :=
  match o with
  | .missing | .terminal | .unusable => .abort
  | .file => .ok { p with dumping := true, file := p.file ++ pcapHeader }

/-- `my_pcap_write`, /repo/src/util.c lines 483-499, with `pcap_dump`: the record header (seconds, microseconds, captured length, length, each of 32
bits) and the frame.  `now` is `none` if `gettimeofday` fails. -/
def pcapWrite (now : Option (Nat × Nat)) (len : Nat) (msg : Bytes) (p : Pcap) : Res Pcap :=
  if !p.dumping then .ok p
  else
    let ts := now.getD (0, 0)
    let caplen := len % 2 ^ 32
    do
      let data ← rd msg 0 caplen
      pure { p with file := p.file ++ (leBytes 4 ts.1 ++ leBytes 4 ts.2 ++ leBytes 4 caplen ++ leBytes 4 caplen ++ data) }

/-- `my_pcap_close`, /repo/src/util.c lines 501-510. -/
def pcapClose (p : Pcap) : Pcap := { p with dumping := false }

/-- The calls of `my_pcap_write` one after another: the time of each and the frame. -/
def pcapWrites : List (Option (Nat × Nat) × Bytes) → Pcap → Res Pcap
  | [], p => .ok p
  | (now, f) :: r, p => do
    let p ← pcapWrite now f.length f p
    pcapWrites r p

/-- `ladvdc -d`, /repo/src/cli.c lines 169-170, 213-214 and 227-228: what is written to standard output for the messages shown; `clock` is the time
of the n-th one. -/
def clientDump (o : Stdout) (clock : Nat → Option (Nat × Nat)) (shown : List Shown) : Res Bytes := do
  let p ← pcapInit o {}
  let p ← pcapWrites ((shown.map (·.frame)).mapIdx (fun i f => (clock i, f))) p
  pure (pcapClose p).file

/-- The frames dumped by the privileged process, /repo/src/parent.c lines 327-331. -/
def dumps (acts : List Act) : List Bytes := acts.filterMap (fun a => match a with | .dump f => some f | _ => none)

/-- `ladvd -d`, /repo/src/parent.c lines 99-102 and 327-331: what has been written to standard output after the events `es`. -/
def daemonDump (c : Conf) (o : Stdout) (clock : Nat → Option (Nat × Nat)) (es : List PEvent) : Res Bytes := do
  let p ← pcapInit o {}
  let s ← parentRun c es {}
  let p ← pcapWrites ((dumps s.acts).mapIdx (fun i f => (clock i, f))) p
  pure p.file

end Ladvd
