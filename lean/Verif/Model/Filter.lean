import Verif.Model.Decode
/-!
# The capture filter and the receive path of the privileged process

/repo/src/filter.h, and `parent_socket`, `parent_recv` of /repo/src/parent.c.
-/

namespace Ladvd

/-- The classic BPF instructions used in /repo/src/filter.h lines 23-114.  `ldAbs n k` is
`BPF_LD+BPF_H+BPF_ABS` for `n = 2` and `BPF_LD+BPF_W+BPF_ABS` for `n = 4`; likewise `ldInd`. -/
inductive Insn where
  | ldAbs (n k : Nat)
  | ldInd (n k : Nat)
  | ldxImm (k : Nat)
  | jeq (k jt jf : Nat)
  | ret (k : Nat)
  deriving Repr, DecidableEq

/-- The BPF machine that runs /repo/src/filter.h lines 23-114.  The program counter is the remaining program: jump offsets are
unsigned, so only forward jumps exist.  A load outside the packet ends the program with result 0, running past the
end of the program is the outcome `oob`.  This is the documented behaviour of the kernel and of libpcap, which are
not part of /repo. -/
def bpfRun (f : Bytes) : List Insn → Nat → Nat → Res Nat
  | [], _, _ => .oob
  | .ldAbs n k :: r, _, x =>
    if k + n ≤ f.length then bpfRun f r (beNat ((f.drop k).take n)) x else .ok 0
  | .ldInd n k :: r, _, x =>
    if k + x + n ≤ f.length then bpfRun f r (beNat ((f.drop (k + x)).take n)) x else .ok 0
  | .ldxImm k :: r, a, _ => bpfRun f r a k
  | .jeq k jt jf :: r, a, x => bpfRun f (r.drop (if a = k then jt else jf)) a x
  | .ret k :: _, _, _ => .ok k
termination_by p => p.length
decreasing_by all_goals (simp; try omega)

/-- `(u_int)-1`. -/
def BPF_ACCEPT : Nat := 0xffffffff

/-- `reject_filter`, /repo/src/filter.h lines 23-26. -/
def rejectFilter : List Insn := [.ret 0]

/-- `proto_filter`, /repo/src/filter.h lines 28-114; `ETH_LLC_CONTROL` is 16 and `ETH_LLC_PROTOID` is 20
(/repo/src/ether.h lines 60-61). -/
def protoFilter : List Insn := [
  -- .1q vlan header
  .ldAbs 2 12, .jeq 0x8100 0 1, .ldxImm 4,
  -- lldp
  .ldAbs 4 0, .jeq 0x0180C200 0 5, .ldAbs 2 4, .jeq 0x0000000E 0 3,
  .ldInd 2 12, .jeq 0x88cc 0 1, .ret BPF_ACCEPT,
  -- llc dsap & ssap
  .ldInd 2 14, .jeq 0xAAAA 1 0, .ret 0,
  -- cdp
  .ldAbs 4 0, .jeq 0x01000CCC 0 7, .ldAbs 2 4, .jeq 0x0000CCCC 0 5,
  .ldInd 4 16, .jeq 0x0300000C 0 3, .ldInd 2 20, .jeq CDP_PID 0 1, .ret BPF_ACCEPT,
  -- edp
  .ldAbs 4 0, .jeq 0x000E2B00 0 7, .ldAbs 2 4, .jeq 0x00000000 0 5,
  .ldInd 4 16, .jeq 0x03000E2B 0 3, .ldInd 2 20, .jeq EDP_PID 0 1, .ret BPF_ACCEPT,
  -- fdp
  .ldAbs 4 0, .jeq 0x01E052CC 0 7, .ldAbs 2 4, .jeq 0x0000CCCC 0 5,
  .ldInd 4 16, .jeq 0x0300E052 0 3, .ldInd 2 20, .jeq FDP_PID 0 1, .ret BPF_ACCEPT,
  -- ndp
  .ldAbs 4 0, .jeq 0x01008100 0 7, .ldAbs 2 4, .jeq 0x00000100 0 5,
  .ldInd 4 16, .jeq 0x03000081 0 3, .ldInd 2 20, .jeq NDP_PID 0 1, .ret BPF_ACCEPT,
  -- reject
  .ret 0]

/-- The filter `parent_socket` installs, /repo/src/parent.c lines 667-675 (not in debug mode). -/
def socketFilter (optRecv : Bool) : List Insn := if optRecv then protoFilter else rejectFilter

/-- Run a filter with the machine's initial registers. -/
def bpfFilter (prog : List Insn) (f : Bytes) : Res Nat := bpfRun f prog 0 0

/-- What the privileged process writes to the message socket: the fields `index`, `proto` and the first `len`
bytes of `msg` of a `struct parent_msg`, /repo/src/common.h lines 279-302.  The field `len` is `frame.length`. -/
structure Fwd where
  index : Nat
  proto : Proto
  frame : Bytes
  deriving Repr, DecidableEq

/-- `protos[]` in order, /repo/src/main.h lines 24-38. -/
def protoTable : List Proto := [.lldp, .cdp, .edp, .fdp, .ndp, .cdp1]

/-- `detect the protocol`, /repo/src/parent.c lines 799-807: the first protocol with this destination address. -/
def detectProto (msg : Bytes) : Option Proto := protoTable.find? (fun p => p.dst == msg.take 6)

/-- The loop of `parent_recv`, /repo/src/parent.c lines 782-820: `buf` is `mrecv.msg`, reused by every iteration,
`caps` the packets `pcap_next` returns before it runs dry (each of `caplen` bytes).  Simplification: `write` to
the child succeeds. -/
def parentRecvLoop (index : Nat) : Bytes → List Bytes → Res (List Fwd)
  | _, [] => .ok []
  | buf, data :: caps => do
    let len := if data.length < ETHER_MAX_LEN then data.length else ETHER_MAX_LEN
    let pkt ← rd data 0 len
    let buf ← wr buf 0 pkt
    if len < ETHER_MIN_LEN - 4 then parentRecvLoop index buf caps
    else
      let dst ← rd buf 0 6
      match detectProto dst with
      | none => .ok []
      | some p => do
        let frame ← rd buf 0 len
        let rest ← parentRecvLoop index buf caps
        pure (⟨index, p, frame⟩ :: rest)

/-- `parent_recv`, /repo/src/parent.c lines 769-821; `mrecv` is zeroed on entry. -/
def parentRecv (index : Nat) (caps : List Bytes) : Res (List Fwd) :=
  parentRecvLoop index (List.replicate ETHER_MAX_LEN 0) caps

end Ladvd
