import Verif.Spec.Parent
import Verif.Model.Dump
/-!
# Specification of capture files

A reader for the format described in pcap-savefile(5).
-/

namespace Ladvd.Spec

/-- A number in the byte order of the machine that wrote the file. -/
def field (big : Bool) (b : Bytes) : Nat := (if big then b else b.reverse).foldl (fun n x => n * 256 + x.toNat) 0

/-- A captured frame: time, the length it had, and the bytes kept of it. -/
structure Packet where
  sec : Nat
  usec : Nat
  length : Nat
  kept : Bytes
  deriving Repr, DecidableEq

/-- The records of a file: each has a header of 16 bytes.  `none` if a record is cut short or exceeds the snapshot length. -/
def records (big : Bool) (snap : Nat) (b : Bytes) : Option (List Packet) :=
  if b = [] then some []
  else if b.length < 16 then none
  else
    let n := field big ((b.drop 8).take 4)
    if n > snap ∨ b.length < 16 + n then none
    else (records big snap (b.drop (16 + n))).map
      (⟨field big (b.take 4), field big ((b.drop 4).take 4), field big ((b.drop 12).take 4), (b.drop 16).take n⟩ :: ·)
  termination_by b.length
  decreasing_by simp only [List.length_drop]; omega

/-- A capture file: the link type and the records.  The magic number tells the byte order. -/
def capture (b : Bytes) : Option (Nat × List Packet) :=
  if b.length < 24 then none
  else
    let go := fun big =>
      if field big ((b.drop 4).take 2) = 2 ∧ field big ((b.drop 6).take 2) = 4 then
        (records big (field big ((b.drop 16).take 4)) (b.drop 24)).map (fun r => (field big ((b.drop 20).take 4), r))
      else none
    if b.take 4 = [0xd4, 0xc3, 0xb2, 0xa1] then go false else if b.take 4 = [0xa1, 0xb2, 0xc3, 0xd4] then go true else none

/-- Complete frames with the times of the clock; time zero if it failed. -/
def complete (clock : Nat → Option (Nat × Nat)) (fs : List Bytes) : List Packet :=
  fs.mapIdx (fun i f => ⟨((clock i).getD (0, 0)).1, ((clock i).getD (0, 0)).2, f.length, f⟩)

/-- A clock whose seconds and microseconds fit 32 bits. -/
def ClockOk (clock : Nat → Option (Nat × Nat)) : Prop := ∀ i t, clock i = some t → t.1 < 2 ^ 32 ∧ t.2 < 1000000

/-- The frames handed over to the privileged process for interfaces that exist, in order. -/
inductive HandedOver : List PEvent → List Bytes → Prop
  | nil : HandedOver [] []
  | frame {env : PEnv} {dg : Bytes} {i p : Nat} {f : Bytes} {es : List PEvent} {fs : List Bytes} (hh : Hands (dg.take 1558) i p f)
      (hi : (env.ifName i).isSome) (hr : HandedOver es fs) : HandedOver (.send env dg :: es) (f :: fs)
  | other {e : PEvent} {es : List PEvent} {fs : List Bytes}
      (hn : ∀ env dg i p f, e = .send env dg → Hands (dg.take 1558) i p f → (env.ifName i).isNone) (hr : HandedOver es fs) :
      HandedOver (e :: es) fs

/-- Effects that do not touch the network. -/
def Silent : Act → Prop
  | .socket _ _ _ | .close _ | .member _ _ _ | .frame _ _ => False
  | _ => True

end Ladvd.Spec
