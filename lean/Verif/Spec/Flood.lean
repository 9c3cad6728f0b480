import Verif.Spec.Latest
import Verif.Spec.Alive
/-!
# How many neighbours there can be
-/

namespace Ladvd.Spec

/-- Whom a message from the privileged process is about, if it is a valid advertisement. -/
def sender (r : RawMsg) : Option Key :=
  match Proto.ofNum r.proto with
  | none => none
  | some p =>
    match p.decode false (r.msg ++ [1, 0]) r.len.toNat { proto := r.proto } with
    | .ok (m, n) => if n = 0 then none else some (r.index, m.proto, r.msg.take 6, (r.msg.drop 6).take 6)
    | _ => none

/-- `K` contains everybody who sent a valid advertisement. -/
def AllFrom (K : List Key) (es : List Event) : Prop := ∀ now r, Event.recv now r ∈ es → ∀ k, sender r = some k → k ∈ K

/-- `K` contains everybody who sent a valid advertisement at a time that is not more than the longest lifetime, 65535 seconds, before `now`. -/
def AllSince (now : Int) (K : List Key) (es : List Event) : Prop :=
  ∀ t r, Event.recv (some t) r ∈ es → now ≤ t + 65535 → ∀ k, sender r = some k → k ∈ K

/-- An NDP frame of 62 bytes from the station `src`. -/
def ndpFrom (src : Bytes) : Bytes :=
  [0x01, 0x00, 0x81, 0x00, 0x01, 0x00] ++ src ++ [0, 48, 0xaa, 0xaa, 3, 0, 0, 0x81, 0x01, 0xa2] ++ List.replicate 40 0

/-- One such frame from each station, all captured on interface `j` in the same second. -/
def flood (j : Nat) (t : Int) (srcs : List Bytes) : List Event :=
  srcs.map (fun s => .recv (some t) (rawOf ⟨j, .ndp, ndpFrom s⟩))

end Ladvd.Spec
