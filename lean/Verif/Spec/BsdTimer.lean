import Verif.Model.BsdTimer
import Verif.Spec.Timer
import Verif.Spec.Mixed
/-!
# Specification: rounds and their times on FreeBSD, and runs of systems of either kind
-/

namespace Ladvd.Spec

/-- The clock shows `t` during the event. -/
def BsdReads (t : Int) : BsdEvent → Prop
  | .timer _ _ now => now = t
  | .recv now _ => now = none ∨ now = some t
  | _ => True

instance (t : Int) (e : BsdEvent) : Decidable (BsdReads t e) := by cases e <;> unfold BsdReads <;> infer_instance

/-- The event is the timeout of the transmit event. -/
def bsdIsTimeout : BsdEvent → Bool
  | .timer _ _ _ => true
  | _ => false

/-- Events in the order of time, none while a timeout has been due for more than `late` seconds, and no timeout before it is due. -/
def BsdPunctual (c : Conf) (late : Int) : Int → List (Int × BsdEvent) → Timed → Prop
  | _, [], _ => True
  | last, (t, e) :: h, s => last ≤ t ∧ BsdReads t e ∧ (∀ x ∈ s.due.toList, t ≤ x + late) ∧
      (bsdIsTimeout e = true → ∀ x ∈ s.due.toList, x ≤ t) ∧ ∀ s', bsdTimedStep c s t e = .ok s' → BsdPunctual c late t h s'

instance decBsdPunctual (c : Conf) (late : Int) : (last : Int) → (h : List (Int × BsdEvent)) → (s : Timed) → Decidable (BsdPunctual c late last h s)
  | _, [], _ => isTrue trivial
  | last, (t, e) :: h, s =>
    have h1 : Decidable (last ≤ t ∧ BsdReads t e ∧ (∀ x ∈ s.due.toList, t ≤ x + late) ∧ (bsdIsTimeout e = true → ∀ x ∈ s.due.toList, x ≤ t)) := by
      infer_instance
    match h1, hs : bsdTimedStep c s t e with
    | .isFalse h1, _ => isFalse (fun hx => h1 ⟨hx.1, hx.2.1, hx.2.2.1, hx.2.2.2.1⟩)
    | .isTrue h1, .ok s1 =>
      match decBsdPunctual c late t h s1 with
      | .isTrue h2 => isTrue ⟨h1.1, h1.2.1, h1.2.2.1, h1.2.2.2, fun s' hd => by rw [hs] at hd; injection hd with hd; exact hd ▸ h2⟩
      | .isFalse h2 => isFalse (fun hx => h2 (hx.2.2.2.2 s1 hs))
    | .isTrue h1, .fail => isTrue ⟨h1.1, h1.2.1, h1.2.2.1, h1.2.2.2, fun s' hd => by rw [hs] at hd; cases hd⟩
    | .isTrue h1, .oob => isTrue ⟨h1.1, h1.2.1, h1.2.2.1, h1.2.2.2, fun s' hd => by rw [hs] at hd; cases hd⟩
    | .isTrue h1, .abort => isTrue ⟨h1.1, h1.2.1, h1.2.2.1, h1.2.2.2, fun s' hd => by rw [hs] at hd; cases hd⟩
    | .isTrue h1, .stuck => isTrue ⟨h1.1, h1.2.1, h1.2.2.1, h1.2.2.2, fun s' hd => by rw [hs] at hd; cases hd⟩

/-- The times of the periodic rounds. -/
def bsdRoundTimes (h : List (Int × BsdEvent)) : List Int := (h.filter (fun x => bsdIsTimeout x.2)).map (·.1)

/-- The frames handed to the privileged process for transmission, with the time. -/
def bsdSentAt (c : Conf) : List (Int × BsdEvent) → Timed → List (Int × Tx)
  | [], _ => []
  | (t, e) :: h, s =>
    match bsdTimedStep c s t e with
    | .ok s' => (s'.daemon.tx.drop s.daemon.tx.length).map (fun x => (t, x)) ++ bsdSentAt c h s'
    | _ => []

/-- The kernel answers consistently, knows at least one usable interface and all those of the command line, and not more than ten VLANs. -/
structure BsdKernelAnswers (c : Conf) (k : BsdKernel) (addrs : List BIfAddr) : Prop where
  sane : BsdSane k
  listed : k.ifaddrs = some addrs
  count : if c.names = [] then bsdUsables k addrs ≠ [] else ∀ name ∈ c.names, ∃ e ∈ bsdUsables k addrs, e.name = name ∧ e.kind ≠ -1
  len : (bsdUsables k addrs).length < 65536
  vlans : ((bsdUsables k addrs).filter (fun e => e.kind = -1)).length ≤ 10

/-- In every round protocol `p` is due on interface `i`, whether or not it is received there. -/
def BsdAlwaysDue (c : Conf) (i : Nat) (p : Proto) (h : List (Int × BsdEvent)) : Prop :=
  ∀ x ∈ h, ∀ k m now, x.2 = .timer k m now → ∃ addrs, BsdKernelAnswers c k addrs ∧ BsdDue c k (bsdUsables k addrs) (fun _ => 0) i p

/-- The entry was there, and marked as in use by a client, at the end of the last round. -/
def BsdInUse (c : Conf) (hist : List (Int × BsdEvent)) (s0 : Timed) (x : Entry) : Prop :=
  ∃ pre post s1, hist = pre ++ post ∧ bsdRoundTimes post = [] ∧ bsdTimedRun c pre s0 = .ok s1 ∧
    ∃ y ∈ s1.daemon.child.queue, y.lock ≠ 0 ∧ neighbour y = neighbour x ∧ info y = info x

/-! ## Systems of either kind -/

/-- The clock and the message, if the event is a reception. -/
def messageOf : Event → List (Option Int × RawMsg)
  | .recv now r => [(now, r)]
  | _ => []

def bsdMessageOf : BsdEvent → List (Option Int × RawMsg)
  | .recv now r => [(now, r)]
  | _ => []

/-- The messages the unprivileged process reads: when, the clock, the message, and the interfaces it knows at that moment. -/
def receptions (c : Conf) : List (Int × Event) → Timed → List (Int × Option Int × RawMsg × List Netif)
  | [], _ => []
  | (t, e) :: h, s =>
    (messageOf e).map (fun x => (t, x.1, x.2, s.daemon.child.netifs)) ++
    match timedStep c s t e with
    | .ok s' => receptions c h s'
    | _ => []

/-- The same on FreeBSD. -/
def bsdReceptions (c : Conf) : List (Int × BsdEvent) → Timed → List (Int × Option Int × RawMsg × List Netif)
  | [], _ => []
  | (t, e) :: h, s =>
    (bsdMessageOf e).map (fun x => (t, x.1, x.2, s.daemon.child.netifs)) ++
    match bsdTimedStep c s t e with
    | .ok s' => bsdReceptions c h s'
    | _ => []

/-- A system since its start: the first round, and what happened afterwards. -/
inductive Uptime where
  | linux (s : Station) (t0 : Int) (k : Kernel) (m : Media) (h : List (Int × Event))
  | bsd (s : BsdStation) (t0 : Int) (k : BsdKernel) (m : BsdMedia) (h : List (Int × BsdEvent))

/-- When it was started. -/
def Uptime.since : Uptime → Int
  | .linux _ t0 _ _ _ => t0
  | .bsd _ t0 _ _ _ => t0

def Uptime.conf : Uptime → Conf
  | .linux s _ _ _ _ => s.conf
  | .bsd s _ _ _ _ => s.conf

/-- Its name. -/
def Uptime.hostname : Uptime → Bytes
  | .linux s _ _ _ _ => s.start.sys.hostname
  | .bsd s _ _ _ _ => s.start.sys.hostname

/-- It did start, and its kernel answers consistently or not at all. -/
def Uptime.Runs : Uptime → Prop
  | .linux s _ k _ h => s.Runs ∧ Sane k ∧ ∀ x ∈ h, SaneEvent x.2
  | .bsd s _ k _ h => s.Runs ∧ BsdSane k ∧ ∀ x ∈ h, BsdSaneEvent x.2

/-- Its event loop is never late by more than `late` seconds. -/
def Uptime.Punctual (late : Int) : Uptime → Prop
  | .linux s t0 k m h => Spec.Punctual s.conf late t0 ((t0, .timer k m t0) :: h) ⟨s.start, none⟩
  | .bsd s t0 k m h => BsdPunctual s.conf late t0 ((t0, .timer k m t0) :: h) ⟨s.start, none⟩

instance (late : Int) (u : Uptime) : Decidable (u.Punctual late) := by cases u <;> unfold Uptime.Punctual <;> infer_instance

/-- In every round protocol `p` is due on interface `i`. -/
def Uptime.Advertises (i : Nat) (p : Proto) : Uptime → Prop
  | .linux s t0 k m h => AlwaysDue s.conf i p ((t0, .timer k m t0) :: h)
  | .bsd s t0 k m h => BsdAlwaysDue s.conf i p ((t0, .timer k m t0) :: h)

/-- What came of it. -/
def Uptime.final : Uptime → Res Timed
  | .linux s t0 k m h => timedRun s.conf ((t0, .timer k m t0) :: h) ⟨s.start, none⟩
  | .bsd s t0 k m h => bsdTimedRun s.conf ((t0, .timer k m t0) :: h) ⟨s.start, none⟩

/-- The frames it has sent. -/
def Uptime.sent : Uptime → List (Int × Tx)
  | .linux s t0 k m h => sentAt s.conf ((t0, .timer k m t0) :: h) ⟨s.start, none⟩
  | .bsd s t0 k m h => bsdSentAt s.conf ((t0, .timer k m t0) :: h) ⟨s.start, none⟩

/-- The messages it has read. -/
def Uptime.heard : Uptime → List (Int × Option Int × RawMsg × List Netif)
  | .linux s t0 k m h => receptions s.conf ((t0, .timer k m t0) :: h) ⟨s.start, none⟩
  | .bsd s t0 k m h => bsdReceptions s.conf ((t0, .timer k m t0) :: h) ⟨s.start, none⟩

/-- The times of its events. -/
def Uptime.times : Uptime → List Int
  | .linux _ t0 _ _ h => t0 :: h.map (·.1)
  | .bsd _ t0 _ _ h => t0 :: h.map (·.1)

/-- The reception of a frame on interface `j` with the addresses `macs` (destination and source). -/
def Crossing (j : Nat) (macs : Bytes × Bytes) (x : Int × Option Int × RawMsg × List Netif) : Prop :=
  x.2.2.1.index = j ∧ (x.2.2.1.msg.take 6, (x.2.2.1.msg.drop 6).take 6) = macs

instance (j : Nat) (macs : Bytes × Bytes) (x : Int × Option Int × RawMsg × List Netif) : Decidable (Crossing j macs x) := by
  unfold Crossing; infer_instance

end Ladvd.Spec
