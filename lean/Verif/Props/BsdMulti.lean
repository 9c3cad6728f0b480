import Verif.Lemmas.BsdMulti
import Verif.Props.Parent
/-!
# C69: multicast groups on FreeBSD
-/

namespace Ladvd.Props

open Spec

/-- The groups of an interface after any history of opening and closing interfaces: a group that belongs to a protocol enabled is joined exactly while
the interface is open, all other groups stay as they were. -/
theorem C69_groups (c : Conf) (hl : (c.opts.has OPT_RECV && !c.opts.has OPT_DEBUG) = true) (g0 : Bytes → List Bytes) (hg : ∀ n, (g0 n).Nodup)
    (es : List (Bool × Bytes)) (name : Bytes) (x : Bytes) :
    x ∈ es.foldl (bsdMembership c) g0 name ↔
      match (if x ∈ bsdGroups c.enabled (c.opts.has OPT_AUTO) then lastEvent name es else none) with
      | some isOpen => isOpen = true
      | none => x ∈ g0 name := by
  have hd : c.opts.has OPT_DEBUG = false := by
    rw [Bool.and_eq_true, Bool.not_eq_true'] at hl
    exact hl.2
  suffices h : (es.foldl (bsdMembership c) g0 name).Nodup ∧ (x ∈ es.foldl (bsdMembership c) g0 name ↔
      match (if x ∈ bsdGroups c.enabled (c.opts.has OPT_AUTO) then lastEvent name es else none) with
      | some isOpen => isOpen = true
      | none => x ∈ g0 name) from h.2
  suffices h : ∀ n es, List.length es = n → (es.foldl (bsdMembership c) g0 name).Nodup ∧ (x ∈ es.foldl (bsdMembership c) g0 name ↔
      match (if x ∈ bsdGroups c.enabled (c.opts.has OPT_AUTO) then lastEvent name es else none) with
      | some isOpen => isOpen = true
      | none => x ∈ g0 name) from h _ es rfl
  intro n
  induction n with
  | zero =>
    intro es hn
    rw [List.length_eq_zero_iff.mp hn]
    refine ⟨hg name, ?_⟩
    have : (if x ∈ bsdGroups c.enabled (c.opts.has OPT_AUTO) then lastEvent name [] else none) = none := by split <;> rfl
    rw [this]
    rfl
  | succ n ih =>
    intro es hn
    obtain ⟨es, e, rfl⟩ : ∃ es' e, es = es' ++ [e] := ⟨es.dropLast, es.getLast (by rintro rfl; cases hn), (List.dropLast_concat_getLast _).symm⟩
    obtain ⟨ih1, ih2⟩ := ih es (by simpa using hn)
    rw [List.foldl_append, List.foldl_cons, List.foldl_nil]
    generalize es.foldl (bsdMembership c) g0 = g at ih1 ih2
    have hlast : lastEvent name (es ++ [e]) = if e.2 = name then some e.1 else lastEvent name es := by
      unfold lastEvent
      rw [List.filter_append]
      by_cases he : e.2 = name
      · simp [he]
      · simp [he]
    have hm : bsdMembership c g e name = if name = e.2 then bsdMulti c (if e.1 then 1 else 0) (g name) else g name := by
      unfold bsdMembership listens
      rw [if_pos hl]
    rw [hm, hlast]
    by_cases he : name = e.2
    · rw [if_pos he, if_pos he.symm]
      unfold bsdMulti
      rw [hd, if_neg (by simp), bsdMultiLoop_eq]
      have hop : decide ((if e.1 then 1 else 0) ≠ 0) = e.1 := by cases e.1 <;> rfl
      rw [hop]
      refine ⟨bsdMember_nodup _ _ _ ih1, ?_⟩
      cases hb : e.1 with
      | true =>
        rw [bsdMember_add]
        by_cases hx : x ∈ bsdGroups c.enabled (c.opts.has OPT_AUTO)
        · simp [hx]
        · rw [if_neg hx] at ih2 ⊢
          simp only [hx, or_false]
          exact ih2
      | false =>
        rw [bsdMember_del _ _ ih1]
        by_cases hx : x ∈ bsdGroups c.enabled (c.opts.has OPT_AUTO)
        · simp [hx]
        · rw [if_neg hx] at ih2 ⊢
          simp only [hx, not_false_eq_true, and_true]
          exact ih2
    · rw [if_neg he, if_neg (show ¬ e.2 = name from fun h => he h.symm)]
      exact ⟨ih1, ih2⟩

/-- The groups, as a set: EDP has no multicast address. -/
theorem C69_enabled (on : Proto → Bool) (auto : Bool) (g : Bytes) : g ∈ bsdGroups on auto ↔
    (auto ∨ on .lldp) ∧ g = [0x01, 0x80, 0xc2, 0x00, 0x00, 0x0e] ∨ (auto ∨ on .cdp ∨ on .cdp1) ∧ g = [0x01, 0x00, 0x0c, 0xcc, 0xcc, 0xcc] ∨
    (auto ∨ on .fdp) ∧ g = [0x01, 0xe0, 0x52, 0xcc, 0xcc, 0xcc] ∨ (auto ∨ on .ndp) ∧ g = [0x01, 0x00, 0x81, 0x00, 0x01, 0x00] := by
  unfold bsdGroups
  rw [List.mem_filter, C27_groups]
  constructor
  · rintro ⟨h | h | h | h | h, hne⟩
    · exact .inl h
    · exact .inr (.inl h)
    · rw [h.2] at hne; cases hne
    · exact .inr (.inr (.inl h))
    · exact .inr (.inr (.inr h))
  · rintro (h | h | h | h)
    · exact ⟨.inl h, by rw [h.2]; rfl⟩
    · exact ⟨.inr (.inl h), by rw [h.2]; rfl⟩
    · exact ⟨.inr (.inr (.inr (.inl h))), by rw [h.2]; rfl⟩
    · exact ⟨.inr (.inr (.inr (.inr h))), by rw [h.2]; rfl⟩

/-- Nothing is changed if the daemon does not receive, and in a debug run. -/
theorem C69_send_only (c : Conf) (hl : (c.opts.has OPT_RECV && !c.opts.has OPT_DEBUG) = false) (g0 : Bytes → List Bytes) (es : List (Bool × Bytes)) :
    es.foldl (bsdMembership c) g0 = g0 := by
  induction es with
  | nil => rfl
  | cons e es ih =>
    rw [List.foldl_cons]
    have : bsdMembership c g0 e = g0 := by
      unfold bsdMembership listens
      rw [hl, if_neg (by simp)]
    rw [this]; exact ih

/-- Once all interfaces are closed, as they are at the end of the daemon, they have the groups they had before it started, provided that none of the
daemon's own was among them. -/
theorem C69_restored_partial (c : Conf) (g0 : Bytes → List Bytes) (hg : ∀ n, (g0 n).Nodup) (es : List (Bool × Bytes)) (name : Bytes)
    (hc : lastEvent name es ≠ some true) (hown : ∀ x ∈ bsdGroups c.enabled (c.opts.has OPT_AUTO), x ∉ g0 name) (x : Bytes) :
    x ∈ es.foldl (bsdMembership c) g0 name ↔ x ∈ g0 name := by
  cases hl : (c.opts.has OPT_RECV && !c.opts.has OPT_DEBUG) with
  | false => rw [C69_send_only c hl]
  | true =>
    rw [C69_groups c hl g0 hg]
    by_cases hx : x ∈ bsdGroups c.enabled (c.opts.has OPT_AUTO)
    · rw [if_pos hx]
      cases hle : lastEvent name es with
      | none => rfl
      | some b =>
        cases b with
        | true => exact absurd hle hc
        | false => simp [hown x hx]
    · rw [if_neg hx]

/-- Settings for a receiving daemon with LLDP, CDP and EDP. -/
def multiConf : Conf := { opts := 1 <<< OPT_RECV, names := [], enabled := fun p => p == .lldp || p == .cdp || p == .cdp1 || p == .edp }

example : [(true, lit "em0"), (true, lit "em1"), (false, lit "em1")].foldl (bsdMembership multiConf) (fun _ => [[1, 0, 0x5e, 0, 0, 1]]) (lit "em0") =
    [[1, 0, 0x5e, 0, 0, 1], [0x01, 0x80, 0xc2, 0x00, 0x00, 0x0e], [0x01, 0x00, 0x0c, 0xcc, 0xcc, 0xcc]] ∧
    [(true, lit "em0"), (true, lit "em1"), (false, lit "em1")].foldl (bsdMembership multiConf) (fun _ => [[1, 0, 0x5e, 0, 0, 1]]) (lit "em1") =
    [[1, 0, 0x5e, 0, 0, 1]] := by decide +kernel

/-- `C69_send_only`: without reception no group is joined. -/
example : [(true, lit "em0")].foldl (bsdMembership { multiConf with opts := 1 <<< OPT_SEND }) (fun _ => [[1, 0, 0x5e, 0, 0, 1]]) (lit "em0") =
    [[1, 0, 0x5e, 0, 0, 1]] := by decide +kernel

/-- `C69_restored_partial`: `em1` is closed at the end, and the group it had is not one of the daemon's. -/
example : lastEvent (lit "em1") [(true, lit "em0"), (true, lit "em1"), (false, lit "em1")] ≠ some true ∧
    ∀ x ∈ bsdGroups multiConf.enabled (multiConf.opts.has OPT_AUTO), x ∉ [[1, 0, 0x5e, 0, 0, 1]] := by decide +kernel

/-- A group that another program had joined is left when the daemon closes the interface. -/
theorem C69_foreign : [(true, lit "em0"), (false, lit "em0")].foldl (bsdMembership multiConf) (fun _ => [[0x01, 0x80, 0xc2, 0x00, 0x00, 0x0e]])
    (lit "em0") = [] := by decide +kernel

end Ladvd.Props
