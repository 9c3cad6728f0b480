import Verif.Props.Flood
import Verif.Props.Descr
/-!
# C32: the number of neighbours in a description wraps
-/

namespace Ladvd.Props

open Spec

/-- The text for `n` neighbours, the only one of them described by the table. -/
def wrapped (useDescr : Bool) (q : List Entry) (i : Nat) (n : Nat) : Bytes :=
  match n with
  | 0 => []
  | 1 =>
    match hostOf q i, portOf useDescr q i with
    | some h, some p => lit "connected to " ++ h ++ lit " (" ++ shortPort p ++ lit ")"
    | some h, none => lit "connected to " ++ h
    | none, _ => []
  | n => lit "connected to " ++ Spec.decimal n ++ lit " peers"

/-- Without a bound on the number of neighbours: the text is the one for that number modulo 65536, for one neighbour made from the names of all. -/
theorem C32_modulo (o : Opts) (l : List Netif) (ops : List ChildOp) (st : Child) (h : childRun o { netifs := l } ops = .ok st) (i : Nat)
    (hz : [0, 0, 0, 0, 0, 0] ∉ stations st.queue i) :
    descrText o i st.queue = (wrapped (o.has OPT_USEDESCR) st.queue i ((stations st.queue i).length % 65536)).take 63 := by
  have hg := C18_grouped o l ops st h
  have hgk := grouped_onInterface hg i
  have hn : changes [0, 0, 0, 0, 0, 0] ((onInterface st.queue i).map (fun e => (e.msg.drop 6).take 6)) =
      (stations st.queue i).length := by
    unfold stations at hz ⊢
    cases hs : (onInterface st.queue i).map (fun e => (e.msg.drop 6).take 6) with
    | nil => rfl
    | cons k ks =>
      rw [hs] at hz hgk
      have hk : [0, 0, 0, 0, 0, 0] ≠ k := by
        intro hc
        apply hz
        rw [List.mem_eraseDups]
        simp [hc]
      rw [changes, if_neg hk, changes_eraseDups ks k hgk]
  unfold descrText wrapped
  rw [descr_fold]
  simp only [Option.none_or, hn, Nat.zero_add]
  generalize (stations st.queue i).length = n
  rw [show (if n = 0 then 0 else n % 65536) = n % 65536 by split <;> simp_all]
  have hb : n % 65536 < 65536 := Nat.mod_lt _ (by decide)
  generalize n % 65536 = n at hb
  match n with
  | 0 => simp
  | 1 =>
    simp only [if_neg (show ¬ (1 = 0) by decide), if_true]
    cases hostOf st.queue i <;> cases portOf (o.has OPT_USEDESCR) st.queue i <;> simp [snprintf64, C31_abbr]
  | n + 2 =>
    rw [if_neg (by omega), if_neg (by omega), decimal16_eq hb]
    rfl

theorem nodup_eraseDups {α} [BEq α] [LawfulBEq α] (l : List α) : l.eraseDups.Nodup := by
  induction hl : l.length using Nat.strongRecOn generalizing l with
  | ind n ih =>
    cases l with
    | nil => exact List.nodup_nil
    | cons a l =>
      rw [List.eraseDups_cons, List.nodup_cons]
      refine ⟨fun h => ?_, ih _ ?_ _ rfl⟩
      · rw [List.mem_eraseDups, List.mem_filter] at h
        simp at h
      · have := List.length_filter_le (fun b => !b == a) l
        rw [List.length_cons] at hl
        omega

/-- Free addresses. -/
theorem free_addresses (used : List Bytes) (N : Nat) (h : N + used.length ≤ 2 ^ 40) :
    ∃ srcs : List Bytes, srcs.length = N ∧ srcs.Nodup ∧ ∀ s ∈ srcs, s.length = 6 ∧ s ∉ used ∧ s ≠ [0, 0, 0, 0, 0, 0] := by
  have hall : ((List.range (N + used.length)).map addrOf).Nodup := by
    rw [List.Nodup, List.pairwise_map]
    refine List.nodup_range.imp_of_mem ?_
    intro a b ha hb hne he
    have := List.mem_range.mp ha
    have := List.mem_range.mp hb
    exact hne (addrOf_inj (by omega) (by omega) he)
  have := avoid (u := used) hall
  rw [List.length_map, List.length_range] at this
  refine ⟨(((List.range (N + used.length)).map addrOf).filter (fun x => decide (x ∉ used))).take N, by rw [List.length_take]; omega,
    (hall.sublist List.filter_sublist).sublist (List.take_sublist _ _), fun s hs => ?_⟩
  obtain ⟨h1, h2⟩ := List.mem_filter.mp (List.mem_of_mem_take hs)
  obtain ⟨n, -, rfl⟩ := List.mem_map.mp h1
  refine ⟨rfl, by simpa using h2, fun h => ?_⟩
  injection h with h
  exact absurd h (by decide)

theorem mem_stations {q : List Entry} {i : Nat} {s : Bytes} : s ∈ stations q i ↔ ∃ p d, (lookup q (i, p, d, s)).isSome := by
  unfold stations onInterface lookup
  rw [List.mem_eraseDups, List.mem_map]
  constructor
  · rintro ⟨e, he, rfl⟩
    obtain ⟨he, hi⟩ := List.mem_filter.mp he
    refine ⟨e.proto, e.msg.take 6, ?_⟩
    rw [Option.isSome_map, List.find?_isSome]
    exact ⟨e, he, by have : e.index = i := by simpa using hi
                     simp [neighbour, this]⟩
  · rintro ⟨p, d, h⟩
    rw [Option.isSome_map, List.find?_isSome] at h
    obtain ⟨e, he, h⟩ := h
    have h : neighbour e = (i, p, d, s) := by simpa using h
    unfold neighbour at h
    injection h with h1 h; injection h with h2 h; injection h with h3 h4
    exact ⟨e, List.mem_filter.mpr ⟨he, by simp [h1]⟩, h4⟩

/-- **C32**, what is missing: at any time in the life of a daemon, frames from a number of stations that reach an interface within one second, so that 65536 or a multiple of
it are known there, leave it without a description: as if nobody was there. -/
theorem C32_wraps (c : Conf) (d0 d : Daemon) (h0 : d0.child = {}) (es : List Event) (h : daemonRun c es d0 = .ok d) (j : Nat)
    (hj : (d.child.netifs.find? (fun n => n.index == j)).isSome) (hz : [0, 0, 0, 0, 0, 0] ∉ stations d.child.queue j)
    (hN : 65536 + d.child.netifs.length + d.child.queue.length ≤ 2 ^ 40) (t : Int) :
    ∃ fl : List Event, fl.length ≤ 65536 ∧ (∀ e ∈ fl, Captured e ∧ ∃ r, e = .recv (some t) r) ∧
      ∃ d', daemonRun c (es ++ fl) d0 = .ok d' ∧ 65536 ≤ (stations d'.child.queue j).length ∧ descrText c.opts j d'.child.queue = [] := by
  obtain ⟨srcs, hlen, hnd, hsrc⟩ := free_addresses (d.child.netifs.map (·.hwaddr) ++ d.child.queue.map (fun e => (e.msg.drop 6).take 6))
    (65536 - (stations d.child.queue j).length % 65536) (by simp only [List.length_append, List.length_map]; omega)
  have hown : ∀ n ∈ d.child.netifs, n.hwaddr ∉ srcs := fun n hn hm => (hsrc _ hm).2.1 (List.mem_append_left _ (List.mem_map_of_mem hn))
  have hnew : ∀ e ∈ d.child.queue, (e.msg.drop 6).take 6 ∉ srcs :=
    fun e he hm => (hsrc _ hm).2.1 (List.mem_append_right _ (List.mem_map_of_mem (f := fun e : Entry => (e.msg.drop 6).take 6) he))
  obtain ⟨subif, hj⟩ := Option.isSome_iff_exists.mp hj
  obtain ⟨ops, ho, -⟩ := run_ops h
  rw [h0] at ho
  obtain ⟨d', hd', hi', -, hl⟩ := flood_run c j t subif d.child.netifs hj srcs d (inv_run (inv_init []) ho) rfl
    (fun s hs => ⟨(hsrc s hs).1, fun n hn he => hown n hn (he ▸ hs)⟩)
  have hrun : daemonRun c (es ++ flood j t srcs) d0 = .ok d' := by rw [daemonRun_append, h]; exact hd'
  have hmem : ∀ s, s ∈ stations d'.child.queue j ↔ s ∈ stations d.child.queue j ++ srcs := by
    intro s
    rw [List.mem_append, mem_stations, mem_stations]
    constructor
    · rintro ⟨p, dst, hs⟩
      rw [hl] at hs
      split at hs
      · next hm =>
        obtain ⟨s', hs', he⟩ := List.mem_map.mp hm
        injection he with _ he; injection he with _ he; injection he with _ he
        exact Or.inr (he ▸ hs')
      · exact Or.inl ⟨p, dst, hs⟩
    · rintro (⟨p, dst, hs⟩ | hs)
      · refine ⟨p, dst, ?_⟩
        rw [hl]
        split
        · rfl
        · exact hs
      · refine ⟨4, NDP_DST, ?_⟩
        rw [hl, if_pos (List.mem_map.mpr ⟨s, hs, rfl⟩)]
        rfl
  have hdis : (stations d.child.queue j ++ srcs).Nodup := by
    rw [List.nodup_append]
    refine ⟨nodup_eraseDups _, hnd, ?_⟩
    rintro a ha b hb rfl
    unfold stations onInterface at ha
    rw [List.mem_eraseDups] at ha
    obtain ⟨e, he, rfl⟩ := List.mem_map.mp ha
    exact hnew e (List.mem_filter.mp he).1 hb
  have hcount : (stations d'.child.queue j).length = (stations d.child.queue j).length + srcs.length := by
    have l1 := List.Nodup.length_le_of_subset (l₁ := stations d'.child.queue j) (nodup_eraseDups _) (fun s hs => (hmem s).mp hs)
    have l2 := hdis.length_le_of_subset (fun s hs => (hmem s).mpr hs)
    rw [List.length_append] at l1 l2
    omega
  refine ⟨flood j t srcs, by rw [flood, List.length_map]; omega, ?_, d', hrun, by omega, ?_⟩
  · intro e he
    obtain ⟨s, hs, rfl⟩ := List.mem_map.mp he
    exact ⟨ndpFrom_captured (hsrc s hs).1 j (some t), _, rfl⟩
  · obtain ⟨ops', ho', -⟩ := run_ops hrun
    rw [h0] at ho'
    rw [C32_modulo c.opts [] ops' d'.child ho' j (by
      rw [hmem, List.mem_append]
      rintro (h | h)
      · exact hz h
      · exact (hsrc _ h).2.2 rfl), hcount, hlen]
    rw [show ((stations d.child.queue j).length + (65536 - (stations d.child.queue j).length % 65536)) % 65536 = 0 by omega]
    rfl

/-- A daemon with an interface and one neighbour, whose description such a flood clears. -/
example : dSys.child = {} ∧
    (match daemonRun cRecv [.timer sampleKernel {} 10, ndpEvent 11 76] dSys with
      | .ok d => some ((d.child.netifs.find? (fun n => n.index == 3)).isSome, (onInterface d.child.queue 3).map (fun e => (e.msg.drop 6).take 6), d.child.netifs.length, d.child.queue.length)
      | _ => none) = some (true, [[2, 0, 0, 0, 0, 76]], 6, 1) := by
  exact ⟨rfl, by decide +kernel⟩

end Ladvd.Props
