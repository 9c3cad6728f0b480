import Verif.Props.Queue
import Verif.Lemmas.CdpDecode
import Verif.Spec.Output
/-!
# C31, C32: port names and interface descriptions
-/

namespace Ladvd.Props

open Spec

/-! ## C31 Port name abbreviation -/

/-- The media words. -/
def mediaWords : List Bytes := [lit "FastEthernet", lit "GigabitEthernet", lit "TenGigabitEthernet"]

theorem prefix_cases (w s : Bytes) : w.isPrefixOf s = true ↔ ∃ r, s = w ++ r := by
  rw [List.isPrefixOf_iff_prefix]
  constructor
  · rintro ⟨r, h⟩; exact ⟨r, h.symm⟩
  · rintro ⟨r, h⟩; exact ⟨r, h.symm⟩

/-- No media word is the beginning of another name than its own. -/
theorem media_head (w r : Bytes) (h : w ∈ mediaWords) : ∀ w' ∈ mediaWords, w'.isPrefixOf (w ++ r) = true → w' = w := by
  have key : ∀ w ∈ mediaWords, ∀ w' ∈ mediaWords, (w'.head? = w.head? → w' = w) ∧ w ≠ [] ∧ w' ≠ [] := by decide
  intro w' hw' hp
  obtain ⟨r', hr'⟩ := (prefix_cases _ _).mp hp
  obtain ⟨k1, k2, k3⟩ := key w h w' hw'
  apply k1
  have e1 : (w ++ r).head? = w.head? := by cases w with
    | nil => exact absurd rfl k2
    | cons a w => rfl
  have e2 : (w' ++ r').head? = w'.head? := by cases w' with
    | nil => exact absurd rfl k3
    | cons a w => rfl
  rw [← e1, ← e2, hr']

/-- A long media word at the beginning is replaced by its first two letters, everything behind it is kept. -/
theorem C31_media (w rest : Bytes) (h : w ∈ [lit "FastEthernet", lit "GigabitEthernet", lit "TenGigabitEthernet"]) :
    portnameAbbr (w ++ rest) = w.take 2 ++ rest := by
  have hm := media_head w rest h
  have hlen : ∀ w ∈ mediaWords, 2 ≤ w.length := by decide
  have hl := hlen w h
  have hloop : ∀ ms : List Bytes, (∀ x ∈ ms, x ∈ mediaWords) → w ∈ ms → abbrLoop (w ++ rest) ms = some (w.take 2 ++ rest) := by
    intro ms
    induction ms with
    | nil => intro _ h; cases h
    | cons x ms ih =>
      intro hs hw
      rw [abbrLoop]
      by_cases hx : x.isPrefixOf (w ++ rest) = true
      · have : x = w := hm x (hs x (by simp)) hx
        rw [if_pos hx, this, List.take_append_of_le_length hl, List.drop_left]
      · rw [if_neg hx]
        have hne : x ≠ w := by rintro rfl; exact hx ((prefix_cases _ _).mpr ⟨rest, rfl⟩)
        rcases List.mem_cons.mp hw with h | h
        · exact absurd h.symm hne
        · exact ih (fun y hy => hs y (by simp [hy])) h
  unfold portnameAbbr
  rw [hloop mediaTypes (fun x hx => hx) h]

theorem toLower_head (w : Bytes) (h : w.map toLower = lit "ethernet") (rest : Bytes) :
    ∀ w' ∈ mediaWords, w'.isPrefixOf (w ++ rest) = false := by
  intro w' hw'
  rw [Bool.eq_false_iff]
  intro hp
  obtain ⟨r, hr⟩ := (prefix_cases _ _).mp hp
  have key : ∀ w' ∈ mediaWords, w'.head?.map toLower ≠ some 0x65 ∧ w' ≠ [] := by decide
  obtain ⟨k1, k2⟩ := key w' hw'
  apply k1
  cases w with
  | nil => exfalso; revert h; decide
  | cons a w =>
    cases w' with
    | nil => exact absurd rfl k2
    | cons b w' =>
      simp only [List.cons_append, List.cons.injEq] at hr
      have h1 : toLower a = 0x65 := by
        have := congrArg List.head? h
        simpa [lit] using this
      simp [← hr.1, h1]

theorem toLower_iff (a c : UInt8) (h : c ∈ lit "ethernet") : toLower a = c ↔ a = c ∨ a = c - 0x20 := by
  have key : ∀ m : Fin 256, ∀ c ∈ lit "ethernet", (toLower (UInt8.ofNat m) = c ↔ UInt8.ofNat m = c ∨ UInt8.ofNat m = c - 0x20) := by decide +kernel
  have := key ⟨a.toNat, a.toNat_lt⟩ c h
  simpa only [UInt8.ofNat_toNat] using this

theorem isEthernet_iff (w : Bytes) : isEthernet w = true ↔ w.map toLower = lit "ethernet" := by
  unfold isEthernet
  rw [show lit "ethernet" = [0x65, 0x74, 0x68, 0x65, 0x72, 0x6e, 0x65, 0x74] by decide, show lit "ETHERNET" = [0x45, 0x54, 0x48, 0x45, 0x52, 0x4e, 0x45, 0x54] by decide]
  match w with
  | [a, b, c, d, e, f, g, h] =>
    simp only [List.map_cons, List.map_nil, List.cons.injEq, and_true, List.length_cons, List.length_nil, List.zip_cons_cons, List.zip_nil_left, List.all_cons, List.all_nil,
      Bool.and_eq_true, Bool.or_eq_true, beq_iff_eq, true_and]
    simp (discharger := decide) only [toLower_iff]
    exact Iff.rfl
  | [] | [_] | [_, _] | [_, _, _] | [_, _, _, _] | [_, _, _, _, _] | [_, _, _, _, _, _] | [_, _, _, _, _, _, _] =>
    simp
  | _ :: _ :: _ :: _ :: _ :: _ :: _ :: _ :: _ :: _ => simp

theorem isEthernet_prefix (s : Bytes) : isEthernet (s.take 8) = true ↔ lit "ethernet" <+: s.map toLower := by
  rw [isEthernet_iff]
  constructor
  · intro h
    exact ⟨(s.drop 8).map toLower, by rw [← h, ← List.map_append, List.take_append_drop]⟩
  · rintro ⟨r, hr⟩
    rw [List.map_take, ← hr]
    rfl

/-- The word "ethernet" in any case is replaced by its first three letters, everything behind it is kept. -/
theorem C31_ethernet (w rest : Bytes) (h : isEthernet w) :
    portnameAbbr (w ++ rest) = w.take 3 ++ rest := by
  have h := (isEthernet_iff w).mp h
  have hm := toLower_head w h rest
  have hlen : w.length = 8 := by
    have := congrArg List.length h
    simpa [lit] using this
  unfold portnameAbbr
  have hn : abbrLoop (w ++ rest) mediaTypes = none := by
    have : ∀ ms : List Bytes, (∀ x ∈ ms, x ∈ mediaWords) → abbrLoop (w ++ rest) ms = none := by
      intro ms
      induction ms with
      | nil => intro _; rfl
      | cons x ms ih =>
        intro hs
        rw [abbrLoop, if_neg (by simp [hm x (hs x (by simp))])]
        exact ih (fun y hy => hs y (by simp [hy]))
    exact this _ (fun x hx => hx)
  rw [hn]
  simp only
  rw [if_pos]
  · rw [List.take_append_of_le_length (by omega)]
    rw [show (lit "ethernet").length = w.length by rw [hlen]; rfl, List.drop_left]
  · rw [prefix_cases]
    exact ⟨rest.map toLower, by rw [List.map_append, h]⟩

theorem abbrLoop_none {s : Bytes} {ms : List Bytes} (h : ∀ w ∈ ms, ¬ w <+: s) : abbrLoop s ms = none := by
  induction ms with
  | nil => rfl
  | cons x ms ih =>
    rw [abbrLoop, if_neg]
    · exact ih (fun y hy => h y (by simp [hy]))
    · rw [List.isPrefixOf_iff_prefix]; exact h x (by simp)

/-- Names without a media word at the beginning are unchanged. -/
theorem C31_other (s : Bytes) (h1 : ∀ w ∈ [lit "FastEthernet", lit "GigabitEthernet", lit "TenGigabitEthernet"], ¬ w <+: s)
    (h2 : ¬ isEthernet (s.take 8)) : portnameAbbr s = s := by
  rw [isEthernet_prefix] at h2
  unfold portnameAbbr
  rw [abbrLoop_none (show ∀ w ∈ mediaTypes, ¬ w <+: s from h1)]
  simp only
  rw [if_neg]
  rw [List.isPrefixOf_iff_prefix]; exact h2

/-- In every case the result is the name without a part in the middle that starts behind at least two characters; it is
never longer than the name. -/
theorem C31_shortens (s : Bytes) :
    (portnameAbbr s).length ≤ s.length ∧
    ∃ a b c, s = a ++ b ++ c ∧ portnameAbbr s = a ++ c ∧ (b ≠ [] → 2 ≤ a.length) := by
  suffices h : ∃ a b c, s = a ++ b ++ c ∧ portnameAbbr s = a ++ c ∧ (b ≠ [] → 2 ≤ a.length) by
    refine ⟨?_, h⟩
    obtain ⟨a, b, c, h1, h2, _⟩ := h
    have e1 := congrArg List.length h1
    have e2 := congrArg List.length h2
    simp only [List.length_append] at e1 e2
    omega
  by_cases h1 : ∃ w ∈ mediaWords, w <+: s
  · obtain ⟨w, hw, rest, hr⟩ := h1
    have hlen : ∀ w ∈ mediaWords, 2 ≤ w.length := by decide
    have := hlen w hw
    refine ⟨w.take 2, w.drop 2, rest, ?_, ?_, ?_⟩
    · rw [List.take_append_drop, hr]
    · rw [← hr]; exact C31_media w rest hw
    · intro _; rw [List.length_take]; omega
  · by_cases h2 : isEthernet (s.take 8)
    · have hw := h2
      obtain ⟨r, hr⟩ := (isEthernet_prefix s).mp h2
      have hl : 8 ≤ s.length := by
        have := congrArg List.length hr
        simp [lit] at this
        omega
      refine ⟨(s.take 8).take 3, (s.take 8).drop 3, s.drop 8, ?_, ?_, ?_⟩
      · rw [List.take_append_drop, List.take_append_drop]
      · conv => lhs; rw [← List.take_append_drop 8 s]
        exact C31_ethernet _ _ hw
      · intro _; simp; omega
    · refine ⟨s, [], [], by simp, ?_, by simp⟩
      rw [C31_other s (fun w hw hp => h1 ⟨w, hw, hp⟩) h2]
      simp

/-- All cases together. -/
theorem C31_abbr (s : Bytes) : portnameAbbr s = shortPort s := by
  have key : ∀ w : Bytes, w <+: s → s = w ++ s.drop w.length := by
    rintro w ⟨r, rfl⟩
    simp
  have len : (lit "FastEthernet").length = 12 ∧ (lit "GigabitEthernet").length = 15 ∧ (lit "TenGigabitEthernet").length = 18 := by decide
  have two : (lit "FastEthernet").take 2 = lit "Fa" ∧ (lit "GigabitEthernet").take 2 = lit "Gi" ∧ (lit "TenGigabitEthernet").take 2 = lit "Te" := by
    decide
  unfold shortPort
  by_cases h1 : lit "FastEthernet" <+: s
  · rw [if_pos h1, key _ h1, C31_media _ _ (by simp), two.1, ← key _ h1, len.1]
  rw [if_neg h1]
  by_cases h2 : lit "GigabitEthernet" <+: s
  · rw [if_pos h2, key _ h2, C31_media _ _ (by simp), two.2.1, ← key _ h2, len.2.1]
  rw [if_neg h2]
  by_cases h3 : lit "TenGigabitEthernet" <+: s
  · rw [if_pos h3, key _ h3, C31_media _ _ (by simp), two.2.2, ← key _ h3, len.2.2]
  rw [if_neg h3]
  by_cases h4 : isEthernet (s.take 8)
  · rw [if_pos h4]
    have := C31_ethernet (s.take 8) (s.drop 8) h4
    rw [List.take_append_drop] at this
    rw [this, List.take_take]
    rfl
  · rw [if_neg h4]
    refine C31_other s ?_ h4
    simp only [List.mem_cons, List.not_mem_nil, or_false]
    rintro w (rfl | rfl | rfl) <;> assumption

example : portnameAbbr (lit "TenGigabitEthernet1/0/3") = lit "Te1/0/3" ∧ portnameAbbr (lit "eThErNet0") = lit "eTh0" ∧
    portnameAbbr (lit "ge-0/0/1") = lit "ge-0/0/1" ∧
    portnameAbbr (lit "FastEthernetstEthernet0") = lit "FastEthernet0" := by decide +kernel

/-! ## C32 Interface description reflects the neighbours -/

/-- The table entries of an interface. -/
def onInterface (q : List Entry) (i : Nat) : List Entry := q.filter (fun e => e.index == i)

/-- The distinct source addresses heard on an interface. -/
def stations (q : List Entry) (i : Nat) : List Bytes := ((onInterface q i).map (fun e => (e.msg.drop 6).take 6)).eraseDups

/-- The first host name announced, up to the first dot. -/
def hostOf (q : List Entry) (i : Nat) : Option Bytes :=
  ((onInterface q i).filterMap (·.peer.hostname)).head?.map (fun h => h.takeWhile (· ≠ 0x2e))

/-- The first port name (or description) announced. -/
def portOf (useDescr : Bool) (q : List Entry) (i : Nat) : Option Bytes :=
  ((onInterface q i).filterMap (fun e => if useDescr then e.peer.portdescr else e.peer.portname)).head?

/-- The description, before it is cut to 63 characters. -/
def description (useDescr : Bool) (q : List Entry) (i : Nat) : Bytes :=
  match (stations q i).length with
  | 0 => []
  | 1 =>
    match hostOf q i, portOf useDescr q i with
    | some h, some p => lit "connected to " ++ h ++ lit " (" ++ shortPort p ++ lit ")"
    | some h, none => lit "connected to " ++ h
    | none, _ => []
  | n => lit "connected to " ++ decimal n ++ lit " peers"

/-- How often the source address changes. -/
def changes : Bytes → List Bytes → Nat
  | _, [] => 0
  | p, k :: ks => if p = k then changes p ks else changes k ks + 1

theorem changes_eraseDups (ks : List Bytes) : ∀ p, GroupedK (p :: ks) → changes p ks + 1 = (p :: ks).eraseDups.length := by
  induction ks with
  | nil => intro p _; rfl
  | cons k ks ih =>
    intro p hg
    rw [changes]
    by_cases h : p = k
    · subst h
      rw [if_pos rfl, ih p (groupedK_sublist hg (List.sublist_cons_self _ _))]
      simp [List.eraseDups_cons]
    · rw [if_neg h, ih k (groupedK_sublist hg (List.sublist_cons_self _ _))]
      have hno : p ∉ k :: ks := by
        intro hc
        rcases List.mem_cons.mp hc with hc | hc
        · exact h hc
        · have : [p, k, p].Sublist (p :: k :: ks) := by
            apply List.Sublist.cons_cons
            apply List.Sublist.cons_cons
            exact List.singleton_sublist.mpr hc
          exact h (hg p k this).symm
      conv => rhs; rw [List.eraseDups_cons]
      have hf : (k :: ks).filter (fun b => !b == p) = k :: ks := by
        rw [List.filter_eq_self]
        intro b hb
        have : b ≠ p := fun hc => hno (hc ▸ hb)
        simp [this]
      rw [hf]
      rfl

theorem descrStep_eq (useDescr : Bool) (a : DescrAcc) (e : Entry) :
    descrStep useDescr e.index a e =
      { peer := a.peer.or (e.peer.hostname.map (fun h => h.takeWhile (· ≠ 0x2e))),
        suffix := a.suffix.or (if useDescr then e.peer.portdescr else e.peer.portname),
        paddr := (e.msg.drop 6).take 6,
        peers := if a.paddr = (e.msg.drop 6).take 6 then a.peers else (a.peers + 1) % 65536 } := by
  unfold descrStep
  rw [if_neg (by simp)]
  obtain ⟨p, s, d, n⟩ := a
  dsimp only
  generalize (if useDescr then e.peer.portdescr else e.peer.portname) = x
  generalize (e.msg.drop 6).take 6 = src
  generalize e.peer.hostname = hn
  by_cases hs : d = src
  · subst hs
    cases p <;> cases s <;> cases x <;> cases hn <;> simp
  · cases p <;> cases s <;> cases x <;> cases hn <;> simp [hs]

/-- The fold of `netif_descr`, over the entries of the interface. -/
theorem descr_fold (useDescr : Bool) (i : Nat) (q : List Entry) : ∀ a : DescrAcc,
    q.foldl (descrStep useDescr i) a =
      let srcs := (onInterface q i).map (fun e => (e.msg.drop 6).take 6)
      { peer := a.peer.or (hostOf q i),
        suffix := a.suffix.or (portOf useDescr q i),
        paddr := srcs.getLastD a.paddr,
        peers := if changes a.paddr srcs = 0 then a.peers else (a.peers + changes a.paddr srcs) % 65536 } := by
  induction q with
  | nil =>
    intro a
    obtain ⟨p, s, d, n⟩ := a
    simp [onInterface, hostOf, portOf, changes]
  | cons e q ih =>
    intro a
    rw [List.foldl_cons, ih]
    by_cases he : i = e.index
    · have ho : onInterface (e :: q) i = e :: onInterface q i := by
        unfold onInterface
        rw [List.filter_cons, if_pos (by simp [he])]
      have hh : hostOf (e :: q) i = (e.peer.hostname.map (fun h => h.takeWhile (· ≠ 0x2e))).or (hostOf q i) := by
        unfold hostOf
        rw [ho, List.filterMap_cons]
        cases e.peer.hostname <;> simp
      have hp : portOf useDescr (e :: q) i =
          (if useDescr then e.peer.portdescr else e.peer.portname).or (portOf useDescr q i) := by
        unfold portOf
        rw [ho, List.filterMap_cons]
        cases (if useDescr then e.peer.portdescr else e.peer.portname) <;> simp
      rw [hh, hp, ho]
      rw [show descrStep useDescr i a e = descrStep useDescr e.index a e by rw [he], descrStep_eq]
      obtain ⟨p, s, d, n⟩ := a
      dsimp only
      simp only [List.map_cons]
      generalize (List.map (fun e => (e.msg.drop 6).take 6) (onInterface q i)) = srcs
      generalize hsrc : (e.msg.drop 6).take 6 = src
      by_cases hs : d = src
      · subst hs
        have hl : srcs.getLastD d = (d :: srcs).getLastD d := by cases srcs <;> rfl
        rw [hl]
        simp [changes, Option.or_assoc]
      · have hl : srcs.getLastD src = (src :: srcs).getLastD d := by cases srcs <;> rfl
        rw [hl]
        simp only [changes, if_neg hs, Option.or_assoc, DescrAcc.mk.injEq, true_and, Nat.add_eq_zero_iff,
          Nat.succ_ne_self, and_false, if_false]
        by_cases h0 : changes src srcs = 0
        · rw [if_pos h0, h0]
        · rw [if_neg h0]; omega
    · have ho : onInterface (e :: q) i = onInterface q i := by
        unfold onInterface
        rw [List.filter_cons, if_neg (by simpa using fun h => he h.symm)]
      have hst : descrStep useDescr i a e = a := by
        unfold descrStep
        rw [if_pos he]
      have hh : hostOf (e :: q) i = hostOf q i := by unfold hostOf; rw [ho]
      have hp : portOf useDescr (e :: q) i = portOf useDescr q i := by unfold portOf; rw [ho]
      rw [hst, hh, hp, ho]

theorem grouped_onInterface {q : List Entry} (hg : Grouped q) (i : Nat) :
    GroupedK ((onInterface q i).map (fun e => (e.msg.drop 6).take 6)) := by
  intro x z hs
  obtain ⟨l, hl, he⟩ := List.sublist_map_iff.mp hs
  match l, hl, he with
  | [], _, he => simp at he
  | [_], _, he => simp at he
  | [_, _], _, he => simp at he
  | _ :: _ :: _ :: _ :: _, _, he => simp at he
  | [a, b, c], hl, he =>
    simp only [List.map_cons, List.map_nil, List.cons.injEq, and_true] at he
    have hin : ∀ e ∈ [a, b, c], e.index = i := by
      intro e he
      have := (List.mem_filter.mp (hl.subset he)).2
      simpa using this
    have hsub : [a, b, c].Sublist q := hl.trans List.filter_sublist
    have hsys : system a = system c := by
      unfold system
      rw [hin a (by simp), hin c (by simp), ← he.1, ← he.2.2]
    have := hg a b c hsub hsys
    unfold system at this
    have := congrArg Prod.snd this
    simp only at this
    rw [he.2.1, he.1]
    exact this

/-- The description is the specified text, cut to 63 characters: empty without neighbours (or if the only neighbour
has no name), the name of the only neighbour, or the number of distinct neighbours.  The full claim has no
restriction on addresses; it fails for neighbours with an all-zero source address (`C32_zero_source`). -/
theorem C32_text_partial (o : Opts) (l : List Netif) (ops : List ChildOp) (st : Child)
    (h : childRun o { netifs := l } ops = .ok st) (i : Nat)
    (hz : [0, 0, 0, 0, 0, 0] ∉ stations st.queue i) (hb : (stations st.queue i).length < 65536) :
    descrText o i st.queue = (description (o.has OPT_USEDESCR) st.queue i).take 63 := by
  have hg := C18_grouped o l ops st h
  have hgk := grouped_onInterface hg i
  have hn : changes [0, 0, 0, 0, 0, 0] ((onInterface st.queue i).map (fun e => (e.msg.drop 6).take 6)) =
      (stations st.queue i).length := by
    unfold stations at hz ⊢
    cases hs : (onInterface st.queue i).map (fun e => (e.msg.drop 6).take 6) with
    | nil => rfl
    | cons k ks =>
      rw [hs] at hz hgk
      have hk : [0, 0, 0, 0, 0, 0] ≠ k := by
        intro hc
        apply hz
        rw [List.mem_eraseDups]
        simp [hc]
      rw [changes, if_neg hk, changes_eraseDups ks k hgk]
  have hf : ∃ d, st.queue.foldl (descrStep (o.has OPT_USEDESCR) i) {} =
      ⟨hostOf st.queue i, portOf (o.has OPT_USEDESCR) st.queue i, d, (stations st.queue i).length⟩ := by
    refine ⟨((onInterface st.queue i).map (fun e => (e.msg.drop 6).take 6)).getLastD [0, 0, 0, 0, 0, 0], ?_⟩
    rw [descr_fold]
    simp only [Option.none_or, DescrAcc.mk.injEq, true_and]
    rw [hn]
    split
    · next h0 => rw [h0]
    · rw [Nat.zero_add, Nat.mod_eq_of_lt hb]
  obtain ⟨d, hf⟩ := hf
  unfold descrText description
  rw [hf]
  dsimp only
  generalize hlen : (stations st.queue i).length = n at hb ⊢
  match n with
  | 0 => simp
  | 1 =>
    simp only [if_neg (show ¬ (1 = 0) by decide), if_true]
    cases hostOf st.queue i <;> cases portOf (o.has OPT_USEDESCR) st.queue i <;> simp [snprintf64, C31_abbr]
  | n + 2 =>
    rw [if_neg (by omega), if_neg (by omega), decimal16_eq hb]
    rfl

/-- A neighbour with an all-zero source address, as sent by ladvd itself on the inactive port of a failover bond, is
not noticed at all if it is the first, but counted if it comes second. -/
theorem C32_zero_source : ∃ st st', childRun 0 sampleState [.recv (some 100) (sampleCdp 0 180)] = .ok st ∧
    childRun 0 sampleState [.recv (some 100) { sampleCdp 0 180 with
      msg := [0x01, 0x00, 0x0c, 0xcc, 0xcc, 0xcc, 0, 0, 0, 0, 0, 0] ++ (sampleCdp 0 180).msg.drop 12 }] = .ok st' ∧
    descrText 0 3 st.queue = lit "connected to sw1 (eeeeeeeeeeeeeeeeeeeeeeeee)" ∧
    descrText 0 3 st'.queue = [] ∧
    st'.queue.map (·.peer.hostname) = [some (lit "sw1")] := by
  refine ⟨(match childRun 0 sampleState [.recv (some 100) (sampleCdp 0 180)] with | .ok st => st | _ => {}),
    (match childRun 0 sampleState [.recv (some 100) { sampleCdp 0 180 with
      msg := [0x01, 0x00, 0x0c, 0xcc, 0xcc, 0xcc, 0, 0, 0, 0, 0, 0] ++ (sampleCdp 0 180).msg.drop 12 }] with
      | .ok st => st | _ => {}), ?_⟩
  decide +kernel

/-- The text never exceeds 63 characters, so that with its terminator it fits the 64 bytes allowed for a description
request, whatever the neighbours sent. -/
theorem C32_fits (o : Opts) (n : Netif) (q : List Entry) (i : Nat) (d : Bytes) (h : netifDescr o n q = some (i, d)) :
    i = n.index ∧ d.length + 1 ≤ 64 := by
  have hl : (descrText o n.index q).length ≤ 63 := by
    unfold descrText
    dsimp only
    split
    · simp
    · split
      · split <;> simp [snprintf64] <;> omega
      · simp [snprintf64]; omega
  unfold netifDescr at h
  dsimp only at h
  split at h
  · cases h
  · cases h
    exact ⟨rfl, by omega⟩

/-- A request is made exactly if the text differs from the description the interface has. -/
theorem C32_request (o : Opts) (n : Netif) (q : List Entry) :
    (netifDescr o n q = none ↔ descrText o n.index q = n.description) ∧
    ∀ r, netifDescr o n q = some r → r = (n.index, descrText o n.index q) := by
  unfold netifDescr
  dsimp only
  constructor
  · constructor
    · intro h; split at h
      · assumption
      · cases h
    · intro h; rw [if_pos h]
  · intro r h
    split at h
    · cases h
    · exact (Option.some.inj h).symm

/-- `C32_fits`, `C32_request`: a host and port name of 255 and 300 bytes are cut to 63 characters in total; with this description nothing is requested. -/
example :
    let q : List Entry := [{ id := 1, received := 100, len := 62, ttl := 180, lock := 0, proto := 1, index := 3, msg := (sampleCdp 1 180).msg,
                             peer := { hostname := some (List.replicate 255 0x61), portname := some (List.replicate 300 0x62) } }]
    let n : Netif := { index := 3, name := lit "eth0", hwaddr := [2, 0, 0, 0, 0, 9] }
    netifDescr 0 n q = some (3, lit "connected to " ++ List.replicate 50 0x61) ∧
    netifDescr 0 { n with description := lit "connected to " ++ List.replicate 50 0x61 } q = none := by decide +kernel

/-- The request made by a daemon for one of its interfaces: none if the interface already has the specified description, else one that
carries it.  The full claim has no restriction on addresses, as for `C32_text_partial`. -/
theorem C32_request_partial (o : Opts) (l : List Netif) (ops : List ChildOp) (st : Child)
    (h : childRun o { netifs := l } ops = .ok st) (n : Netif)
    (hz : [0, 0, 0, 0, 0, 0] ∉ stations st.queue n.index) (hb : (stations st.queue n.index).length < 65536) :
    netifDescr o n st.queue =
      if (description (o.has OPT_USEDESCR) st.queue n.index).take 63 = n.description then none
      else some (n.index, (description (o.has OPT_USEDESCR) st.queue n.index).take 63) := by
  unfold netifDescr
  dsimp only
  rw [C32_text_partial o l ops st h n.index hz hb]

/-- Two neighbours, one of them speaking two protocols. -/
example : ∃ st, childRun 0 sampleState
      [.recv (some 100) (sampleMsg 1), .recv (some 101) (sampleCdp 2 180), .recv (some 102) (sampleCdp 1 180)] = .ok st ∧
    descrText 0 3 st.queue = lit "connected to 2 peers" ∧ (stations st.queue 3).length = 2 ∧
    [0, 0, 0, 0, 0, 0] ∉ stations st.queue 3 := by
  refine ⟨(match childRun 0 sampleState
      [.recv (some 100) (sampleMsg 1), .recv (some 101) (sampleCdp 2 180), .recv (some 102) (sampleCdp 1 180)] with
    | .ok st => st | _ => {}), ?_⟩
  decide +kernel

end Ladvd.Props
