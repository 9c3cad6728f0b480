import Verif.Props.Print
import Verif.Lemmas.ReportText
/-!
# C55: what a neighbour can make the full report contain
-/

namespace Ladvd.Props

open Spec

/-! ## C55 The full report is safe to print -/

/-- Whatever the frames contain, a run of `ladvdc -f` writes printable characters, line feeds and the control characters BEL, BS, TAB and CR
only. -/
theorem C55_safe (c : CliConf) (ntop6 : Bytes → Bytes) (now : Int) (es : List (Int × CliIn)) (h6 : ∀ a, SafeText (ntop6 a))
    (hn : ∀ x ∈ es, SafeText x.2.name) : ∀ st, SafeText (reportLoop c ntop6 now st es).text := by
  induction es with
  | nil => intro st; exact safe_nil
  | cons x es ih =>
    intro st
    obtain ⟨clock, e⟩ := x
    have ih' := ih (fun x hx => hn x (List.mem_cons_of_mem _ hx))
    show Clean (reportLoop c ntop6 now st ((clock, e) :: es))
    unfold reportLoop
    refine clean_then (reportMsg_clean h6 c now clock st e (hn _ List.mem_cons_self)) (fun y => ?_)
    obtain ⟨st, done⟩ := y
    dsimp only
    split
    · exact clean_pure _
    · refine clean_then (clean_put ?_) (fun _ => ih' st)
      split
      · safe_lit
      · exact safe_nil

/-- A neighbour whose name contains an escape sequence and a line feed. -/
def escEntry : CliIn :=
  { index := 3, name := lit "eth0", proto := 0, received := 0, len := 62,
    msg := lldpHead ++ lldpEnc [(1, [7, 0x61]), (2, [5, 0x62]), (3, [0, 120]), (5, [0x1b, 0x5b, 0x41, 0x0a, 0xff]), (0, [])] ++ List.replicate 1483 0 }

example : reportLoop { protos := 255, mode := .print } no6 2 {} [(2, escEntry)] =
    ⟨lit "Chassis id: a\nPort id: b\nTime remaining: 118 seconds\nSystem Name: \\033[A\n\\377\n\n", .ok ()⟩ := by
  decide +kernel

/-- A neighbour whose name contains a line that looks like a management address. -/
def forgedEntry : CliIn :=
  { index := 3, name := lit "eth0", proto := 0, received := 0, len := 70,
    msg := lldpHead ++ lldpEnc [(1, [7, 0x61]), (2, [5, 0x62]), (3, [0, 120]), (5, lit "c\nManagement Address IPv4: 10.0.0.1"), (0, [])] ++
      List.replicate 1453 0 }

/-- A neighbour with a management address. -/
def honestEntry : CliIn :=
  { index := 3, name := lit "eth0", proto := 0, received := 0, len := 70,
    msg := lldpHead ++ lldpEnc [(1, [7, 0x61]), (2, [5, 0x62]), (3, [0, 120]), (5, [0x63]), (8, [5, 1, 10, 0, 0, 1, 2, 0, 0, 0, 3, 0]), (0, [])] ++
      List.replicate 1473 0 }

/-- Their reports are the same: a text that is put on one line may contain line feeds, so that what follows reads like another TLV. -/
theorem C55_forged : reportLoop { protos := 255, mode := .print } no6 2 {} [(2, forgedEntry)] =
      reportLoop { protos := 255, mode := .print } no6 2 {} [(2, honestEntry)] ∧
    (reportLoop { protos := 255, mode := .print } no6 2 {} [(2, honestEntry)]).text =
      lit "Chassis id: a\nPort id: b\nTime remaining: 118 seconds\nSystem Name: c\nManagement Address IPv4: 10.0.0.1\n\n" := by
  constructor <;> decide +kernel

/-- No line of the report of a LLDP neighbour begins with the label of a TLV unless the frame contains a TLV of that type; the further lines of
descriptions are indented.  Missing for the full statement: names and ids that contain line feeds (see `C55_forged`). -/
theorem C55_lldp_partial (c : CliConf) (ntop6 : Bytes → Bytes) (now clock : Int) (e : CliIn) (ts : List Tlv) (rest : Bytes)
    (hm : e.msg.length = 1518) (hp : e.proto = 0) (hf : LldpFrame (e.msg.take e.len.toNat) (lldpEnc ts ++ rest)) (hw : LldpWf ts)
    (hz : ∀ t ∈ ts, t.1 ≠ 0) (hr : LldpCut rest ∨ ∃ trailer, rest = 0 :: 0 :: trailer) (hb : ¬ MacPort (e.msg.take e.len.toNat))
    (h6 : ∀ a, 0x0a ∉ ntop6 a) (hl : ∀ t ∈ ts, LldpPlain t) :
    LinesOf (fun x => ∃ t ∈ ts, x ∈ lldpLabels t.1) (reportMsg c ntop6 now clock {} e).text := by
  obtain ⟨ok, st, done, hrep, _⟩ := C54_entry_partial c ntop6 now clock e hm
    (fun _ => by rw [hp]; exact ⟨_, hf⟩) (fun _ _ => hb)
  rcases hrep with ⟨_, ht, _⟩ | ⟨hs, p, hpp, hrep⟩
  · rw [ht]; exact lines_nil _
  · rw [hp] at hpp
    have : p = .lldp := by cases hpp; rfl
    subst this
    have hlen : (e.msg.take e.len.toNat).length = e.len.toNat := by
      rw [List.length_take, hm]
      have := hs.size
      omega
    have hsz := hs.size
    have mine : ∃ ok', Reported ⟨clock, e.received, e.name, ntop6⟩ .lldp (e.msg.take e.len.toNat)
        (lldpReport ⟨clock, e.received, e.name, ntop6⟩ false ts).1 ok' := by
      rcases Classical.em ((lldpReport ⟨clock, e.received, e.name, ntop6⟩ false ts).2 = true ∧ ¬ LldpCut rest) with h | h
      · exact ⟨true, ts, rest, hf, hw, hz, hr, rfl, by simpa using h⟩
      · exact ⟨false, ts, rest, hf, hw, hz, hr, rfl, ⟨fun h' => (by cases h'), fun h' => absurd h' h⟩⟩
    obtain ⟨ok', mine⟩ := mine
    rw [(C54_unique _ .lldp _ _ _ _ _ (by omega) (by omega) (fun _ => hb) hrep mine).1]
    exact lldpReport_lines h6 ts hl false

/-- The same for CDP; the first two lines are those of the header. -/
theorem C55_cdp_partial (c : CliConf) (ntop6 : Bytes → Bytes) (now clock : Int) (e : CliIn) (ver ttl k0 k1 : UInt8) (ts : List Tlv) (rest : Bytes)
    (hm : e.msg.length = 1518) (hp : e.proto = 1 ∨ e.proto = 5)
    (hf : CdpFrame (e.msg.take e.len.toNat) ([ver, ttl, k0, k1] ++ (cdpEnc ts ++ rest))) (hw : CdpWf ts) (hr : rest = [] ∨ CdpCut rest)
    (h6 : ∀ a, 0x0a ∉ ntop6 a) (hn : 0x0a ∉ e.name) (hl : ∀ t ∈ ts, CdpPlain t) :
    LinesOf (fun x => x = lit "CDP Version: " ∨ x = lit "Holdtime: " ∨ ∃ t ∈ ts, x ∈ cdpLabels t.1) (reportMsg c ntop6 now clock {} e).text := by
  have hnl : e.proto ≠ 0 := by omega
  obtain ⟨ok, st, done, hrep, _⟩ := C54_entry_partial c ntop6 now clock e hm
    (fun _ => by rcases hp with hp | hp <;> rw [hp] <;> exact ⟨_, hf⟩) (fun _ h => absurd h hnl)
  rcases hrep with ⟨_, ht, _⟩ | ⟨hs, p, hpp, hrep⟩
  · rw [ht]; exact lines_nil _
  · have hpc : p = .cdp ∨ p = .cdp1 := by
      rcases hp with hp | hp <;> rw [hp] at hpp <;> cases hpp
      · exact Or.inl rfl
      · exact Or.inr rfl
    have hrep : Reported ⟨clock, e.received, e.name, ntop6⟩ .cdp (e.msg.take e.len.toNat) (reportMsg c ntop6 now clock {} e).text ok := by
      rcases hpc with rfl | rfl <;> exact hrep
    have hlen : (e.msg.take e.len.toNat).length = e.len.toNat := by
      rw [List.length_take, hm]
      have := hs.size
      omega
    have hsz := hs.size
    have mine : ∃ ok', Reported ⟨clock, e.received, e.name, ntop6⟩ .cdp (e.msg.take e.len.toNat)
        (cdpReport ⟨clock, e.received, e.name, ntop6⟩ ver ttl ts).1 ok' := by
      rcases Classical.em ((cdpReport ⟨clock, e.received, e.name, ntop6⟩ ver ttl ts).2 = true ∧ rest = []) with h | h
      · exact ⟨true, ver, ttl, k0, k1, ts, rest, hf, hw, hr, rfl, by simpa using h⟩
      · exact ⟨false, ver, ttl, k0, k1, ts, rest, hf, hw, hr, rfl, ⟨fun h' => (by cases h'), fun h' => absurd h' h⟩⟩
    obtain ⟨ok', mine⟩ := mine
    rw [(C54_unique _ .cdp _ _ _ _ _ (by omega) (by omega) (fun h => by cases h) hrep mine).1]
    unfold cdpReport
    split
    · refine lines_append (lines_append ?_ ?_) (lines_mono (fun x hx => Or.inr (Or.inr hx)) (cdp_lines h6 hn ts hl))
      · exact lines_labelled (Or.inl (by decide +kernel)) (by nolf_lit) (nolf_digits (decimal_safe _))
      · exact lines_labelled (Or.inr (Or.inl (by decide +kernel))) (by nolf_lit) (nolf_digits (decimal_safe _))
    · exact lines_nil _

/-- The TLVs of `richEntry` meet the hypothesis: only the description has a line feed. -/
example : (∀ t ∈ richTlvs, t.1 = 5 ∨ t.1 = 1 ∨ t.1 = 2 → (0x0a : UInt8) ∉ t.2) ∧ (∃ t ∈ richTlvs, (0x0a : UInt8) ∈ t.2) := by
  decide +kernel

/-- The port id is not an Ethernet address. -/
theorem notMac {f : Bytes} {t : Tlv} {v rest : Bytes} (hl : 18 ≤ f.length) (hf : LldpFrame f (lldpEnc [t, (2, v)] ++ rest))
    (h1 : t.1 < 128) (h2 : t.2.length < 512) (h3 : v.length < 512) (hv : v.head? ≠ some 3) : ¬ MacPort f := by
  rintro ⟨u, port, r, g1, g2, g3, hg, hb⟩
  obtain ⟨pre, hp, e⟩ := hf
  obtain ⟨pre', hp', e'⟩ := hg
  have := (lldpPrefix_unique hl e hp e' hp').2
  simp only [lldpEnc_cons, List.append_assoc] at this
  have h := (lldpEnc1_inj h1 h2 g1 g2 this).2
  have := (lldpEnc1_inj (by simp) h3 (by simp) g3 h).1
  cases this
  exact hv hb.1

/-- `honestEntry` meets the hypotheses; the line that `forgedEntry` imitates can only be due to its management address. -/
example : LinesOf (fun x => ∃ t ∈ ([(1, [7, 0x61]), (2, [5, 0x62]), (3, [0, 120]), (5, [0x63]),
      (8, [5, 1, 10, 0, 0, 1, 2, 0, 0, 0, 3, 0])] : List Tlv), x ∈ lldpLabels t.1)
      (reportMsg { protos := 255, mode := .print } no6 2 2 {} honestEntry).text ∧
    (∀ t < 128, lit "Management Address IPv4: " ∈ lldpLabels t → t = 8) := by
  have hf : LldpFrame (honestEntry.msg.take 70) (lldpEnc [(1, [7, 0x61]), (2, [5, 0x62]), (3, [0, 120]), (5, [0x63]),
      (8, [5, 1, 10, 0, 0, 1, 2, 0, 0, 0, 3, 0])] ++ (0 :: 0 :: List.replicate 25 0)) :=
    ⟨lldpHead, ⟨[2, 0, 0, 0, 0, 1], rfl, Or.inl rfl⟩, by decide +kernel⟩
  refine ⟨C55_lldp_partial _ _ _ _ honestEntry [(1, [7, 0x61]), (2, [5, 0x62]), (3, [0, 120]), (5, [0x63]),
      (8, [5, 1, 10, 0, 0, 1, 2, 0, 0, 0, 3, 0])] (0 :: 0 :: List.replicate 25 0) (by decide +kernel) rfl hf ?_ (by decide) (Or.inr ⟨_, rfl⟩) ?_
    (fun _ => by show (0x0a : UInt8) ∉ lit "::"; decide +kernel) ?_, by decide +kernel⟩
  · unfold LldpWf; decide
  · refine notMac (t := (1, [7, 0x61])) (v := [5, 0x62]) (rest := lldpEnc [(3, [0, 120]), (5, [0x63]),
      (8, [5, 1, 10, 0, 0, 1, 2, 0, 0, 0, 3, 0])] ++ (0 :: 0 :: List.replicate 25 0)) (by decide +kernel) ?_ (by decide) (by decide) (by decide) (by decide)
    rw [← List.append_assoc]
    exact hf
  · intro t ht _
    revert t
    decide +kernel

end Ladvd.Props
