import Verif.Lemmas.Report
import Verif.Props.Cli
/-!
# C54, C55: the full report of `ladvdc -f`
-/

namespace Ladvd.Props

open Spec

/-! ## C54 The full report says what the frames say -/

/-- What is printed for an entry the command line asks for is determined by its frame, the time, and the name of the interface. -/
theorem C54_unique (env : PrintEnv) (p : Proto) (f t t' : Bytes) (ok ok' : Bool) (h1 : 60 ≤ f.length) (h2 : f.length ≤ 1518)
    (hb : p = .lldp → ¬ MacPort f) (h : Reported env p f t ok) (h' : Reported env p f t' ok') : t = t' ∧ ok = ok' := by
  have lldp : ∀ {t ok}, p = .lldp → Reported env .lldp f t ok → t = (lldpDecodeP env (f ++ [0, 0]) f.length {}).text ∧
      (ok = true ↔ (lldpDecodeP env (f ++ [0, 0]) f.length {}).res ≠ .fail) := by
    rintro t ok hp ⟨ts, rest, hq, hw, hz, hr, rfl, hok⟩
    have hr' : LldpRest rest := hr
    have hpf : PortFine ts := by
      intro v hv hbad
      match ts, hv with
      | t :: u :: ts', hv =>
        simp only [List.getElem?_cons_succ, List.getElem?_cons_zero, Option.some.injEq] at hv
        subst hv
        refine hb hp ⟨t, v, lldpEnc ts' ++ rest, (hw t (by simp)).1, (hw t (by simp)).2, (hw (2, v) (by simp)).2, ?_, hbad⟩
        simpa [lldpEnc_cons, lldpEnc] using hq
    obtain ⟨e1, e2⟩ := lldpDecodeP_eq env f [0, 0] ts rest {} (by omega) h2 (by simp) hq hw hz hr' hpf
    refine ⟨e1.symm, hok.trans ?_⟩
    rcases e2 with ⟨a, trailer, ttl, rfl, _, e2⟩ | ⟨a, e2⟩
    · rw [e2]
      have e : beNat ((0 :: 0 :: trailer : Bytes).take 2) = 0 := by simp [beNat]
      have hnc : ¬ LldpCut (0 :: 0 :: trailer) := by
        intro hc
        unfold LldpCut at hc
        rw [e] at hc
        simp only [List.length_cons] at hc
        omega
      have a' : (lldpReport env false ts).2 = true := a
      simp [a', hnc]
    · rw [e2]
      simp only [ne_eq, not_true, iff_false]
      rintro ⟨x, y⟩
      rcases a with a | a
      · have a' : (lldpReport env false ts).2 = false := a
        rw [a'] at x; cases x
      · exact y a
  have cdp : ∀ {t ok} q, (q = Proto.cdp ∨ q = Proto.cdp1) → Reported env q f t ok → t = (cdpDecodeP env (f ++ [0, 0]) f.length {}).text ∧
      (ok = true ↔ (cdpDecodeP env (f ++ [0, 0]) f.length {}).res ≠ .fail) := by
    intro t ok q hq h
    have h : Reported env .cdp f t ok := by rcases hq with rfl | rfl <;> exact h
    obtain ⟨ver, ttl, k0, k1, ts, rest, hq, hw, hr, rfl, hok⟩ := h
    obtain ⟨e1, e2⟩ := cdpDecodeP_eq env f [0, 0] ver ttl k0 k1 ts rest {} (by omega) h2 hq hw hr
    refine ⟨e1.symm, hok.trans ?_⟩
    rw [e2]
    split
    · next hc => simp [hc]
    · next hc => simpa using hc
  have same : ∀ {P : Prop}, (ok = true ↔ P) → (ok' = true ↔ P) → ok = ok' := fun a b => Bool.eq_iff_iff.mpr (a.trans b.symm)
  cases p with
  | lldp =>
    obtain ⟨a, b⟩ := lldp rfl h
    obtain ⟨a', b'⟩ := lldp rfl h'
    exact ⟨a.trans a'.symm, same b b'⟩
  | cdp =>
    obtain ⟨a, b⟩ := cdp _ (Or.inl rfl) h
    obtain ⟨a', b'⟩ := cdp _ (Or.inl rfl) h'
    exact ⟨a.trans a'.symm, same b b'⟩
  | cdp1 =>
    obtain ⟨a, b⟩ := cdp _ (Or.inr rfl) h
    obtain ⟨a', b'⟩ := cdp _ (Or.inr rfl) h'
    exact ⟨a.trans a'.symm, same b b'⟩
  | edp => exact ⟨h.1.trans h'.1.symm, same h.2 h'.2⟩
  | fdp => exact ⟨h.1.trans h'.1.symm, same h.2 h'.2⟩
  | ndp => exact ⟨h.1.trans h'.1.symm, same h.2 h'.2⟩

/-- One entry, read by a client that has just started or shown another entry: the text printed is the report of its frame, TLV by TLV; the entry
is shown to the end, and followed by an empty line, if and only if the frame is valid and has not expired.  Missing for the full statement:
LLDP port ids that are malformed Ethernet addresses (see `C54_null`). -/
theorem C54_entry_partial (c : CliConf) (ntop6 : Bytes → Bytes) (now clock : Int) (e : CliIn) (hm : e.msg.length = 1518)
    (ha : Selected c e → Advert e.proto (e.msg.take e.len.toNat)) (hb : Selected c e → e.proto = 0 → ¬ MacPort (e.msg.take e.len.toNat)) :
    ∃ ok st done, EntryReport c ntop6 clock e (reportMsg c ntop6 now clock {} e).text ok ∧
      (reportMsg c ntop6 now clock {} e).res = .ok (st, done) ∧
      (done = true ↔ ok = true ∧ ¬ Expired now e) ∧ (¬ (ok = true ∧ Expired now e) → st = {}) :=
  reportMsg_eq c ntop6 now clock e hm ha hb

/-- A run over any entries: the output is the sequence of their reports, separated by empty lines; with `-o` the first complete report is the last.
Missing for the full statement: malformed LLDP port ids (see `C54_null`) and expired entries, whose reports are printed nonetheless and may
cut the next one (see `C54_expired`). -/
theorem C54_run_partial (c : CliConf) (ntop6 : Bytes → Bytes) (now : Int) (es : List (Int × CliIn))
    (hm : ∀ x ∈ es, x.2.msg.length = 1518)
    (ha : ∀ x ∈ es, Selected c x.2 → Advert x.2.proto (x.2.msg.take x.2.len.toNat))
    (hb : ∀ x ∈ es, Selected c x.2 → x.2.proto = 0 → ¬ MacPort (x.2.msg.take x.2.len.toNat))
    (hu : ∀ x ∈ es, ¬ Expired now x.2) :
    ∃ rs : List (Bytes × Bool), rs.length = es.length ∧ (∀ x ∈ es.zip rs, EntryReport c ntop6 x.1.1 x.1.2 x.2.1 x.2.2) ∧
      reportLoop c ntop6 now {} es = ⟨outputOf c.once rs, .ok ()⟩ :=
  reportLoop_eq c ntop6 now es hm ha hb hu

/-- A stored frame is an advertisement of its protocol. -/
theorem decodes_advert {e : Entry} (h : Decodes e) (h1 : 26 ≤ e.len) : Advert e.proto (e.msg.take e.len) := by
  obtain ⟨p, m, n, hp, hd, _⟩ := h.dec
  have hl := h.len
  have hml := h.msg
  have e1 : e.msg ++ [1, 0] = e.msg.take e.len ++ (e.msg.drop e.len ++ [1, 0]) := by
    rw [← List.append_assoc, List.take_append_drop]
  have e2 : (e.msg.take e.len).length = e.len := by rw [List.length_take]; omega
  rw [e1] at hd
  have hw := decode_wire (f := e.msg.take e.len) (pad := e.msg.drop e.len ++ [1, 0]) (by omega) (by omega)
    (by rw [List.length_append]; exact Nat.le_add_left _ _) (by rw [e2]; exact hd)
  rw [Proto.ofNum_num hp]
  cases p with
  | lldp =>
    obtain ⟨⟨_, _, _, _, _, _, _, hf, _⟩, _⟩ := hw
    exact ⟨_, hf⟩
  | cdp | cdp1 =>
    obtain ⟨⟨_, _, _, _, _, hf, _⟩, _⟩ := hw
    exact ⟨_, hf⟩
  | fdp =>
    obtain ⟨⟨_, _, _, _, hf, _⟩, _⟩ := hw
    exact ⟨_, hf⟩
  | edp =>
    have hd' : edpDecode (e.msg.take e.len ++ (e.msg.drop e.len ++ [1, 0])) (e.msg.take e.len).length { proto := e.proto } = .ok (m, n) := by
      rw [e2]; exact hd
    obtain ⟨_, q, hf, _⟩ := (C36_edp _ _ _ _ _ (by omega) (by omega)).mp hd'
    exact ⟨q, hf⟩
  | ndp =>
    have hd' : ndpDecode (e.msg.take e.len ++ (e.msg.drop e.len ++ [1, 0])) (e.msg.take e.len).length { proto := e.proto } = .ok (m, n) := by
      rw [e2]; exact hd
    obtain ⟨_, _, _, _, hf, _⟩ := (C36_ndp _ _ _ _ _ (by omega) (by omega)).mp hd'
    exact ⟨_, hf⟩

/-- From the wire to the report: whatever the daemon has done, a client that asks for the full report gets the reports of the frames delivered
to it, one after the other, as long as none has expired.  Missing for the full statement: as for `C54_run_partial`. -/
theorem C54_daemon_partial (o : Opts) (l : List Netif) (ops : List ChildOp) (st : Child) (h : childRun o { netifs := l } ops = .ok st)
    (hr : ∀ t r, ChildOp.recv (some t) r ∈ ops → r.msg.length = 1518 ∧ 26 ≤ r.len)
    (sid : Nat) (c : CliConf) (ntop6 : Bytes → Bytes) (now : Int) (clocks : List Int) (hcl : clocks.length = (delivered st sid).length)
    (hb : ∀ e ∈ delivered st sid, e.proto = 0 → ¬ MacPort (e.msg.take e.len))
    (hu : ∀ e ∈ delivered st sid, ¬ Expired now (CliIn.ofEntry e)) :
    ∃ rs : List (Bytes × Bool), rs.length = clocks.length ∧
      (∀ x ∈ (clocks.zip ((delivered st sid).map CliIn.ofEntry)).zip rs, EntryReport c ntop6 x.1.1 x.1.2 x.2.1 x.2.2) ∧
      reportLoop c ntop6 now {} (clocks.zip ((delivered st sid).map CliIn.ofEntry)) = ⟨outputOf c.once rs, .ok ()⟩ := by
  have hrun := entries_run (P := Decodes) (fun e i l h => ⟨h.msg, h.len, h.dec⟩)
    (fun st t r subif m hm ht => taken_decodes (hr t r hm).1 (hr t r hm).2 ht)
    (by intro e he; cases he) (by intro x hx; cases hx) h
  have hmem : ∀ x ∈ clocks.zip ((delivered st sid).map CliIn.ofEntry), ∃ e ∈ delivered st sid, x.2 = CliIn.ofEntry e ∧ Decodes e := by
    rintro ⟨a, b⟩ hx
    have := (List.of_mem_zip hx).2
    obtain ⟨e, he, rfl⟩ := List.mem_map.mp this
    refine ⟨e, he, rfl, ?_⟩
    unfold delivered at he
    obtain ⟨y, hy, rfl⟩ := List.mem_map.mp he
    exact hrun.2 y (List.mem_filter.mp hy).1
  obtain ⟨rs, a, b, d⟩ := reportLoop_eq c ntop6 now (clocks.zip ((delivered st sid).map CliIn.ofEntry))
    (fun x hx => by obtain ⟨e, he, ex, hd⟩ := hmem x hx; rw [ex]; exact hd.msg)
    (fun x hx hs => by
      obtain ⟨e, he, ex, hd⟩ := hmem x hx
      rw [ex] at hs ⊢
      have := hs.size
      have hl : (CliIn.ofEntry e).len.toNat = e.len := Int.toNat_natCast _
      rw [hl]
      refine decodes_advert hd ?_
      simp only [CliIn.ofEntry] at this
      omega)
    (fun x hx _ hp => by
      obtain ⟨e, he, ex, hd⟩ := hmem x hx
      rw [ex] at hp ⊢
      have hl : (CliIn.ofEntry e).len.toNat = e.len := Int.toNat_natCast _
      rw [hl]
      exact hb e he hp)
    (fun x hx => by obtain ⟨e, he, ex, hd⟩ := hmem x hx; rw [ex]; exact hu e he)
  refine ⟨rs, ?_, b, d⟩
  rw [a, List.length_zip, List.length_map, hcl, Nat.min_self]

/-! ### Examples -/

/-- No IPv6 addresses in the samples. -/
def no6 : Bytes → Bytes := fun _ => lit "::"

/-- Reported two seconds after the reception: a LLDP and a CDP neighbour, a NDP neighbour that gets an empty line only. -/
example : reportLoop { protos := 255, mode := .print } no6 2 {} [(2, lldpEntry), (2, cdpEntry 0x31 180), (2, ndpEntry)] =
    ⟨lit "Chassis id: a\nPort id: b\nTime remaining: 118 seconds\nSystem Name: c\n\nCDP Version: 2\nHoldtime: 178\nDevice ID: sw1\nInterface: eth0, Port ID (outgoing port): eeeeeeeeeeeeeeeeeeeeeeeee\n\n\n", .ok ()⟩ := by
  decide +kernel

/-- With `-o`. -/
example : reportLoop { protos := 255, mode := .print, once := true } no6 2 {} [(2, lldpEntry), (2, cdpEntry 0x31 180)] =
    ⟨lit "Chassis id: a\nPort id: b\nTime remaining: 118 seconds\nSystem Name: c\n", .ok ()⟩ := by
  decide +kernel

/-- A LLDP frame of 102 bytes with all kinds of TLVs. -/
def richTlvs : List Tlv :=
  [(1, [4, 2, 0, 0, 0, 0, 9]), (2, [3, 2, 0, 0, 0, 0, 0xab]), (3, [0, 120]), (4, lit "up"), (5, lit "sw"), (6, lit "a\nb"),
   (7, [0, 20, 0, 4]), (8, [5, 1, 10, 0, 0, 1, 2, 0, 0, 0, 3, 0]), (127, [0, 0x80, 0xc2, 1, 0, 17]), (0, [])]

/-- The entry of that frame. -/
def richEntry : CliIn :=
  { index := 3, name := lit "eth0", proto := 0, received := 0, len := 102,
    msg := lldpHead ++ lldpEnc richTlvs ++ List.replicate (1504 - (lldpEnc richTlvs).length) 0 }

/-- Its report. -/
example : reportLoop { protos := 255, mode := .print } no6 2 {} [(2, richEntry)] =
    ⟨lit "Chassis id: 02:00:00:00:00:09\nPort id: 02:00:00:00:00:ab\nTime remaining: 118 seconds\nPort Description: up\nSystem Name: sw\nSystem Description:\n  a\n  b\nSystem Capabilities: BR\nEnabled Capabilities: B\nManagement Address IPv4: 10.0.0.1\nPort VLAN ID: 17\n\n", .ok ()⟩ := by
  decide +kernel

/-- Two neighbours delivered by the daemon to a client, reported two seconds later. -/
example : childRun 0 { netifs := sampleState.netifs } twoOps = .ok twoState ∧ (delivered twoState 2).length = 2 ∧
    (∀ e ∈ delivered twoState 2, e.proto ≠ 0) ∧
    reportLoop { protos := 255, mode := .print } no6 102 {} ([102, 102].zip ((delivered twoState 2).map CliIn.ofEntry)) =
      ⟨lit "CDP Version: 2\nHoldtime: 178\nDevice ID: sw1\nInterface: eth0, Port ID (outgoing port): eeeeeeeeeeeeeeeeeeeeeeeee\n\n\n", .ok ()⟩ := by
  refine ⟨?_, by decide +kernel, by decide +kernel, by decide +kernel⟩
  decide +kernel

/-- The hypotheses of `C54_run_partial` for these entries. -/
example : Advert 0 (lldpEntry.msg.take 62) ∧ ¬ MacPort (lldpEntry.msg.take 62) ∧ ¬ Expired 2 lldpEntry ∧ lldpEntry.msg.length = 1518 ∧
    Selected { protos := 255 } lldpEntry := by
  have hpre : LldpPrefix [0x01, 0x80, 0xc2, 0x00, 0x00, 0x0e, 2, 0, 0, 0, 0, 9, 0x88, 0xcc] := ⟨[2, 0, 0, 0, 0, 9], rfl, Or.inl rfl⟩
  have hf : LldpFrame (lldpEntry.msg.take 62) (lldpEnc [(1, [7, 0x61]), (2, [5, 0x62]), (3, [0, 120])] ++
      (lldpEnc [(5, [0x63]), (0, [])] ++ List.replicate 31 0)) :=
    ⟨_, hpre, by decide +kernel⟩
  refine ⟨⟨_, hf⟩, ?_, ?_, by decide +kernel, ⟨by decide, by decide, (fun l hl => by cases hl), by decide⟩⟩
  · rintro ⟨t, port, rest, h1, h2, h3, ⟨pre, hp, e⟩, hb⟩
    obtain ⟨pre', hp', e'⟩ := hf
    have := (lldpPrefix_unique (by decide +kernel) e hp e' hp').2
    simp only [lldpEnc_cons, List.append_assoc] at this
    have h := (lldpEnc1_inj h1 h2 (by simp) (by simp) this).2
    have := (lldpEnc1_inj (by simp) h3 (by simp) (by simp) h).1
    cases this
    exact absurd hb.1 (by decide)
  · rintro ⟨p, ttl, hp, ha, hl⟩
    cases hp
    have : Announces .lldp (lldpEntry.msg.take 62) 120 :=
      ⟨[7, 0x61], [5, 0x62], 0, 120, _, by simp, by simp, hf, rfl⟩
    have := announces_unique (by decide +kernel) ha this
    subst this
    exact absurd hl (by decide)

/-! ### Where the claim fails -/

/-- A frame that claims the port id is an Ethernet address, of one byte. -/
def nullEntry : CliIn :=
  { index := 3, name := lit "eth0", proto := 0, received := 0, len := 62,
    msg := lldpHead ++ lldpEnc [(1, [7, 0x61]), (2, [3, 0x62]), (3, [0, 120]), (5, [0x63]), (0, [])] ++ List.replicate 1487 0 }

/-- The daemon accepts and stores such a frame; the client passes a null pointer to `printf`. -/
theorem C54_null : MacPort (nullEntry.msg.take 62) ∧
    lldpDecode false (nullEntry.msg ++ [1, 0]) 62 {} = .ok ({ ttl := 120, peer := { hostname := some (lit "c") } }, 31) ∧
    reportLoop { protos := 255, mode := .print } no6 2 {} [(2, nullEntry)] = ⟨lit "Chassis id: a\n", .oob⟩ := by
  refine ⟨⟨(1, [7, 0x61]), [3, 0x62], ((nullEntry.msg.take 62).drop 22), by decide, by decide, by decide, ⟨lldpHead, ?_, by decide +kernel⟩, ?_⟩,
    by decide +kernel, by decide +kernel⟩
  · exact ⟨[2, 0, 0, 0, 0, 1], rfl, Or.inl rfl⟩
  · unfold BadMac; decide

/-- A LLDP frame with a system name and a lifetime of one second. -/
def staleEntry : CliIn :=
  { index := 3, name := lit "eth0", proto := 0, received := 0, len := 62,
    msg := lldpHead ++ lldpEnc [(1, [7, 0x78]), (2, [5, 0x79]), (3, [0, 1]), (5, [0x7a]), (0, [])] ++ List.replicate 1487 0 }

/-- An expired entry is reported all the same, with more than eighteen hours left, and the report of the next neighbour breaks off before its
system name, because the name of the expired one has not been released. -/
theorem C54_expired : reportLoop { protos := 255, mode := .print } no6 2 {} [(2, staleEntry), (2, lldpEntry)] =
    ⟨lit "Chassis id: x\nPort id: y\nTime remaining: 65535 seconds\nSystem Name: z\nChassis id: a\nPort id: b\nTime remaining: 118 seconds\n", .ok ()⟩ := by
  decide +kernel

/-- A CDP frame with a duplex TLV of two bytes. -/
def duplexEntry : CliIn :=
  { index := 3, name := lit "eth0", proto := 1, received := 0, len := 61,
    msg := [0x01, 0x00, 0x0c, 0xcc, 0xcc, 0xcc, 2, 0, 0, 0, 0, 7, 0, 48, 0xaa, 0xaa, 3, 0, 0, 0x0c, 0x20, 0x00,
      2, 180, 0, 0, 0, 1, 0, 7, 0x73, 0x77, 0x31, 0, 0x0b, 0, 6, 0, 0, 0, 3, 0, 22] ++ List.replicate 1475 0x65 }

/-- A frame the daemon accepts, stores and shows in the table, of which the full report contains only the part before the duplex TLV, followed
directly by the report of the next neighbour. -/
theorem C54_cut : (clientLoop { protos := 255 } 2 {} [duplexEntry]).map (fun l => l.map (fun x => x.2.map (fun s => s.peer.portname))) =
      .ok [some (some (List.replicate 18 0x65))] ∧
    reportLoop { protos := 255, mode := .print } no6 2 {} [(2, duplexEntry), (2, lldpEntry)] =
    ⟨lit "CDP Version: 2\nHoldtime: 178\nDevice ID: sw1\nChassis id: a\nPort id: b\nTime remaining: 118 seconds\nSystem Name: c\n\n", .ok ()⟩ := by
  constructor <;> decide +kernel

/-- A LLDP frame whose chassis id is a network address of the given family: 1 is IPv4. -/
def networkEntry (family : UInt8) : CliIn :=
  { index := 3, name := lit "eth0", proto := 0, received := 0, len := 62,
    msg := lldpHead ++ lldpEnc [(1, [5, family, 10, 0, 0, 1]), (2, [5, 0x62]), (3, [0, 120]), (0, [])] ++ List.replicate 1486 0 }

/-- An IPv4 address as chassis id is not shown; one of family 4, which is not IPv4, is. -/
theorem C54_network_id : reportLoop { protos := 255, mode := .print } no6 2 {} [(2, networkEntry 1)] =
      ⟨lit "Port id: b\nTime remaining: 118 seconds\n\n", .ok ()⟩ ∧
    reportLoop { protos := 255, mode := .print } no6 2 {} [(2, networkEntry 4)] =
      ⟨lit "Chassis id: 10.0.0.1\nPort id: b\nTime remaining: 118 seconds\n\n", .ok ()⟩ := by
  constructor <;> decide +kernel

end Ladvd.Props
