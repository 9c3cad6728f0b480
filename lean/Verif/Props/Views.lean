import Verif.Lemmas.Views
import Verif.Props.ReportText
/-!
# C86: the table and the full report agree
-/

namespace Ladvd.Props

open Spec

/-- What the table and the report of a frame have in common, by protocol. -/
def SameNews (env : PrintEnv) (p : Proto) (text : Bytes) (m : Msg) : Prop :=
  match p with
  | .lldp => m.proto = 0 ∧ LldpShows env.ntop6 text m.peer ∧ HasLine text (lit "Time remaining: " ++ decimal (secondsLeft env m.ttl) ++ lit " seconds\n")
  | .cdp | .cdp1 => (m.proto = 1 ∨ m.proto = 5) ∧ CdpShows env.name env.ntop6 text m.peer ∧ HasLine text (labelled (lit "Holdtime") (decimal (secondsLeft env m.ttl)))
  | p => m.proto = p.num ∧ text = []

theorem lldp_none (n6 : Bytes → Bytes) : LldpShows n6 [] {} := by
  constructor <;> first | rfl | (intros; rename_i h; cases h)

theorem cdp_none (nm : Bytes) (n6 : Bytes → Bytes) : CdpShows nm n6 [] {} := by
  constructor <;> first | rfl | (intros; rename_i h; cases h)

theorem chassis_both {env : PrintEnv} {v a : Bytes} (h : chassisLine env v = some a) (s : Msg) : chassisMeaning false s v = some s ∧ Whole a := by
  unfold chassisLine at h
  unfold chassisMeaning
  match v with
  | [] => cases h
  | [_] => cases h
  | sub :: b :: r =>
    dsimp only at h ⊢
    split at h
    · cases h
    next hl =>
    rw [if_neg hl, if_pos (show (!false) = true from rfl)]
    refine ⟨rfl, ?_⟩
    split at h
    · cases h; exact whole_labelled _ _
    split at h
    · cases h; exact whole_labelled _ _
    split at h
    · cases h; exact whole_labelled _ _
    split at h
    · cases h; exact whole_labelled _ _
    split at h
    · cases h; exact whole_labelled _ _
    · cases h; exact whole_nil

theorem port_both {env : PrintEnv} {v b acc : Bytes} {s : Msg} (h : portLine v = some b) (hc : LCov env acc s) :
    ∃ s', portMeaning false s v = some s' ∧ LCov env (acc ++ b) s' ∧ s'.proto = s.proto ∧ s'.peer.hostname = s.peer.hostname := by
  have hm := hc.shows.more b
  unfold portLine at h
  unfold portMeaning
  match v with
  | [] => cases h
  | [_] => cases h
  | sub :: x :: r =>
    dsimp only at h ⊢
    split at h
    · cases h
    next hl =>
    rw [if_neg hl]
    split at h
    · next hs =>
      cases h
      rw [if_pos hs]
      exact ⟨_, rfl, ⟨hc.whole.append (whole_labelled _ _), { hm with portname := first_shown hm.portname (hasLine_last hc.whole _) }⟩, rfl, rfl⟩
    next hs =>
    rw [if_neg hs]
    split at h
    · next h3 =>
      cases h
      rw [if_pos h3]
      exact ⟨_, rfl, ⟨hc.whole.append (whole_labelled _ _), hm⟩, rfl, rfl⟩
    · next h3 =>
      cases h
      rw [if_neg h3]
      exact ⟨_, rfl, ⟨hc.whole.append whole_nil, hm⟩, rfl, rfl⟩

/-- A frame that is reported to the end is accepted by the decoder that fills the table, with the same news. -/
theorem reported_decodes {env : PrintEnv} {p : Proto} {f text : Bytes} (h1 : 60 ≤ f.length) (h2 : f.length ≤ 1518) (h : Reported env p f text true) (pad : Bytes)
    (hp : 2 ≤ pad.length) :
    ∃ m n, p.decode false (f ++ pad) f.length { proto := p.num } = .ok (m, n) ∧ n ≠ 0 ∧ SameNews env p text m := by
  have cdp : (∃ ver ttl k0 k1 ts rest, CdpFrame f ([ver, ttl, k0, k1] ++ (cdpEnc ts ++ rest)) ∧ CdpWf ts ∧ (rest = [] ∨ CdpCut rest) ∧
      text = (cdpReport env ver ttl ts).1 ∧ (true = true ↔ (cdpReport env ver ttl ts).2 = true ∧ rest = [])) → ∀ k,
      ∃ m, cdpDecode false (f ++ pad) f.length { proto := k } = .ok (m, f.length) ∧ SameNews env .cdp text m := by
    rintro ⟨ver, ttl, k0, k1, ts, rest, hf, hw, -, rfl, hok⟩ k
    obtain ⟨hr, rfl⟩ := hok.mp rfl
    rw [List.append_nil] at hf
    unfold cdpReport at hr ⊢
    split at hr
    · next hv =>
      rw [if_pos hv]
      dsimp only at hr ⊢
      have hw1 := (whole_labelled (lit "CDP Version") (decimal ver.toNat)).append (whole_labelled (lit "Holdtime") (decimal (secondsLeft env ttl.toNat)))
      obtain ⟨m, a, b, c, d⟩ := Ladvd.cdp_lines ts (s := { proto := (if ver = 1 then 5 else 1), ttl := ttl.toNat }) hr
        ⟨hw1, by have := (cdp_none env.name env.ntop6).more (labelled (lit "CDP Version") (decimal ver.toNat) ++ labelled (lit "Holdtime") (decimal (secondsLeft env ttl.toNat)))
                 rwa [List.nil_append] at this⟩
      refine ⟨m, (C36_cdp false f pad { proto := k } m f.length (by omega) h2).mpr ⟨rfl, _, hf, ver, ttl, k0, k1, ts, rfl, hw, hv, a⟩, ?_, b.shows, ?_⟩
      · rw [d]; dsimp only; split
        · exact Or.inr rfl
        · exact Or.inl rfl
      · rw [c]
        exact (hasLine_last (whole_labelled _ _) _).more _
    · cases hr
  cases p with
  | lldp =>
    obtain ⟨ts, rest, hf, hw, hz, hcut, rfl, hok⟩ := h
    obtain ⟨hr, hnc⟩ := hok.mp rfl
    obtain ⟨tr, rfl⟩ := hcut.resolve_left hnc
    unfold lldpReport at hr
    match ts, hf, hw, hz, hr with
    | [], _, _, _, hr => cases hr
    | (t1, ch) :: ts, hf, hw, hz, hr =>
      dsimp only at hr
      by_cases e1 : t1 = 1
      · subst e1
        rw [if_pos rfl] at hr
        cases hcl : chassisLine env ch with
        | none => rw [hcl] at hr; cases hr
        | some a =>
          rw [hcl] at hr
          match ts, hf, hw, hz, hr with
          | [], _, _, _, hr => cases hr
          | (t2, po) :: ts, hf, hw, hz, hr =>
            dsimp only at hr
            by_cases e2 : t2 = 2
            · subst e2
              rw [if_pos rfl] at hr
              cases hpl : portLine po with
              | none => rw [hpl] at hr; cases hr
              | some b =>
                rw [hpl] at hr
                match ts, hf, hw, hz, hr with
                | [], _, _, _, hr => cases hr
                | (t3, tl) :: ts, hf, hw, hz, hr =>
                  dsimp only at hr
                  split at hr
                  · next h3 =>
                    obtain ⟨rfl, hl⟩ := h3
                    obtain ⟨t0, tt, rfl⟩ : ∃ x y, tl = [x, y] := by
                      match tl, hl with
                      | [x, y], _ => exact ⟨x, y, rfl⟩
                    dsimp only at hr
                    obtain ⟨c1, c2⟩ := chassis_both hcl { proto := 0 }
                    obtain ⟨s2, p1, p2, p3, p4⟩ := port_both (s := { proto := 0 }) (acc := a) hpl ⟨c2, by simpa using (lldp_none env.ntop6).more a⟩
                    have hb : beNat [t0, tt] = t0.toNat * 256 + tt.toNat := by
                      show (0 * 256 + t0.toNat) * 256 + tt.toNat = _
                      omega
                    let line := lit "Time remaining: " ++ decimal (secondsLeft env (beNat [t0, tt])) ++ lit " seconds\n"
                    have hline : Whole line := Or.inr (by
                      show (_ ++ lit " seconds\n").getLast? = _
                      rw [show lit " seconds\n" = lit " seconds" ++ [0x0a] by decide, ← List.append_assoc]
                      exact List.getLast?_concat)
                    have hn0 : s2.peer.hostname.isSome = false := by rw [p4]; rfl
                    obtain ⟨m, m1, m2, m3, m4⟩ := Ladvd.lldp_lines ts (s := { s2 with ttl := t0.toNat * 256 + tt.toNat }) (acc := a ++ b ++ line)
                      (fun t ht => hz t (by simp [ht])) (by show (lldpLines env s2.peer.hostname.isSome ts).2 = true; rw [hn0]; exact hr)
                      ⟨p2.whole.append hline, p2.shows.more _⟩
                    have m2 : LCov env (a ++ b ++ line ++ (lldpLines env false ts).1) m := by rw [← hn0]; exact m2
                    have htext : (lldpReport env false ((1, ch) :: (2, po) :: (3, [t0, tt]) :: ts)).1 = a ++ b ++ line ++ (lldpLines env false ts).1 := by
                      unfold lldpReport
                      simp only [if_true, hcl, hpl]
                      rw [if_pos ⟨trivial, rfl⟩]
                      simp only [line, List.append_assoc]
                    refine ⟨m, f.length - tr.length, (C09_accept_iff false f pad { proto := 0 } m _ (by omega) h2 hp).mpr
                      ⟨lldpEnc ([(1, ch), (2, po), (3, [t0, tt])] ++ ts ++ [(0, [])]), tr, ?_, ⟨ch, po, t0, tt, ts, _, s2, rfl, ?_, c1, p1, m1⟩, rfl⟩, ?_, ?_, ?_, ?_⟩
                    · have : lldpEnc ([(1, ch), (2, po), (3, [t0, tt])] ++ ts ++ [(0, [])]) ++ tr =
                          lldpEnc ((1, ch) :: (2, po) :: (3, [t0, tt]) :: ts) ++ 0 :: 0 :: tr := by
                        unfold lldpEnc
                        simp only [List.flatMap_append, List.append_assoc, List.cons_append, List.nil_append, List.flatMap_cons, List.flatMap_nil]
                        rfl
                      rw [this]; exact hf
                    · intro t ht
                      exact hw t (by simp only [List.mem_append, List.mem_cons, List.not_mem_nil, or_false] at ht ⊢; rcases ht with (h | h) | h <;> simp [h])
                    · obtain ⟨pre, -, hpre⟩ := hf
                      have := congrArg List.length hpre
                      simp only [List.length_append, List.length_cons] at this
                      omega
                    · rw [m4]; exact p3
                    · rw [htext]; exact m2.shows
                    · rw [htext, m3]
                      show HasLine _ (lit "Time remaining: " ++ decimal (secondsLeft env (t0.toNat * 256 + tt.toNat)) ++ lit " seconds\n")
                      rw [← hb]
                      exact (hasLine_last p2.whole line).more _
                  · cases hr
            · rw [if_neg e2] at hr; cases hr
      · rw [if_neg e1] at hr; cases hr
  | cdp =>
    obtain ⟨m, a, b⟩ := cdp h 1
    exact ⟨m, _, a, by omega, b⟩
  | cdp1 =>
    obtain ⟨m, a, b⟩ := cdp h 5
    exact ⟨m, _, a, by omega, b⟩
  | edp =>
    obtain ⟨rfl, hok⟩ := h
    obtain ⟨q, s, hf, hdr, ts, a, b, c, d⟩ := hok.mp rfl
    have hd := (C36_edp f pad { proto := 2 } _ _ (by omega) h2).mpr ⟨rfl, q, hf, hdr, ts, a, b, c, rfl⟩
    exact ⟨_, _, hd, by omega, (decode_wire (p := .edp) (print := false) (by omega) h2 hp hd).2.1 (by decide) (by decide), rfl⟩
  | fdp =>
    obtain ⟨rfl, hok⟩ := h
    obtain ⟨q, s, hf, ttl, k0, k1, ts, a, b, c⟩ := hok.mp rfl
    have hd := (C36_fdp f pad { proto := 3 } _ _ (by omega) h2).mpr ⟨rfl, q, hf, ttl, k0, k1, ts, a, b, rfl⟩
    exact ⟨_, _, hd, by omega, (decode_wire (p := .fdp) (print := false) (by omega) h2 hp hd).2.1 (by decide) (by decide), rfl⟩
  | ndp =>
    obtain ⟨rfl, hok⟩ := h
    obtain ⟨q, hf, hq⟩ := hok.mp rfl
    have hd := (C36_ndp f pad { proto := 4 } _ _ (by omega) h2).mpr
      ⟨rfl, q.take 11, q.drop 11, by rw [List.length_take]; omega, by rw [List.take_append_drop]; exact hf, rfl⟩
    refine ⟨_, _, hd, ?_, (decode_wire (p := .ndp) (print := false) (by omega) h2 hp hd).2.1 (by decide) (by decide), rfl⟩
    obtain ⟨pre, h⟩ := hf
    have := congrArg List.length h.2
    simp only [List.length_append, List.length_drop] at this ⊢
    omega

/-- One entry: if the full report of a neighbour is shown to the end then the table shows that neighbour, and everything the table knows of it -
name, port, description, capabilities, addresses, VLAN and the seconds it has left - is on a line of the report.  Missing for the full statement:
frames that are in the table although their report breaks off (see `C86_cut`). -/
theorem C86_entry_partial (c c' : CliConf) (hc : c.mode ≠ .print) (hi : c'.indexes = c.indexes) (hpr : c'.protos = c.protos) (ntop6 : Bytes → Bytes) (now : Int) (e : CliIn)
    (hm : e.msg.length = 1518) (ha : Selected c e → Advert e.proto (e.msg.take e.len.toNat))
    (hb : Selected c e → e.proto = 0 → ¬ MacPort (e.msg.take e.len.toNat))
    (st : CliSt) (h : (reportMsg c' ntop6 now now {} e).res = .ok (st, true)) :
    ∃ s, clientMsg c now {} e = .ok ({}, [], some s) ∧ s.index = e.index ∧ s.name = e.name ∧ Agree ntop6 (reportMsg c' ntop6 now now {} e).text s := by
  have hsel : Selected c' e → Selected c e := fun h => ⟨h.proto, h.size, by rw [← hi]; exact h.index, by rw [← hpr]; exact h.wanted⟩
  obtain ⟨ok, st', done, he, hr, hd, -⟩ := reportMsg_eq c' ntop6 now now e hm (fun h => ha (hsel h)) (fun h => hb (hsel h))
  rw [hr] at h
  cases h
  obtain ⟨rfl, hx⟩ := hd.mp rfl
  rcases he with ⟨-, -, h⟩ | ⟨hs, p, hp, hrep⟩
  · cases h
  replace hs := hsel hs
  have hsz := hs.size
  obtain ⟨h1, h2⟩ := split_msg hm hsz [1, 0]
  obtain ⟨m, n, hdec, hn, hnews⟩ := reported_decodes (by omega) (by omega) hrep (e.msg.drop e.len.toNat ++ [1, 0]) (by simp)
  rw [← h1, h2] at hdec
  have hnum := Proto.ofNum_num hp
  have hmode : (c.mode == .print) = false := by
    cases hcm : c.mode with
    | print => exact absurd hcm hc
    | _ => rfl
  rcases clientMsg_cases c now {} e with ⟨hns, -⟩ | ⟨p', -, hp', hcl⟩
  · exact absurd hs hns
  rw [hp] at hp'
  cases hp'
  have hw := decode_announces hm hs (x := [1, 0]) rfl hdec
  have hlive : ¬ (m.ttl : Int) < now - e.received := fun hl => hx ⟨p, m.ttl, hp, hw.1, hl⟩
  have hrd : rd e.msg 0 e.len.toNat = .ok (e.msg.take e.len.toNat) := by
    unfold rd
    rw [if_pos (by omega)]
    rfl
  rw [hmode, hnum] at hcl
  simp only [Bool.false_eq_true, if_false] at hcl
  rw [hdec] at hcl
  simp only [hn, if_false] at hcl
  unfold cliShow at hcl
  rw [if_neg hlive, hrd] at hcl
  refine ⟨_, hcl.trans (by rw [hw.2.2 rfl]; rfl), rfl, rfl, ?_⟩
  cases p with
  | lldp =>
    obtain ⟨a, b, d⟩ := hnews
    refine ⟨fun _ => ⟨b, d⟩, fun h => ?_, fun h => ?_⟩
    · simp only [a] at h; omega
    · simp [a] at h
  | cdp =>
    obtain ⟨a, b, d⟩ := hnews
    refine ⟨fun h => ?_, fun _ => ⟨b, d⟩, fun h => ?_⟩
    · dsimp only at h; omega
    · rcases a with a | a <;> simp [a] at h
  | cdp1 =>
    obtain ⟨a, b, d⟩ := hnews
    refine ⟨fun h => ?_, fun _ => ⟨b, d⟩, fun h => ?_⟩
    · dsimp only at h; omega
    · rcases a with a | a <;> simp [a] at h
  | edp =>
    obtain ⟨a, b⟩ := hnews
    refine ⟨fun h => ?_, fun h => ?_, fun _ => b⟩ <;> (rw [show m.proto = 2 from a] at h; simp at h)
  | fdp =>
    obtain ⟨a, b⟩ := hnews
    refine ⟨fun h => ?_, fun h => ?_, fun _ => b⟩ <;> (rw [show m.proto = 3 from a] at h; simp at h)
  | ndp =>
    obtain ⟨a, b⟩ := hnews
    refine ⟨fun h => ?_, fun h => ?_, fun _ => b⟩ <;> (rw [show m.proto = 4 from a] at h; simp at h)

/-- The daemon and the client together: of every neighbour delivered by a run of the daemon and not expired, the full report - if it is shown to
the end - has all the daemon knows of it, with the seconds that are left.  Missing for the full statement: reports that break off. -/
theorem C86_daemon_partial (o : Opts) (l : List Netif) (ops : List ChildOp) (st : Child) (h : childRun o { netifs := l } ops = .ok st)
    (hr : ∀ t r, ChildOp.recv (some t) r ∈ ops → r.msg.length = 1518 ∧ 26 ≤ r.len)
    (sid : Nat) (c : CliConf) (ntop6 : Bytes → Bytes) (now : Int) (e : Entry) (he : e ∈ delivered st sid)
    (hs : Selected c (CliIn.ofEntry e)) (hb : e.proto = 0 → ¬ MacPort (e.msg.take e.len)) (hl : now - e.received ≤ e.ttl) (hn : e.received ≤ now)
    (cst : CliSt) (hok : (reportMsg c ntop6 now now {} (CliIn.ofEntry e)).res = .ok (cst, true)) :
    Agree ntop6 (reportMsg c ntop6 now now {} (CliIn.ofEntry e)).text
      { index := e.index, name := e.name, proto := e.proto, ttl := e.ttl, hold := (e.ttl - (now - e.received)).toNat, peer := e.peer,
        frame := e.msg.take e.len } := by
  have hrun := entries_run (P := Decodes) (fun e i l h => ⟨h.msg, h.len, h.dec⟩)
    (fun st t r subif m hm ht => taken_decodes (hr t r hm).1 (hr t r hm).2 ht)
    (by intro e he; cases he) (by intro x hx; cases hx) h
  have hd : Decodes e := by
    unfold delivered at he
    obtain ⟨y, hy, rfl⟩ := List.mem_map.mp he
    exact hrun.2 y (List.mem_filter.mp hy).1
  have hlen : (CliIn.ofEntry e).len.toNat = e.len := Int.toNat_natCast _
  have hsel : ∀ {c' : CliConf}, c'.indexes = c.indexes → c'.protos = c.protos → Selected c' (CliIn.ofEntry e) := fun h1 h2 =>
    ⟨hs.proto, hs.size, by rw [h1]; exact hs.index, by rw [h2]; exact hs.wanted⟩
  obtain ⟨s, a, -, -, b⟩ := C86_entry_partial { c with mode := .batch } c (by simp) rfl rfl ntop6 now (CliIn.ofEntry e) hd.msg
    (fun h => by
      have := hs.size
      rw [hlen]
      exact decodes_advert hd (by simp only [CliIn.ofEntry] at this; omega))
    (fun _ hp => by rw [hlen]; exact hb hp) cst hok
  rw [clientMsg_entry (c := { c with mode := .batch }) hd (hsel rfl rfl) (by simp) hl hn] at a
  injection a with a
  injection a with _ a
  injection a with _ a
  injection a with a
  rw [a]
  exact b

/-! ### Examples -/

/-- The entry of `richTlvs`: everything the table shows of it. -/
example : clientMsg { protos := 255 } 2 {} richEntry = .ok ({}, [], some
      { index := 3, name := lit "eth0", proto := 0, ttl := 120, hold := 118,
        peer := { hostname := some (lit "sw"), portdescr := some (lit "up"), cap := some (lit "B"), inet4 := some [10, 0, 0, 1], vlan := some (lit "17") },
        frame := richEntry.msg.take 102 }) ∧
    (reportMsg { protos := 255, mode := .print } no6 2 2 {} richEntry).res = .ok ({}, true) := by
  constructor <;> decide +kernel

/-- Two neighbours delivered by the daemon: the hypotheses of `C86_daemon_partial`, and the report of the first has its two names. -/
example : childRun 0 { netifs := sampleState.netifs } twoOps = .ok twoState ∧
    (∀ e ∈ delivered twoState 2, e.proto ≠ 0 ∧ 102 - e.received ≤ e.ttl ∧ e.received ≤ 102 ∧
      (reportMsg { protos := 255, mode := .print } no6 102 102 {} (CliIn.ofEntry e)).res = .ok ({}, true)) ∧
    (delivered twoState 2).map (fun e => (e.proto, e.peer.hostname, e.peer.portname)) =
      [(1, some (lit "sw1"), some (lit "eeeeeeeeeeeeeeeeeeeeeeeee")), (4, none, none)] := by
  refine ⟨by decide +kernel, by decide +kernel, by decide +kernel⟩

/-! ### Where the claim fails -/

/-- A neighbour whose port the table shows and the report does not, because it breaks off before. -/
theorem C86_cut : ∃ s, clientMsg { protos := 255 } 2 {} duplexEntry = .ok ({}, [], some s) ∧ s.peer.portname = some (List.replicate 18 0x65) ∧
    ¬ Agree no6 (reportMsg { protos := 255, mode := .print } no6 2 2 {} duplexEntry).text s := by
  refine ⟨{ index := 3, name := lit "eth0", proto := 1, ttl := 180, hold := 178,
            peer := { hostname := some (lit "sw1"), portname := some (List.replicate 18 0x65) }, frame := duplexEntry.msg.take 61 },
    by decide +kernel, rfl, fun h => ?_⟩
  have ht : (reportMsg { protos := 255, mode := .print } no6 2 2 {} duplexEntry).text = lit "CDP Version: 2\nHoldtime: 178\nDevice ID: sw1\n" := by
    decide +kernel
  obtain ⟨a, b, e, -⟩ := (h.2.1 (Or.inl rfl)).1.portname _ rfl
  have := congrArg List.length (ht.symm.trans e)
  simp only [List.length_append, List.length_replicate] at this
  have h1 : (lit "CDP Version: 2\nHoldtime: 178\nDevice ID: sw1\n").length = 44 := by decide
  have h2 : (lit "Interface: ").length = 11 := by decide
  have h3 : (lit ", Port ID (outgoing port): ").length = 27 := by decide
  have h4 : (lit "eth0").length = 4 := by decide
  omega

/-- The other direction fails too: a neighbour whose port is identified by its Ethernet address has that port in the report and none in the table. -/
theorem C86_blank : ∃ s, clientMsg { protos := 255 } 2 {} richEntry = .ok ({}, [], some s) ∧ s.peer.portname = none ∧
    HasLine (reportMsg { protos := 255, mode := .print } no6 2 2 {} richEntry).text (labelled (lit "Port id") (lit "02:00:00:00:00:ab")) := by
  refine ⟨{ index := 3, name := lit "eth0", proto := 0, ttl := 120, hold := 118,
            peer := { hostname := some (lit "sw"), portdescr := some (lit "up"), cap := some (lit "B"), inet4 := some [10, 0, 0, 1], vlan := some (lit "17") },
            frame := richEntry.msg.take 102 },
    by decide +kernel, rfl, lit "Chassis id: 02:00:00:00:00:09\n",
    lit "Time remaining: 118 seconds\nPort Description: up\nSystem Name: sw\nSystem Description:\n  a\n  b\nSystem Capabilities: BR\nEnabled Capabilities: B\nManagement Address IPv4: 10.0.0.1\nPort VLAN ID: 17\n", ?_, ?_⟩
  · decide +kernel
  · exact Or.inr (by decide)

end Ladvd.Props
