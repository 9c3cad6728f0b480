import Verif.Lemmas.Network
import Verif.Lemmas.Report
import Verif.Spec.Stale
/-!
# The client over tables with expired entries
-/

namespace Ladvd

open Spec

/-- A frame that was decoded once is decoded or rejected, whatever is left of other messages. -/
theorem decode_total {p : Proto} {print : Bool} {f pad : Bytes} {s0 m0 : Msg} {n0 : Nat} (h1 : 26 ≤ f.length) (h2 : f.length ≤ 1518)
    (hp : 2 ≤ pad.length) (h : p.decode print (f ++ pad) f.length s0 = .ok (m0, n0)) (s : Msg) :
    p.decode print (f ++ pad) f.length s = .fail ∨ ∃ m n, p.decode print (f ++ pad) f.length s = .ok (m, n) := by
  cases p with
  | lldp =>
    have h : lldpDecode print (f ++ pad) f.length s0 = .ok (m0, n0) := h
    rcases lldpDecode_sound print f pad s (by omega) h2 hp with ⟨-, hn⟩ | ⟨hf, -⟩ | ⟨_, _, _, _, _, hf⟩
    · rcases lldpDecode_sound print f pad s0 (by omega) h2 hp with ⟨hf, -⟩ | ⟨-, hf⟩ | ⟨_, _, _, hf, _⟩
      · rw [hf] at h; cases h
      · exact absurd hf hn
      · exact absurd ⟨_, hf⟩ hn
    · exact .inl hf
    · exact .inr ⟨_, _, hf⟩
  | cdp =>
    have h : cdpDecode print (f ++ pad) f.length s0 = .ok (m0, n0) := h
    rcases cdpDecode_sound print f pad s h1 h2 with ⟨-, hn⟩ | ⟨hf, -⟩ | ⟨_, _, _, _, hf⟩
    · rcases cdpDecode_sound print f pad s0 h1 h2 with ⟨hf, -⟩ | ⟨-, hf⟩ | ⟨_, _, hf, _⟩
      · rw [hf] at h; cases h
      · exact absurd hf hn
      · exact absurd ⟨_, hf⟩ hn
    · exact .inl hf
    · exact .inr ⟨_, _, hf⟩
  | cdp1 =>
    have h : cdpDecode print (f ++ pad) f.length s0 = .ok (m0, n0) := h
    rcases cdpDecode_sound print f pad s h1 h2 with ⟨-, hn⟩ | ⟨hf, -⟩ | ⟨_, _, _, _, hf⟩
    · rcases cdpDecode_sound print f pad s0 h1 h2 with ⟨hf, -⟩ | ⟨-, hf⟩ | ⟨_, _, hf, _⟩
      · rw [hf] at h; cases h
      · exact absurd hf hn
      · exact absurd ⟨_, hf⟩ hn
    · exact .inl hf
    · exact .inr ⟨_, _, hf⟩
  | edp =>
    have h : edpDecode (f ++ pad) f.length s0 = .ok (m0, n0) := h
    rcases edpDecode_sound f pad s h1 h2 with ⟨-, hn⟩ | ⟨hf, -⟩ | ⟨_, _, _, _, hf⟩
    · rcases edpDecode_sound f pad s0 h1 h2 with ⟨hf, -⟩ | ⟨-, hf⟩ | ⟨_, _, hf, _⟩
      · rw [hf] at h; cases h
      · exact absurd hf hn
      · exact absurd ⟨_, hf⟩ hn
    · exact .inl hf
    · exact .inr ⟨_, _, hf⟩
  | fdp =>
    have h : fdpDecode (f ++ pad) f.length s0 = .ok (m0, n0) := h
    rcases fdpDecode_sound f pad s h1 h2 with ⟨-, hn⟩ | ⟨hf, -⟩ | ⟨_, _, _, _, hf⟩
    · rcases fdpDecode_sound f pad s0 h1 h2 with ⟨hf, -⟩ | ⟨-, hf⟩ | ⟨_, _, hf, _⟩
      · rw [hf] at h; cases h
      · exact absurd hf hn
      · exact absurd ⟨_, hf⟩ hn
    · exact .inl hf
    · exact .inr ⟨_, _, hf⟩
  | ndp =>
    have h : ndpDecode (f ++ pad) f.length s0 = .ok (m0, n0) := h
    rcases ndpDecode_spec f pad s h1 h2 with ⟨-, hn⟩ | ⟨_, -, -, hf⟩ | ⟨_, -, -, hf⟩
    · rcases ndpDecode_spec f pad s0 h1 h2 with ⟨hf, -⟩ | ⟨_, hf, -⟩ | ⟨_, hf, -⟩
      · rw [hf] at h; cases h
      · exact absurd ⟨_, hf⟩ hn
      · exact absurd ⟨_, hf⟩ hn
    · exact .inl hf
    · exact .inr ⟨_, _, hf⟩

/-- What can be seen of an entry whatever is left of other messages: it is not shown, or with everything but the peer's data as stored. -/
structure Outline (now : Int) (e : Entry) (s : Option Shown) : Prop where
  fresh : s ≠ none → now - e.received ≤ e.ttl
  same : ∀ x, s = some x → x.index = e.index ∧ x.name = e.name ∧ x.ttl = e.ttl ∧ (e.received ≤ now → x.hold = (e.ttl - (now - e.received)).toNat) ∧
    x.frame = e.msg.take e.len

/-- One message, whatever is left of other messages. -/
theorem clientMsg_any {c : CliConf} {now : Int} (hc : c.mode ≠ .print) {e : Entry} (he : Stored e) (st : CliSt) :
    ∃ st' s, clientMsg c now st (CliIn.ofEntry e) = .ok (st', [], s) ∧ Outline now e s ∧
      (asked c e = false → st' = st ∧ s = none) ∧ (asked c e = true → now - e.received ≤ e.ttl → st' = {}) ∧
      (asked c e = true → st = {} → now - e.received ≤ e.ttl → e.received ≤ now → s = some (display now e)) := by
  cases ha : asked c e with
  | false =>
    refine ⟨st, none, clientMsg_skip (fun hs => by rw [(stored_selected he).mp hs] at ha; cases ha), ⟨fun h => absurd rfl h, fun _ h => (by cases h)⟩,
      fun _ => ⟨rfl, rfl⟩, fun h => (by cases h), fun h => (by cases h)⟩
  | true =>
    have hs := (stored_selected he).mpr ha
    have hlast : ∀ st' s, clientMsg c now st (CliIn.ofEntry e) = .ok (st', [], s) → true = true → st = {} → now - e.received ≤ e.ttl →
        e.received ≤ now → s = some (display now e) := by
      rintro st' s h - rfl h3 h4
      rw [clientMsg_entry he.dec hs hc h3 h4] at h
      cases h
      rfl
    obtain ⟨p, m0, n0, hp, hdec, -, -, httl, -⟩ := he.dec.dec
    have hpr : (c.mode == .print) = false := by simpa using hc
    rcases clientMsg_cases c now st (CliIn.ofEntry e) with ⟨hns, _⟩ | ⟨p', _, hp', h'⟩
    · exact absurd hs hns
    have : p' = p := by
      have : Proto.ofNum e.proto = some p' := hp'
      rw [hp] at this; cases this; rfl
    subst this
    have hl := he.dec.len
    have hm := he.dec.msg
    have hmin := he.min
    have hf : (e.msg.take e.len).length = e.len := by rw [List.length_take]; omega
    have e1 : e.msg ++ [1, 0] = e.msg.take e.len ++ (e.msg.drop e.len ++ [1, 0]) := by rw [← List.append_assoc, List.take_append_drop]
    have hdec2 := hdec
    rw [e1] at hdec2
    rw [hpr] at h'
    have e2 : (CliIn.ofEntry e).msg ++ [(if false = true then 2 else 1 : UInt8), 0] = e.msg ++ [1, 0] := rfl
    have e3 : (CliIn.ofEntry e).len.toNat = e.len := rfl
    rw [e2, e3] at h'
    have htot := decode_total (p := p') (print := false) (f := e.msg.take e.len) (pad := e.msg.drop e.len ++ [1, 0]) (by omega) (by omega) (by simp)
      (by rw [hf]; exact hdec2) { proto := e.proto, ttl := st.ttl, peer := st.peer }
    rw [hf, ← e1] at htot
    have e4 : ({ proto := (CliIn.ofEntry e).proto, ttl := st.ttl, peer := st.peer } : Msg) = { proto := e.proto, ttl := st.ttl, peer := st.peer } := rfl
    rw [e4] at h'
    have hnone : Outline now e none := ⟨fun h => absurd rfl h, fun _ h => by cases h⟩
    rcases htot with hd | ⟨m, n, hd⟩
    · rw [hd] at h'
      exact ⟨_, _, h', hnone, fun h => (by cases h), fun _ _ => rfl, hlast _ _ h'⟩
    · rw [hd] at h'
      dsimp only at h'
      by_cases hn : n = 0
      · rw [if_pos hn] at h'
        exact ⟨_, _, h', hnone, fun h => (by cases h), fun _ _ => rfl, hlast _ _ h'⟩
      · rw [if_neg hn] at h'
        have w1 := decode_announces (e := CliIn.ofEntry e) (x := [1, 0]) hm hs rfl hd
        have w0 := decode_announces (e := CliIn.ofEntry e) (x := [1, 0]) hm hs rfl hdec
        have hmt : m.ttl = e.ttl := by
          rw [← httl]
          exact announces_unique (by rw [e3]; show 26 ≤ (e.msg.take e.len).length; omega) w1.1 w0.1
        have hout : m.out = [] := w1.2.2 rfl
        unfold cliShow at h'
        rw [hmt, hout] at h'
        have e5 : (CliIn.ofEntry e).received = e.received := rfl
        rw [e5] at h'
        by_cases hx : (e.ttl : Int) < now - e.received
        · rw [if_pos hx] at h'
          exact ⟨_, _, h', hnone, fun h => (by cases h), fun _ h => (by omega), hlast _ _ h'⟩
        · rw [if_neg hx] at h'
          have hrd : rd (CliIn.ofEntry e).msg 0 (CliIn.ofEntry e).len.toNat = .ok (e.msg.take e.len) := by
            unfold rd
            have : 0 + e.len ≤ e.msg.length := by omega
            show (if 0 + e.len ≤ e.msg.length then _ else _) = _
            rw [if_pos this, List.drop_zero]; rfl
          rw [hrd] at h'
          simp only [Res.bind_eq, Res.bind_ok, Res.pure_eq] at h'
          refine ⟨_, _, h', ⟨fun _ => by omega, fun x hx => ?_⟩, fun h => (by cases h), fun _ _ => rfl, hlast _ _ h'⟩
          obtain rfl := Option.some.inj hx
          have hlt := announces_lt w1.1
          rw [hmt] at hlt
          refine ⟨rfl, rfl, rfl, fun hr => ?_, rfl⟩
          show (((e.ttl : Int) - (now - e.received)) % 65536).toNat = _
          omega

/-- The whole loop, whatever is left of other messages. -/
theorem clientLoop_any {c : CliConf} {now : Int} (ho : c.once = false) (hc : c.mode ≠ .print) : ∀ (es : List Entry) (st : CliSt), (∀ e ∈ es, Stored e) →
    ∃ shown : List (Option Shown), clientLoop c now st (es.map CliIn.ofEntry) = .ok (shown.map (fun s => ([], s))) ∧ shown.length = es.length ∧
      ∀ pre e post, es = pre ++ e :: post → ∃ s, shown[pre.length]? = some s ∧ Outline now e s ∧ (asked c e = false → s = none) ∧
        (asked c e = true → now - e.received ≤ e.ttl → e.received ≤ now → (st = {} ∨ ∃ y ∈ pre, asked c y = true) →
          (∀ pre1 y mid, pre = pre1 ++ y :: mid → asked c y = true → (∀ z ∈ mid, asked c z = false) → now - y.received ≤ y.ttl) →
          s = some (display now e))
  | [], st, _ => ⟨[], rfl, rfl, fun pre e post h => by cases pre <;> cases h⟩
  | e :: es, st, h => by
    obtain ⟨st', s, hm, hout, hskip, hclean, hshow⟩ := clientMsg_any (c := c) (now := now) hc (h e List.mem_cons_self) st
    obtain ⟨shown, hloop, hlen, hall⟩ := clientLoop_any ho hc es st' (fun x hx => h x (List.mem_cons_of_mem _ hx))
    refine ⟨s :: shown, ?_, by rw [List.length_cons, hlen, List.length_cons], ?_⟩
    · rw [List.map_cons, clientLoop, hm]
      simp only [Res.bind_eq, Res.bind_ok, Res.pure_eq, ho, Bool.and_false, Bool.false_eq_true, if_false]
      rw [hloop]
      rfl
    intro pre x post hsplit
    cases pre with
    | nil =>
      obtain ⟨rfl, rfl⟩ := List.cons.inj hsplit
      refine ⟨s, rfl, hout, fun ha => (hskip ha).2, fun ha hf hr hst _ => hshow ha ?_ hf hr⟩
      rcases hst with hst | ⟨y, hy, -⟩
      · exact hst
      · cases hy
    | cons a pre =>
      rw [List.cons_append] at hsplit
      obtain ⟨rfl, hsp⟩ := List.cons.inj hsplit
      obtain ⟨s', hs', hout', hskip', hshow'⟩ := hall pre x post hsp
      refine ⟨s', hs', hout', hskip', fun ha hf hr hst hlast => hshow' ha hf hr ?_ fun pre1 y mid hp => hlast (e :: pre1) y mid (by rw [hp]; rfl)⟩
      by_cases hex : ∃ y ∈ pre, asked c y = true
      · exact .inr hex
      · left
        cases hae : asked c e with
        | true =>
          exact hclean hae (hlast [] e pre rfl hae (fun z hz => by
            cases hz' : asked c z with
            | false => rfl
            | true => exact absurd ⟨z, hz, hz'⟩ hex))
        | false =>
          rw [(hskip hae).1]
          rcases hst with hst | ⟨y, hy, hya⟩
          · exact hst
          · rcases List.mem_cons.mp hy with rfl | hy
            · rw [hae] at hya; cases hya
            · exact absurd ⟨y, hy, hya⟩ hex

end Ladvd
