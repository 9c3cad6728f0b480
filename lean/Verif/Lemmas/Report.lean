import Verif.Lemmas.Print
import Verif.Lemmas.Cli
import Verif.Spec.Parent
/-!
# Reports of whole entries and runs
-/

namespace Ladvd

open Spec

/-! ## Every payload is a list of TLVs and a rest -/

theorem lldp_parse (n : Nat) : ∀ v : Bytes, v.length ≤ n → ∃ ts rest, v = lldpEnc ts ++ rest ∧ LldpWf ts ∧ (∀ t ∈ ts, t.1 ≠ 0) ∧ LldpRest rest := by
  induction n with
  | zero =>
    intro v hv
    exact ⟨[], v, rfl, by simp [LldpWf], by simp, Or.inl (Or.inl (by omega))⟩
  | succ n ih =>
    intro v hv
    by_cases h2 : v.length < 2
    · exact ⟨[], v, rfl, by simp [LldpWf], by simp, Or.inl (Or.inl h2)⟩
    obtain ⟨a, b, r, rfl⟩ := exists_two (v := v) (by omega)
    have hlt := beNat_lt_2 a b
    by_cases hl : (a :: b :: r).length < 2 + beNat [a, b] % 512
    · exact ⟨[], _, rfl, by simp [LldpWf], by simp, Or.inl (Or.inr (Or.inl hl))⟩
    simp only [List.length_cons] at hl hv
    by_cases h0 : beNat [a, b] / 512 = 0
    · by_cases hz : beNat [a, b] % 512 = 0
      · have e0 : beNat [a, b] = 0 := by omega
        have := be16_beNat a b
        rw [e0] at this
        have e : be16 0 = [0, 0] := by decide
        rw [e] at this
        cases this
        exact ⟨[], _, rfl, by simp [LldpWf], by simp, Or.inr ⟨r, rfl⟩⟩
      · exact ⟨[], _, rfl, by simp [LldpWf], by simp, Or.inl (Or.inr (Or.inr ⟨h0, hz⟩))⟩
    · obtain ⟨ts, rest, e, hw, hn, hr⟩ := ih (r.drop (beNat [a, b] % 512)) (by simp; omega)
      have hlen : (r.take (beNat [a, b] % 512)).length = beNat [a, b] % 512 := by simp; omega
      refine ⟨(beNat [a, b] / 512, r.take (beNat [a, b] % 512)) :: ts, rest, ?_, ?_, ?_, hr⟩
      · rw [lldpEnc_cons, List.append_assoc, ← e, lldp_hdr a b _ hlen]
        simp
      · intro t ht
        rcases List.mem_cons.mp ht with rfl | ht
        · exact ⟨by simp only; omega, by simp only [hlen]; omega⟩
        · exact hw t ht
      · intro t ht
        rcases List.mem_cons.mp ht with rfl | ht
        · exact h0
        · exact hn t ht

theorem cdp_parse (n : Nat) : ∀ v : Bytes, v.length ≤ n → ∃ ts rest, v = cdpEnc ts ++ rest ∧ CdpWf ts ∧ (rest = [] ∨ CdpCut rest) := by
  induction n with
  | zero =>
    intro v hv
    exact ⟨[], v, rfl, by simp [CdpWf], Or.inl (List.length_eq_zero_iff.mp (by omega))⟩
  | succ n ih =>
    intro v hv
    by_cases hv0 : v = []
    · exact ⟨[], v, rfl, by simp [CdpWf], Or.inl hv0⟩
    have hv1 : v.length ≠ 0 := fun h => hv0 (List.length_eq_zero_iff.mp h)
    by_cases h4 : v.length < 4
    · exact ⟨[], v, rfl, by simp [CdpWf], Or.inr (Or.inl ⟨by omega, h4⟩)⟩
    obtain ⟨a, b, x, y, r, rfl⟩ := exists_four (v := v) (by omega)
    have hlt := beNat_lt_2 x y
    have hlt' := beNat_lt_2 a b
    by_cases hl : beNat [x, y] < 4 ∨ (a :: b :: x :: y :: r).length < beNat [x, y]
    · exact ⟨[], _, rfl, by simp [CdpWf], Or.inr (Or.inr ⟨by omega, hl⟩)⟩
    simp only [List.length_cons] at hl hv
    obtain ⟨ts, rest, e, hw, hr⟩ := ih (r.drop (beNat [x, y] - 4)) (by simp; omega)
    have hlen : (r.take (beNat [x, y] - 4)).length + 4 = beNat [x, y] := by simp; omega
    refine ⟨(beNat [a, b], r.take (beNat [x, y] - 4)) :: ts, rest, ?_, ?_, hr⟩
    · rw [cdpEnc_cons, List.append_assoc, ← e]
      simp only [cdpEnc1, hlen, be16_beNat]
      simp
    · intro t ht
      rcases List.mem_cons.mp ht with rfl | ht
      · exact ⟨hlt', by simp only [hlen]; omega⟩
      · exact hw t ht

/-! ## Entries -/

theorem reportMsg_cases (c : CliConf) (ntop6 : Bytes → Bytes) (now clock : Int) (st : CliSt) (e : CliIn) :
    (¬ Selected c e ∧ reportMsg c ntop6 now clock st e = quiet (.ok (st, false))) ∨
    ∃ p, Selected c e ∧ Proto.ofNum e.proto = some p ∧ reportMsg c ntop6 now clock st e =
      (let d := p.decodeP ⟨clock, e.received, e.name, ntop6⟩ (e.msg ++ [2, 0]) e.len.toNat
        { proto := e.proto, ttl := st.ttl, peer := st.peer }
      match d.res with
      | .abort => ⟨d.text, .abort⟩
      | .oob => ⟨d.text, .oob⟩
      | .stuck => ⟨d.text, .stuck⟩
      | .fail => ⟨d.text, .ok ({}, false)⟩
      | .ok (m, n) =>
        if n = 0 then ⟨d.text, .ok ({}, false)⟩
        else if (m.ttl : Int) < now - e.received then ⟨d.text, .ok (⟨m.ttl, m.peer⟩, false)⟩
        else ⟨d.text, .ok ({}, true)⟩) := by
  unfold reportMsg
  split
  · next hp =>
    left
    refine ⟨fun h => ?_, rfl⟩
    have h := h.proto
    have : ∀ n < 6, Proto.ofNum n ≠ none := by decide
    exact this _ h hp
  next p hp =>
  have h6 : e.proto < 6 := by
    rcases Nat.lt_or_ge e.proto 6 with h | h
    · exact h
    · exfalso
      obtain ⟨k, hk⟩ : ∃ k, e.proto = k + 6 := ⟨e.proto - 6, by omega⟩
      rw [hk] at hp
      cases hp
  by_cases hl : e.len < ETHER_MIN_LEN - 4 ∨ e.len > ETHER_MAX_LEN
  · rw [if_pos hl]
    left
    refine ⟨fun h => ?_, rfl⟩
    have := h.size
    simp only [ETHER_MIN_LEN, ETHER_MAX_LEN] at hl
    omega
  rw [if_neg hl]
  by_cases hw : (!cliWants c e.index) = true
  · rw [if_pos hw]
    left
    refine ⟨fun h => ?_, rfl⟩
    have := h.index
    unfold cliWants at hw
    cases hi : c.indexes with
    | none => rw [hi] at hw; cases hw
    | some l => rw [hi] at hw; have := this l hi; simp [this] at hw
  rw [if_neg hw]
  by_cases hb : (!c.protos.testBit e.proto) = true
  · rw [if_pos hb]
    left
    refine ⟨fun h => ?_, rfl⟩
    have := h.wanted
    rw [this] at hb; cases hb
  rw [if_neg hb]
  right
  refine ⟨p, ⟨h6, ?_, ?_, ?_⟩, hp, rfl⟩
  · simp only [ETHER_MIN_LEN, ETHER_MAX_LEN] at hl; omega
  · intro l hi
    unfold cliWants at hw
    rw [hi] at hw
    simpa using hw
  · simpa using hb

theorem nameIt_ttl (ts : List Tlv) : ∀ s : Msg, (ts.foldl nameIt s).ttl = s.ttl := by
  induction ts with
  | nil => intro s; rfl
  | cons t ts ih =>
    intro s
    rw [List.foldl_cons, ih]
    unfold nameIt
    split <;> rfl

/-- A report that reaches the end starts with the three mandatory TLVs. -/
theorem lldpReport_head {env : PrintEnv} {named : Bool} {ts : List Tlv} (h : (lldpReport env named ts).2 = true) :
    ∃ chassis port t0 t1 r, ts = (1, chassis) :: (2, port) :: (3, [t0, t1]) :: r := by
  unfold lldpReport at h
  split at h
  · cases h
  next t1 chassis ts =>
  split at h
  · cases h
  next a ha =>
  split at h
  · cases h
  next t2 port ts =>
  split at h
  · cases h
  next b hb =>
  split at h
  · cases h
  next t3 ttl ts =>
  split at h
  · next h3 =>
    have e1 : t1 = 1 := by
      by_cases e : t1 = 1
      · exact e
      · rw [if_neg e] at ha; cases ha
    have e2 : t2 = 2 := by
      by_cases e : t2 = 2
      · exact e
      · rw [if_neg e] at hb; cases hb
    obtain ⟨x, y, rfl⟩ := exists_two' h3.2
    exact ⟨chassis, port, x, y, ts, by rw [e1, e2, h3.1]⟩
  · cases h

/-- What decoding in print mode does with a frame of the protocol. -/
theorem decodeP_reported (env : PrintEnv) (p : Proto) (f pad : Bytes) (s : Msg) (h1 : 60 ≤ f.length) (h2 : f.length ≤ 1518)
    (hpad : 2 ≤ pad.length) (hs : s.peer = {}) (ha : Advert p.num f) (hb : p = .lldp → ¬ MacPort f) :
    ∃ ok, Reported env p f (p.decodeP env (f ++ pad) f.length s).text ok ∧
      ((ok = false ∧ (p.decodeP env (f ++ pad) f.length s).res = .fail) ∨
       (ok = true ∧ ∃ m n, (p.decodeP env (f ++ pad) f.length s).res = .ok (m, n) ∧ n ≠ 0 ∧ Announces p f m.ttl)) := by
  cases p with
  | lldp =>
    obtain ⟨q, hq⟩ := ha
    obtain ⟨ts, rest, rfl, hw, hz, hr⟩ := lldp_parse q.length q (Nat.le_refl _)
    have hpf : PortFine ts := by
      intro v hv hbad
      match ts, hv with
      | t :: u :: ts', hv =>
        simp only [List.getElem?_cons_succ, List.getElem?_cons_zero, Option.some.injEq] at hv
        subst hv
        refine hb rfl ⟨t, v, lldpEnc ts' ++ rest, (hw t (by simp)).1, (hw t (by simp)).2, (hw (2, v) (by simp)).2, ?_, hbad⟩
        simpa [lldpEnc_cons, lldpEnc] using hq
    have hst : s.peer.hostname.isSome = false := by rw [hs]; rfl
    obtain ⟨e1, e2⟩ := lldpDecodeP_eq env f pad ts rest s (by omega) h2 hpad hq hw hz hr hpf
    rw [hst] at e1 e2
    show ∃ ok, Reported env .lldp f (lldpDecodeP env (f ++ pad) f.length s).text ok ∧ _
    have hnc : ∀ trailer : Bytes, ¬ LldpCut (0 :: 0 :: trailer) := by
      intro trailer hc
      have e : beNat ((0 :: 0 :: trailer : Bytes).take 2) = 0 := by simp [beNat]
      unfold LldpCut at hc
      rw [e] at hc
      simp only [List.length_cons] at hc
      omega
    rcases e2 with ⟨h3, trailer, ttl, rfl, htl, e2⟩ | ⟨h3, e2⟩
    · refine ⟨true, ⟨ts, _, hq, hw, hz, Or.inr ⟨trailer, rfl⟩, e1, by simp [h3, hnc]⟩, Or.inr ⟨rfl, _, _, e2, ?_, ?_⟩⟩
      · obtain ⟨pre, hpre, e⟩ := hq
        have := congrArg List.length e
        simp only [List.length_append, List.length_cons] at this
        omega
      · rw [nameIt_ttl]
        obtain ⟨ch, po, t0, t1, r, rfl⟩ := lldpReport_head h3
        cases htl
        refine ⟨ch, po, t0, t1, lldpEnc r ++ 0 :: 0 :: trailer, (hw (1, ch) (by simp)).2, (hw (2, po) (by simp)).2, ?_, ?_⟩
        · simpa [lldpEnc_cons, lldpEnc] using hq
        · simp only [beNat_2]
    · refine ⟨false, ⟨ts, _, hq, hw, hz, hr, e1, ?_⟩, Or.inl ⟨rfl, e2⟩⟩
      simp only [Bool.false_eq_true, false_iff]
      rintro ⟨x, y⟩
      rcases h3 with h3 | h3
      · rw [h3] at x; cases x
      · exact y h3
  | cdp | cdp1 =>
    obtain ⟨q, hq⟩ := ha
    have hql : 4 ≤ q.length := by
      obtain ⟨pre, hpre, e⟩ := hq
      have := llcPrefix_length rfl rfl rfl hpre
      have := congrArg List.length e
      simp only [List.length_append] at this
      omega
    obtain ⟨ver, ttl, k0, k1, r, rfl⟩ := exists_four hql
    obtain ⟨ts, rest, rfl, hw, hr⟩ := cdp_parse r.length r (Nat.le_refl _)
    obtain ⟨e1, e2⟩ := cdpDecodeP_eq env f pad ver ttl k0 k1 ts rest s (by omega) h2 hq hw hr
    by_cases hc : (cdpReport env ver ttl ts).2 = true ∧ rest = []
    · rw [if_pos hc] at e2
      exact ⟨true, ⟨ver, ttl, k0, k1, ts, rest, hq, hw, hr, e1, by simp [hc]⟩,
        Or.inr ⟨rfl, _, _, e2, by omega, ver, ttl, k0, k1, _, hq, rfl⟩⟩
    · rw [if_neg hc] at e2
      exact ⟨false, ⟨ver, ttl, k0, k1, ts, rest, hq, hw, hr, e1, by simpa using hc⟩, Or.inl ⟨rfl, e2⟩⟩
  | edp =>
    rcases edpDecode_sound f pad s (by omega) h2 with ⟨_, hn⟩ | ⟨he, _⟩ | ⟨q, s', hq, hp, he⟩
    · exact absurd ha hn
    · refine ⟨false, ⟨rfl, ?_⟩, Or.inl ⟨rfl, he⟩⟩
      simp only [Bool.false_eq_true, false_iff]
      rintro ⟨q, s', hq, hdr, ts, e, hh, hw, rfl⟩
      have := edpDecode_complete f pad q s _ (by omega) h2 hq ⟨hdr, ts, e, hh, hw, rfl⟩
      rw [he] at this; cases this
    · refine ⟨true, ⟨rfl, ?_⟩, Or.inr ⟨rfl, _, _, he, by omega, ?_⟩⟩
      · obtain ⟨hdr, ts, e, hh, hw, _⟩ := hp
        simp only [true_iff]
        exact ⟨q, _, hq, hdr, ts, e, hh, hw, rfl⟩
      · have := decode_wire (f := f) (pad := pad) (s := s) (m := s') (n := f.length) (p := .edp) (print := true) (by omega) h2 hpad he
        exact this.1
  | fdp =>
    rcases fdpDecode_sound f pad s (by omega) h2 with ⟨_, hn⟩ | ⟨he, _⟩ | ⟨q, s', hq, hp, he⟩
    · exact absurd ha hn
    · refine ⟨false, ⟨rfl, ?_⟩, Or.inl ⟨rfl, he⟩⟩
      simp only [Bool.false_eq_true, false_iff]
      rintro ⟨q, s', hq, ttl, k0, k1, ts, e, hw, rfl⟩
      have := fdpDecode_complete f pad q s _ (by omega) h2 hq ⟨ttl, k0, k1, ts, e, hw, rfl⟩
      rw [he] at this; cases this
    · refine ⟨true, ⟨rfl, ?_⟩, Or.inr ⟨rfl, _, _, he, by omega, ?_⟩⟩
      · obtain ⟨ttl, k0, k1, ts, e, hw, _⟩ := hp
        simp only [true_iff]
        exact ⟨q, _, hq, ttl, k0, k1, ts, e, hw, rfl⟩
      · have := decode_wire (f := f) (pad := pad) (s := s) (m := s') (n := f.length) (p := .fdp) (print := true) (by omega) h2 hpad he
        exact this.1
  | ndp =>
    obtain ⟨q, hq⟩ := ha
    have hql : 11 ≤ q.length := by
      obtain ⟨pre, hpre, e⟩ := hq
      have := llcPrefix_length rfl rfl rfl hpre
      have := congrArg List.length e
      simp only [List.length_append] at this
      omega
    rcases ndpDecode_spec f pad s (by omega) h2 with ⟨_, hn⟩ | ⟨q', hq', hl, _⟩ | ⟨q', hq', hl, he⟩
    · exact absurd ⟨q, hq⟩ hn
    · exfalso
      obtain ⟨pre, hpre, e⟩ := hq'
      have := llcPrefix_length rfl rfl rfl hpre
      have := congrArg List.length e
      simp only [List.length_append] at this
      omega
    · have hle : q'.length ≤ f.length := by
        obtain ⟨pre, hpre, e⟩ := hq'
        rw [e]; simp
      refine ⟨true, ⟨rfl, by simp only [true_iff]; exact ⟨q, hq, hql⟩⟩, Or.inr ⟨rfl, _, _, he, by omega, rfl⟩⟩

/-- A frame announces one lifetime. -/
theorem announces_unique {p : Proto} {f : Bytes} {a b : Nat} (h1 : 26 ≤ f.length) (ha : Announces p f a) (hb : Announces p f b) : a = b := by
  have llc : ∀ {dst org : Bytes} (pid : Nat) {q q' : Bytes}, dst.length = 6 → org.length = 3 → LlcFrame dst org (be16 pid) f q →
      LlcFrame dst org (be16 pid) f q' → q = q' := by
    rintro dst org pid q q' hd ho ⟨pre, hpre, e⟩ ⟨pre', hpre', e'⟩
    exact (llcPrefix_unique hd ho h1 e hpre e' hpre').2
  cases p with
  | lldp =>
    obtain ⟨c1, p1, x, y, r, hc, hp, ⟨pre, hpre, e⟩, rfl⟩ := ha
    obtain ⟨c2, p2, x', y', r', hc', hp', ⟨pre', hpre', e'⟩, rfl⟩ := hb
    have := (lldpPrefix_unique (by omega) e hpre e' hpre').2
    simp only [lldpEnc_cons, List.append_assoc] at this
    have := (Props.lldpEnc1_inj (by simp) hc (by simp) hc' this).2
    have := (Props.lldpEnc1_inj (by simp) hp (by simp) hp' this).2
    have := (Props.lldpEnc1_inj (by simp) (by simp) (by simp) (by simp) this).1
    cases this; rfl
  | cdp | cdp1 =>
    obtain ⟨v, t, k0, k1, r, hf, rfl⟩ := ha
    obtain ⟨v', t', k0', k1', r', hf', rfl⟩ := hb
    have := llc 0x2000 rfl rfl hf hf'
    cases this; rfl
  | fdp =>
    obtain ⟨t, k0, k1, r, hf, rfl⟩ := ha
    obtain ⟨t', k0', k1', r', hf', rfl⟩ := hb
    have := llc 0x2000 rfl rfl hf hf'
    cases this; rfl
  | edp => exact Eq.trans ha (Eq.symm hb)
  | ndp => exact Eq.trans ha (Eq.symm hb)

/-- One entry. -/
theorem reportMsg_eq (c : CliConf) (ntop6 : Bytes → Bytes) (now clock : Int) (e : CliIn) (hm : e.msg.length = 1518)
    (ha : Selected c e → Advert e.proto (e.msg.take e.len.toNat)) (hb : Selected c e → e.proto = 0 → ¬ MacPort (e.msg.take e.len.toNat)) :
    ∃ ok st done, EntryReport c ntop6 clock e (reportMsg c ntop6 now clock {} e).text ok ∧
      (reportMsg c ntop6 now clock {} e).res = .ok (st, done) ∧
      (done = true ↔ ok = true ∧ ¬ Expired now e) ∧ (¬ (ok = true ∧ Expired now e) → st = {}) := by
  rcases reportMsg_cases c ntop6 now clock {} e with ⟨hs, h⟩ | ⟨p, hs, hp, h⟩
  · rw [h]
    exact ⟨false, {}, false, Or.inl ⟨hs, rfl, rfl⟩, rfl, by simp, by simp⟩
  · have hsz := hs.size
    obtain ⟨h1, h2⟩ := split_msg hm hsz [2, 0]
    have hnum := Proto.ofNum_num hp
    have hb' : p = .lldp → ¬ MacPort (e.msg.take e.len.toNat) := by
      rintro rfl
      exact hb hs hnum
    obtain ⟨ok, hr, hx⟩ := decodeP_reported ⟨clock, e.received, e.name, ntop6⟩ p (e.msg.take e.len.toNat) (e.msg.drop e.len.toNat ++ [2, 0])
      { proto := e.proto, ttl := 0, peer := {} } (by omega) (by omega) (by simp) rfl (by rw [← hnum]; exact ha hs) hb'
    rw [← h1, h2] at hr hx
    rw [h]
    dsimp only
    generalize hD : Proto.decodeP ⟨clock, e.received, e.name, ntop6⟩ p (e.msg ++ [2, 0]) e.len.toNat
      { proto := e.proto, ttl := 0, peer := {} } = D at hr hx ⊢
    rcases hx with ⟨rfl, hx⟩ | ⟨rfl, m, n, hx, hn, han⟩
    · rw [hx]
      exact ⟨false, {}, false, Or.inr ⟨hs, p, hp, hr⟩, rfl, by simp, by simp⟩
    · rw [hx]
      dsimp only
      rw [if_neg hn]
      by_cases ht : (m.ttl : Int) < now - e.received
      · rw [if_pos ht]
        have hex : Expired now e := ⟨p, m.ttl, hp, han, ht⟩
        exact ⟨true, _, false, Or.inr ⟨hs, p, hp, hr⟩, rfl, by simp [hex], by simp [hex]⟩
      · rw [if_neg ht]
        have hex : ¬ Expired now e := by
          rintro ⟨p', ttl, hp', ha', hl⟩
          rw [hp] at hp'
          cases hp'
          have := announces_unique (by omega) han ha'
          omega
        exact ⟨true, {}, true, Or.inr ⟨hs, p, hp, hr⟩, rfl, by simp [hex], by simp⟩

/-- Whole runs. -/
theorem reportLoop_eq (c : CliConf) (ntop6 : Bytes → Bytes) (now : Int) (es : List (Int × CliIn))
    (hm : ∀ x ∈ es, x.2.msg.length = 1518)
    (ha : ∀ x ∈ es, Selected c x.2 → Advert x.2.proto (x.2.msg.take x.2.len.toNat))
    (hb : ∀ x ∈ es, Selected c x.2 → x.2.proto = 0 → ¬ MacPort (x.2.msg.take x.2.len.toNat))
    (hu : ∀ x ∈ es, ¬ Expired now x.2) :
    ∃ rs : List (Bytes × Bool), rs.length = es.length ∧ (∀ x ∈ es.zip rs, EntryReport c ntop6 x.1.1 x.1.2 x.2.1 x.2.2) ∧
      reportLoop c ntop6 now {} es = ⟨outputOf c.once rs, .ok ()⟩ := by
  induction es with
  | nil => exact ⟨[], rfl, fun x hx => (by cases hx), rfl⟩
  | cons x es ih =>
    obtain ⟨clock, e⟩ := x
    obtain ⟨ok, st, done, h1, h2, h3, h4⟩ := reportMsg_eq c ntop6 now clock e (hm _ List.mem_cons_self) (ha _ List.mem_cons_self)
      (hb _ List.mem_cons_self)
    have hex := hu _ List.mem_cons_self
    have hst : st = {} := h4 (fun h => hex h.2)
    subst hst
    obtain ⟨rs, i1, i2, i3⟩ := ih (fun x hx => hm x (List.mem_cons_of_mem _ hx)) (fun x hx => ha x (List.mem_cons_of_mem _ hx))
      (fun x hx => hb x (List.mem_cons_of_mem _ hx)) (fun x hx => hu x (List.mem_cons_of_mem _ hx))
    have hd : done = ok := Bool.eq_iff_iff.mpr ⟨fun h => (h3.mp h).1, fun h => h3.mpr ⟨h, hex⟩⟩
    subst hd
    refine ⟨((reportMsg c ntop6 now clock {} e).text, done) :: rs, by simp [i1], ?_, ?_⟩
    · intro x hx
      rcases List.mem_cons.mp (by rw [List.zip_cons_cons] at hx; exact hx) with rfl | hx
      · exact h1
      · exact i2 x hx
    · rw [reportLoop]
      generalize reportMsg c ntop6 now clock {} e = D at h1 h2 ⊢
      obtain ⟨t, r⟩ := D
      dsimp only at h2 ⊢
      subst h2
      have e3 : lit "\n" = [0x0a] := by decide
      simp only [Pr.bind_eq, Pr.bind_mk_ok, Pr.bind_put, i3, e3]
      cases done <;> cases c.once <;> simp [outputOf]

end Ladvd
