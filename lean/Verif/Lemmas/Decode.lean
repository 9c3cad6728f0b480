import Verif.Lemmas.Frame
import Verif.Lemmas.OtherDecode
import Verif.Lemmas.LldpDecode
/-!
# The complete decoders against the wire specification

`f` is the received frame, `pad` whatever else is readable behind it.
-/

namespace Ladvd

open Spec

theorem subSize_eq {a b : Nat} (h : b ≤ a) : subSize a b = a - b := by
  unfold subSize; rw [if_pos h]

theorem payload_view {f pad pre payload : Bytes} (e : f = pre ++ payload) :
    View (f ++ pad) ⟨pre.length, payload.length⟩ payload := by
  subst e
  refine ⟨rfl, by simp, ?_⟩
  rw [List.append_assoc, List.drop_left, List.take_left]

/-- What the LLC checks tell a decoder. -/
theorem llc_cases (dst org : Bytes) (pid : Nat) (pb : Bytes) (f pad : Bytes) (hpb : be16 pid = pb) (hd : dst.length = 6) (ho : org.length = 3)
    (hp : pid < 65536) (h1 : 26 ≤ f.length) (h2 : f.length ≤ 1518) :
    (assertCheck (llcCheck dst org pid (f ++ pad) f.length) = .abort ∧
      ¬ ∃ payload, LlcFrame dst org pb f payload) ∨
    (∃ pre payload, f = pre ++ payload ∧ LlcPrefix dst org pb pre ∧
      assertCheck (llcCheck dst org pid (f ++ pad) f.length) = .ok pre.length ∧
      View (f ++ pad) ⟨pre.length, payload.length⟩ payload ∧
      subSize f.length pre.length = payload.length ∧ payload.length ≤ 1496 ∧
      ∀ payload', LlcFrame dst org pb f payload' → payload' = payload) := by
  subst hpb
  rcases llcCheck_spec dst org pid f pad hd ho hp h1 h2 with ⟨pre, payload, e, hpre, hok⟩ | ⟨hf, hn⟩
  · right
    have hl := llcPrefix_length hd ho (be16_length pid) hpre
    have hfl : f.length = pre.length + payload.length := by rw [e]; simp
    refine ⟨pre, payload, e, hpre, by rw [hok]; rfl, payload_view e, ?_, by omega, ?_⟩
    · rw [subSize_eq (by omega)]; omega
    · rintro payload' ⟨pre', hpre', e'⟩
      exact ((llcPrefix_unique hd ho h1 e hpre e' hpre').2).symm
  · left
    refine ⟨by rw [hf]; rfl, ?_⟩
    rintro ⟨payload, pre, hpre, e⟩
    exact hn ⟨pre, payload, e, hpre⟩

/-! ## CDP -/

theorem cdpHeader_view {m : Bytes} {c : Cur} {v : Bytes} (h : View m c v) (s : Msg) :
    cdpHeaderCheck m c s =
      match v with
      | ver :: ttl :: _ :: _ :: _ =>
        if ver = 1 ∨ ver = 2 then .ok { s with proto := (if ver = 1 then 5 else 1), ttl := ttl.toNat }
        else .fail
      | _ => .fail := by
  have hlen := h.len
  unfold cdpHeaderCheck
  match v, h, hlen with
  | [], h, hlen => rw [if_pos (by simp at hlen; omega)]
  | [a], h, hlen => rw [if_pos (by simp at hlen; omega)]
  | [a, b], h, hlen => rw [if_pos (by simp at hlen; omega)]
  | [a, b, x], h, hlen => rw [if_pos (by simp at hlen; omega)]
  | ver :: ttl :: x :: y :: r, h, hlen =>
    simp only [List.length_cons] at hlen
    rw [if_neg (by omega), h.rd (n := 4) (by simp)]
    simp only [Res.bind_eq, Res.bind_ok, List.take_succ_cons, List.take_zero, List.drop_succ_cons,
      List.drop_zero, beNat_1, Res.pure_eq]
    by_cases hv : ver = 1 ∨ ver = 2
    · rw [if_pos hv]
      rcases hv with rfl | rfl
      · simp
      · simp
    · rw [if_neg hv, if_pos]
      have h1 : ver.toNat ≠ 1 := fun h => hv (Or.inl ((u8_eq_lit ver 1 (by omega)).mp h))
      have h2 : ver.toNat ≠ 2 := fun h => hv (Or.inr ((u8_eq_lit ver 2 (by omega)).mp h))
      omega

theorem cdpDecode_sound (print : Bool) (f pad : Bytes) (s : Msg) (h1 : 26 ≤ f.length) (h2 : f.length ≤ 1518) :
    (cdpDecode print (f ++ pad) f.length s = .abort ∧ ¬ ∃ payload, CdpFrame f payload) ∨
    (cdpDecode print (f ++ pad) f.length s = .fail ∧ ∃ payload, CdpFrame f payload) ∨
    (∃ payload s', CdpFrame f payload ∧ cdpPayload print payload s s' ∧
      cdpDecode print (f ++ pad) f.length s = .ok (s', f.length)) := by
  unfold cdpDecode cdpCheck
  rcases llc_cases CDP_DST CDP_ORG CDP_PID [0x20, 0x00] f pad (by decide) rfl rfl (by decide) h1 h2 with
    ⟨ha, hn⟩ | ⟨pre, payload, e, hpre, hok, hview, hsub, hpl, _⟩
  · left; rw [ha]; exact ⟨Res.bind_abort _, hn⟩
  · right
    have hframe : CdpFrame f payload := ⟨pre, hpre, e⟩
    rw [hok]
    simp only [Res.bind_eq, Res.bind_ok, hsub, cdpHeader_view hview]
    match payload, hview with
    | [], _ => left; exact ⟨rfl, _, hframe⟩
    | [a], _ => left; exact ⟨rfl, _, hframe⟩
    | [a, b], _ => left; exact ⟨rfl, _, hframe⟩
    | [a, b, x], _ => left; exact ⟨rfl, _, hframe⟩
    | ver :: ttl :: x :: y :: r, hview =>
      dsimp only
      by_cases hv : ver = 1 ∨ ver = 2
      · rw [if_pos hv]
        simp only [Res.bind_ok]
        have h4 := hview.skip (n := 4) (by simp)
        simp only [List.drop_succ_cons, List.drop_zero] at h4
        simp only [List.length_cons] at hpl h4 ⊢
        rcases cdpLoop_sound print (r.length + 1 + 1 + 1 + 1 + 1) _ _ r
            { s with proto := (if ver = 1 then 5 else 1), ttl := ttl.toNat } h4 (by omega) (by omega) with
          hfail | ⟨ts, s', e1, e2, e3, e4⟩
        · left; rw [hfail]; exact ⟨Res.bind_fail _, _, hframe⟩
        · right
          refine ⟨_, s', hframe, ⟨ver, ttl, x, y, ts, by rw [← e1]; rfl, e2, hv, e3⟩, ?_⟩
          rw [e4]
          simp only [Res.bind_ok, Res.pure_eq]
          rw [e]; simp; omega
      · rw [if_neg hv]; left; exact ⟨rfl, _, hframe⟩

theorem cdpDecode_complete (print : Bool) (f pad payload : Bytes) (s s' : Msg) (h1 : 26 ≤ f.length)
    (h2 : f.length ≤ 1518) (hf : CdpFrame f payload) (hp : cdpPayload print payload s s') :
    cdpDecode print (f ++ pad) f.length s = .ok (s', f.length) := by
  unfold cdpDecode cdpCheck
  rcases llc_cases CDP_DST CDP_ORG CDP_PID [0x20, 0x00] f pad (by decide) rfl rfl (by decide) h1 h2 with
    ⟨ha, hn⟩ | ⟨pre, payload', e, hpre, hok, hview, hsub, hpl, huniq⟩
  · exact absurd ⟨payload, hf⟩ hn
  · have := huniq payload hf
    subst this
    obtain ⟨ver, ttl, k0, k1, ts, rfl, hw, hv, hm⟩ := hp
    rw [hok]
    simp only [Res.bind_eq, Res.bind_ok, hsub, cdpHeader_view hview]
    simp only [List.cons_append, List.nil_append]
    rw [if_pos hv]
    simp only [Res.bind_ok]
    have h4 := hview.skip (n := 4) (by simp)
    simp only [List.cons_append, List.nil_append, List.drop_succ_cons, List.drop_zero, List.length_cons] at h4
    simp only [List.length_cons]
    rw [cdpLoop_complete print _ _ _ ts _ s' h4 (by omega) hw hm]
    simp only [Res.bind_ok, Res.pure_eq]
    rw [e]; simp; omega

/-! ## FDP -/

theorem fdpDecode_sound (f pad : Bytes) (s : Msg) (h1 : 26 ≤ f.length) (h2 : f.length ≤ 1518) :
    (fdpDecode (f ++ pad) f.length s = .abort ∧ ¬ ∃ payload, FdpFrame f payload) ∨
    (fdpDecode (f ++ pad) f.length s = .fail ∧ ∃ payload, FdpFrame f payload) ∨
    (∃ payload s', FdpFrame f payload ∧ fdpPayload payload s s' ∧
      fdpDecode (f ++ pad) f.length s = .ok (s', f.length)) := by
  unfold fdpDecode fdpCheck
  rcases llc_cases FDP_DST FDP_ORG FDP_PID [0x20, 0x00] f pad (by decide) rfl rfl (by decide) h1 h2 with
    ⟨ha, hn⟩ | ⟨pre, payload, e, hpre, hok, hview, hsub, hpl, _⟩
  · left; rw [ha]; exact ⟨Res.bind_abort _, hn⟩
  · right
    have hframe : FdpFrame f payload := ⟨pre, hpre, e⟩
    rw [hok]
    simp only [Res.bind_eq, Res.bind_ok, hsub]
    by_cases hl : payload.length < 4
    · rw [if_pos hl]; left; exact ⟨rfl, _, hframe⟩
    rw [if_neg hl]
    have hrd := hview.rd (n := 4) (by omega)
    simp only at hrd
    rw [hrd]
    obtain ⟨ver, ttl, x, y, r, rfl⟩ := exists_four (v := payload) (by omega)
    simp only [Res.bind_ok, List.take_succ_cons, List.take_zero, List.drop_succ_cons, List.drop_zero, beNat_1]
    by_cases hv : ver = 1
    · subst hv
      rw [if_neg (by decide)]
      have h4 := hview.skip (n := 4) (by simp)
      simp only [List.drop_succ_cons, List.drop_zero] at h4
      simp only [List.length_cons] at hpl h4 ⊢
      rcases fdpLoop_sound (r.length + 1 + 1 + 1 + 1 + 1) _ _ r 0 { s with ttl := ttl.toNat } (fun _ => rfl) h4
          (by omega) (by omega) with hfail | ⟨ts, e1, e2, e3⟩
      · left; rw [hfail]; exact ⟨Res.bind_fail _, _, hframe⟩
      · right
        refine ⟨_, _, hframe, ⟨ttl, x, y, ts, by rw [← e1]; rfl, e2, rfl⟩, ?_⟩
        rw [e3]
        simp only [Res.bind_ok, Res.pure_eq]
        rw [e]; simp; omega
    · rw [if_pos (fun h => hv ((u8_eq_lit ver 1 (by omega)).mp h))]; left; exact ⟨rfl, _, hframe⟩

theorem fdpDecode_complete (f pad payload : Bytes) (s s' : Msg) (h1 : 26 ≤ f.length)
    (h2 : f.length ≤ 1518) (hf : FdpFrame f payload) (hp : fdpPayload payload s s') :
    fdpDecode (f ++ pad) f.length s = .ok (s', f.length) := by
  unfold fdpDecode fdpCheck
  rcases llc_cases FDP_DST FDP_ORG FDP_PID [0x20, 0x00] f pad (by decide) rfl rfl (by decide) h1 h2 with
    ⟨ha, hn⟩ | ⟨pre, payload', e, hpre, hok, hview, hsub, hpl, huniq⟩
  · exact absurd ⟨payload, hf⟩ hn
  · have := huniq payload hf
    subst this
    obtain ⟨ttl, k0, k1, ts, rfl, hw, rfl⟩ := hp
    rw [hok]
    simp only [Res.bind_eq, Res.bind_ok, hsub]
    rw [if_neg (by simp)]
    have hrd := hview.rd (n := 4) (by simp)
    simp only at hrd
    rw [hrd]
    simp only [Res.bind_ok, List.cons_append, List.nil_append, List.take_succ_cons, List.take_zero,
      List.drop_succ_cons, List.drop_zero, beNat_1]
    rw [if_neg (by decide)]
    have h4 := hview.skip (n := 4) (by simp)
    simp only [List.cons_append, List.nil_append, List.drop_succ_cons, List.drop_zero, List.length_cons] at h4
    simp only [List.length_cons]
    rw [fdpLoop_complete _ _ _ ts 0 _ (fun _ => rfl) h4 (by omega) hw]
    simp only [Res.bind_ok, Res.pure_eq]
    rw [e]; simp; omega

/-! ## EDP -/

theorem edpDecode_sound (f pad : Bytes) (s : Msg) (h1 : 26 ≤ f.length) (h2 : f.length ≤ 1518) :
    (edpDecode (f ++ pad) f.length s = .abort ∧ ¬ ∃ payload, EdpFrame f payload) ∨
    (edpDecode (f ++ pad) f.length s = .fail ∧ ∃ payload, EdpFrame f payload) ∨
    (∃ payload s', EdpFrame f payload ∧ edpPayload payload s s' ∧
      edpDecode (f ++ pad) f.length s = .ok (s', f.length)) := by
  unfold edpDecode edpCheck
  rcases llc_cases EDP_DST EDP_ORG EDP_PID [0x00, 0xbb] f pad (by decide) rfl rfl (by decide) h1 h2 with
    ⟨ha, hn⟩ | ⟨pre, payload, e, hpre, hok, hview, hsub, hpl, _⟩
  · left; rw [ha]; exact ⟨Res.bind_abort _, hn⟩
  · right
    have hframe : EdpFrame f payload := ⟨pre, hpre, e⟩
    rw [hok]
    simp only [Res.bind_eq, Res.bind_ok, hsub]
    by_cases hl : payload.length < 16
    · rw [if_pos hl]; left; exact ⟨rfl, _, hframe⟩
    rw [if_neg hl]
    have hrd := hview.rd (n := 16) (by omega)
    simp only at hrd
    rw [hrd]
    match payload, hl with
    | ver :: r, hl =>
      simp only [List.length_cons] at hl hpl
      simp only [Res.bind_ok, List.take_succ_cons, List.take_zero, beNat_1]
      by_cases hv : ver = 1
      · subst hv
        rw [if_neg (by decide)]
        have h4 := hview.skip (n := 16) (by simp; omega)
        simp only [List.drop_succ_cons] at h4
        simp only [List.length_cons] at h4 ⊢
        rcases edpLoop_sound (r.length + 1 + 1) _ _ (r.drop 15) { s with ttl := LADVD_TTL } h4
            (by simp; omega) (by simp; omega) with hfail | ⟨ts, e1, e2, e3⟩
        · left; rw [hfail]; exact ⟨Res.bind_fail _, _, hframe⟩
        · right
          refine ⟨_, _, hframe, ⟨r.take 15, ts, ?_, by simp; omega, e2, rfl⟩, ?_⟩
          · rw [← e1, List.cons_append, List.take_append_drop]
          rw [e3]
          have hfl := congrArg List.length e
          simp only [List.length_append, List.length_cons] at hfl
          simp only [Res.bind_ok, Res.pure_eq, Res.ok.injEq, Prod.mk.injEq, LADVD_TTL, true_and,
            List.length_drop]
          omega
      · rw [if_pos (fun h => hv ((u8_eq_lit ver 1 (by omega)).mp h))]; left; exact ⟨rfl, _, hframe⟩

theorem edpDecode_complete (f pad payload : Bytes) (s s' : Msg) (h1 : 26 ≤ f.length)
    (h2 : f.length ≤ 1518) (hf : EdpFrame f payload) (hp : edpPayload payload s s') :
    edpDecode (f ++ pad) f.length s = .ok (s', f.length) := by
  unfold edpDecode edpCheck
  rcases llc_cases EDP_DST EDP_ORG EDP_PID [0x00, 0xbb] f pad (by decide) rfl rfl (by decide) h1 h2 with
    ⟨ha, hn⟩ | ⟨pre, payload', e, hpre, hok, hview, hsub, hpl, huniq⟩
  · exact absurd ⟨payload, hf⟩ hn
  · have := huniq payload hf
    subst this
    obtain ⟨hdr, ts, rfl, hh, hw, rfl⟩ := hp
    rw [hok]
    simp only [Res.bind_eq, Res.bind_ok, hsub]
    rw [if_neg (by simp; omega)]
    have hrd := hview.rd (n := 16) (by simp; omega)
    simp only at hrd
    rw [hrd]
    simp only [Res.bind_ok, List.cons_append, List.take_succ_cons, List.take_zero, beNat_1]
    rw [if_neg (by decide)]
    have h4 := hview.skip (n := 16) (by simp; omega)
    have hd : (1 :: hdr ++ edpEnc ts : Bytes).drop 16 = edpEnc ts := by
      rw [List.cons_append, List.drop_succ_cons, ← hh, List.drop_left]
    rw [hd] at h4
    simp only [List.cons_append] at h4
    rw [edpLoop_complete _ _ _ ts _ h4 (by simp; omega) hw]
    simp only [Res.bind_ok, Res.pure_eq]
    rw [e]; simp [LADVD_TTL]; omega

/-! ## NDP -/

theorem ndpDecode_spec (f pad : Bytes) (s : Msg) (h1 : 26 ≤ f.length) (h2 : f.length ≤ 1518) :
    (ndpDecode (f ++ pad) f.length s = .abort ∧ ¬ ∃ payload, NdpFrame f payload) ∨
    (∃ payload, NdpFrame f payload ∧ payload.length < 11 ∧ ndpDecode (f ++ pad) f.length s = .fail) ∨
    (∃ payload, NdpFrame f payload ∧ 11 ≤ payload.length ∧
      ndpDecode (f ++ pad) f.length s =
        .ok ({ s with ttl := 180 }, f.length - (payload.length - 11))) := by
  unfold ndpDecode ndpCheck
  rcases llc_cases NDP_DST NDP_ORG NDP_PID [0x01, 0xa2] f pad (by decide) rfl rfl (by decide) h1 h2 with
    ⟨ha, hn⟩ | ⟨pre, payload, e, hpre, hok, hview, hsub, hpl, _⟩
  · left; rw [ha]; exact ⟨Res.bind_abort _, hn⟩
  · right
    have hframe : NdpFrame f payload := ⟨pre, hpre, e⟩
    rw [hok]
    simp only [Res.bind_eq, Res.bind_ok, hsub]
    by_cases hl : payload.length < 11
    · left; exact ⟨payload, hframe, hl, by rw [if_pos hl]⟩
    · right
      refine ⟨payload, hframe, by omega, ?_⟩
      rw [if_neg hl, e]
      simp [LADVD_TTL]; omega

/-! ## LLDP -/

/-- What the LLDP check tells the decoder. -/
theorem lldp_cases (f pad : Bytes) (h1 : 18 ≤ f.length) (h2 : f.length ≤ 1518) :
    (assertCheck (lldpCheck (f ++ pad) f.length) = .abort ∧ ¬ ∃ payload, LldpFrame f payload) ∨
    (∃ pre payload, f = pre ++ payload ∧ LldpPrefix pre ∧
      assertCheck (lldpCheck (f ++ pad) f.length) = .ok pre.length ∧
      View (f ++ pad) ⟨pre.length, payload.length⟩ payload ∧
      subSize f.length pre.length = payload.length ∧ payload.length ≤ 1504 ∧
      ∀ payload', LldpFrame f payload' → payload' = payload) := by
  rcases lldpCheck_spec f pad h1 h2 with ⟨pre, payload, e, hpre, hok⟩ | ⟨hf, hn⟩
  · right
    have hl := lldpPrefix_length hpre
    have hfl : f.length = pre.length + payload.length := by rw [e]; simp
    refine ⟨pre, payload, e, hpre, by rw [hok]; rfl, payload_view e, ?_, by omega, ?_⟩
    · rw [subSize_eq (by omega)]; omega
    · rintro payload' ⟨pre', hpre', e'⟩
      exact ((lldpPrefix_unique h1 e hpre e' hpre').2).symm
  · left
    refine ⟨by rw [hf]; rfl, ?_⟩
    rintro ⟨payload, pre, hpre, e⟩
    exact hn ⟨pre, payload, e, hpre⟩

/-- The mandatory part: one TLV of the given type. -/
theorem lldp_grab_sound {m : Bytes} {c : Cur} {v : Bytes} (h : View m c v)
    (hpad : c.pos + v.length + 2 ≤ m.length) :
    grabLldpTlv m c = .fail ∨
      ∃ t l r, t < 128 ∧ l < 512 ∧ grabLldpTlv m c = .ok (t, l, ⟨c.pos + 2, c.length - 2⟩) ∧
        v = be16 (t * 512 + l) ++ r ∧ View m ⟨c.pos + 2, c.length - 2⟩ r := by
  rw [h.grabLldpTlv hpad]
  by_cases h2 : 2 ≤ v.length
  · right
    obtain ⟨a, b, r, rfl⟩ := exists_two h2
    have hlt := beNat_lt_2 a b
    have hr := h.skip h2
    simp only [List.drop_succ_cons, List.drop_zero] at hr
    refine ⟨beNat [a, b] / 512, beNat [a, b] % 512, r, by omega, by omega, ?_, ?_, hr⟩
    · rw [if_pos h2]; simp
    · rw [show beNat [a, b] / 512 * 512 + beNat [a, b] % 512 = beNat [a, b] by omega, be16_beNat]; rfl
  · left; rw [if_neg h2]

theorem lldpDecode_sound (print : Bool) (f pad : Bytes) (s : Msg) (h1 : 18 ≤ f.length) (h2 : f.length ≤ 1518)
    (hpad : 2 ≤ pad.length) :
    (lldpDecode print (f ++ pad) f.length s = .abort ∧ ¬ ∃ payload, LldpFrame f payload) ∨
    (lldpDecode print (f ++ pad) f.length s = .fail ∧ ∃ payload, LldpFrame f payload) ∨
    (∃ pdu trailer s', LldpFrame f (pdu ++ trailer) ∧ lldpPdu print pdu s s' ∧
      lldpDecode print (f ++ pad) f.length s = .ok (s', f.length - trailer.length)) := by
  unfold lldpDecode
  rcases lldp_cases f pad h1 h2 with ⟨ha, hn⟩ | ⟨pre, payload, e, hpre, hok, hview, hsub, hpl, _⟩
  · left; rw [ha]; exact ⟨Res.bind_abort _, hn⟩
  right
  have hframe : LldpFrame f payload := ⟨pre, hpre, e⟩
  have hm : (f ++ pad).length = pre.length + payload.length + pad.length := by rw [e]; simp; omega
  rw [hok]
  simp only [Res.bind_eq, Res.bind_ok, hsub]
  -- chassis
  rcases lldp_grab_sound hview (by simp only; omega) with hg | ⟨t, l, r, ht, hl, hg, hv, hr⟩
  · rw [hg]; left; exact ⟨rfl, _, hframe⟩
  rw [hg]
  simp only [Res.bind_ok]
  by_cases ht1 : t = 1
  case neg => rw [if_pos ht1]; left; exact ⟨rfl, _, hframe⟩
  subst ht1
  rw [if_neg (by simp)]
  have hrl := hr.len
  simp only at hrl hr
  rw [hrl] at hr ⊢
  by_cases hlr : r.length < l
  · rw [if_pos hlr]; left; exact ⟨rfl, _, hframe⟩
  rw [if_neg hlr]
  have hc := lldpChassisId_view (hr.sub (n := l) (by omega)) print s
  simp only at hc
  rw [hc, hr.skip_eq, if_pos (by omega)]
  cases hm1 : chassisMeaning print s (r.take l) with
  | none => left; exact ⟨rfl, _, hframe⟩
  | some s1 =>
  simp only [Res.ofOption_some, Res.bind_ok]
  have hr' := hr.skip (n := l) (by omega)
  simp only at hr'
  have hpr : r.length + 2 = payload.length := by rw [hv]; simp; omega
  -- port
  rcases lldp_grab_sound hr' (by simp only [List.length_drop]; omega) with hg2 | ⟨t, l2, r2, ht2, hl2, hg2, hv2, hr2⟩
  · rw [hg2]; left; exact ⟨rfl, _, hframe⟩
  rw [hg2]
  simp only [Res.bind_ok]
  by_cases ht1 : t = 2
  case neg => rw [if_pos ht1]; left; exact ⟨rfl, _, hframe⟩
  subst ht1
  rw [if_neg (by simp)]
  have hrl2 := hr2.len
  simp only at hrl2 hr2
  rw [hrl2] at hr2 ⊢
  by_cases hlr2 : r2.length < l2
  · rw [if_pos hlr2]; left; exact ⟨rfl, _, hframe⟩
  rw [if_neg hlr2]
  have hc2 := lldpPortId_view (hr2.sub (n := l2) (by omega)) print s1
  simp only at hc2
  rw [hc2, hr2.skip_eq, if_pos (by omega)]
  cases hm2 : portMeaning print s1 (r2.take l2) with
  | none => left; exact ⟨rfl, _, hframe⟩
  | some s2 =>
  simp only [Res.ofOption_some, Res.bind_ok]
  have hr2' := hr2.skip (n := l2) (by omega)
  simp only at hr2'
  have hpr2 : r2.length + 2 = (r.drop l).length := by rw [hv2]; simp; omega
  rw [List.length_drop] at hpr2
  -- ttl
  rcases lldp_grab_sound hr2' (by simp only [List.length_drop]; omega) with hg3 | ⟨t, l3, r3, ht3, hl3, hg3, hv3, hr3⟩
  · rw [hg3]; left; exact ⟨rfl, _, hframe⟩
  rw [hg3]
  simp only [Res.bind_ok]
  by_cases ht1 : t = 3
  case neg => rw [if_pos ht1]; left; exact ⟨rfl, _, hframe⟩
  subst ht1
  rw [if_neg (by simp)]
  by_cases hl3' : l3 = 2
  case neg => rw [if_pos hl3']; left; exact ⟨rfl, _, hframe⟩
  subst hl3'
  rw [if_neg (by simp)]
  have hrl3 := hr3.len
  simp only at hrl3 hr3
  rw [hrl3] at hr3 ⊢
  rw [hr3.grab 2]
  by_cases h3 : 2 ≤ r3.length
  case neg => rw [if_neg h3]; left; exact ⟨rfl, _, hframe⟩
  rw [if_pos h3]
  have hr4 := hr3.skip h3
  obtain ⟨t0, t1, r4, rfl⟩ := exists_two h3
  simp only [List.take_succ_cons, List.take_zero, List.drop_succ_cons, List.drop_zero] at hr4 ⊢
  simp only [Res.bind_ok, beNat_2]
  have hpr3 : r4.length + 4 = (r2.drop l2).length := by rw [hv3]; simp; omega
  rw [List.length_drop] at hpr3
  rcases lldpLoop_sound print (payload.length + 1) _ _ r4 3 { s2 with ttl := t0.toNat * 256 + t1.toNat } hr4
      (by omega) (by simp only; omega) (by omega) with hfail | ⟨t, c', s', hn, he⟩ | ⟨ts, trailer, s', e1, e2, e3, e4⟩
  · rw [hfail]; left; exact ⟨Res.bind_fail _, _, hframe⟩
  · rw [he]
    simp only [Res.bind_ok]
    rw [if_pos hn]
    left; exact ⟨rfl, _, hframe⟩
  · right
    have hpay : payload = lldpEnc ([(1, r.take l), (2, r2.take l2), (3, [t0, t1])] ++ ts ++ [(0, [])]) ++
        trailer := by
      rw [List.append_assoc, lldpEnc_append, List.append_assoc, ← e1, hv]
      simp only [lldpEnc_cons, List.append_assoc]
      have a1 : lldpEnc1 (1, r.take l) = be16 (1 * 512 + l) ++ r.take l := by
        simp only [lldpEnc1]; rw [List.length_take_of_le (by omega)]
      have a2 : lldpEnc1 (2, r2.take l2) = be16 (2 * 512 + l2) ++ r2.take l2 := by
        simp only [lldpEnc1]; rw [List.length_take_of_le (by omega)]
      have a3 : lldpEnc1 (3, [t0, t1]) = be16 (3 * 512 + 2) ++ [t0, t1] := rfl
      rw [a1, a2, a3, List.append_assoc, List.append_assoc, List.append_assoc]
      conv => lhs; rw [← List.take_append_drop l r, hv2, ← List.take_append_drop l2 r2, hv3]
      simp [lldpEnc]
    refine ⟨lldpEnc ([(1, r.take l), (2, r2.take l2), (3, [t0, t1])] ++ ts ++ [(0, [])]), trailer, s', ?_, ?_, ?_⟩
    · rw [← hpay]; exact hframe
    · refine ⟨r.take l, r2.take l2, t0, t1, ts, s1, s2, rfl, ?_, hm1, hm2, e3⟩
      intro t ht
      simp only [List.cons_append, List.nil_append, List.mem_cons] at ht
      rcases ht with rfl | rfl | ht
      · refine ⟨by simp, ?_⟩
        simp; omega
      · refine ⟨by simp, ?_⟩
        simp; omega
      · exact e2 t ht
    · rw [e4]
      simp only [Res.bind_ok]
      rw [if_neg (by simp)]
      have hl4 : r4.length = (lldpEnc (ts ++ [(0, [])])).length + trailer.length := by rw [e1]; simp
      have hfl : f.length = pre.length + payload.length := by rw [e]; simp
      simp only [Res.pure_eq, Res.ok.injEq, Prod.mk.injEq, true_and]
      omega

theorem lldp_grab_complete {m : Bytes} {c : Cur} {t : Tlv} {r : Bytes} (h : View m c (lldpEnc1 t ++ r))
    (h1 : t.1 < 128) (h2 : t.2.length < 512) :
    grabLldpTlv m c = .ok (t.1, t.2.length, ⟨c.pos + 2, c.length - 2⟩) ∧
      View m ⟨c.pos + 2, c.length - 2⟩ (t.2 ++ r) := by
  have hl := lldpEnc1_length t
  have hs := h.skip (n := 2) (by simp; omega)
  rw [lldpEnc1_drop] at hs
  refine ⟨?_, hs⟩
  unfold grabLldpTlv
  rw [h.rd (n := 2) (by simp; omega)]
  obtain ⟨e1, e2⟩ := lldpEnc1_hdr t r h1 h2
  simp only [Res.bind_eq, Res.bind_ok, h.skip_eq, e1, e2]
  rw [if_pos (by simp; omega)]
  rfl

theorem lldpDecode_complete (print : Bool) (f pad pdu trailer : Bytes) (s s' : Msg) (h1 : 18 ≤ f.length)
    (h2 : f.length ≤ 1518) (hpad : 2 ≤ pad.length) (hf : LldpFrame f (pdu ++ trailer))
    (hp : lldpPdu print pdu s s') :
    lldpDecode print (f ++ pad) f.length s = .ok (s', f.length - trailer.length) := by
  unfold lldpDecode
  rcases lldp_cases f pad h1 h2 with ⟨ha, hn⟩ | ⟨pre, payload, e, hpre, hok, hview, hsub, hpl, huniq⟩
  · exact absurd ⟨_, hf⟩ hn
  have := huniq _ hf
  subst this
  obtain ⟨chassis, port, t0, t1, ts, s1, s2, rfl, hw, hm1, hm2, hm3⟩ := hp
  rw [hok]
  simp only [Res.bind_eq, Res.bind_ok, hsub]
  have hw1 := hw (1, chassis) (by simp)
  have hw2 := hw (2, port) (by simp)
  dsimp only at hw1 hw2
  have hm : (f ++ pad).length = f.length + pad.length := by simp
  have hfl := congrArg List.length e
  rw [List.length_append] at hfl
  have he : lldpEnc ([(1, chassis), (2, port), (3, [t0, t1])] ++ ts ++ [(0, [])]) ++ trailer =
      lldpEnc1 (1, chassis) ++ (lldpEnc1 (2, port) ++ (lldpEnc1 (3, [t0, t1]) ++
        (lldpEnc (ts ++ [(0, [])]) ++ trailer))) := by
    simp only [List.cons_append, List.nil_append, lldpEnc_cons, List.append_assoc]
  rw [he] at hview hfl ⊢
  obtain ⟨g1, v1⟩ := lldp_grab_complete hview (by simp) hw1.2
  rw [g1]
  simp only [Res.bind_ok]
  rw [if_neg (by simp)]
  have l1 := v1.len
  simp only at l1 v1
  rw [l1] at v1 ⊢
  rw [if_neg (by simp)]
  have hc := lldpChassisId_view (v1.sub (n := chassis.length) (by simp)) print s
  simp only [List.take_left] at hc
  rw [hc, hm1, v1.skip_eq, if_pos (by simp)]
  simp only [Res.ofOption_some, Res.bind_ok]
  have v1' := v1.skip (n := chassis.length) (by simp)
  simp only [List.drop_left] at v1'
  obtain ⟨g2, v2⟩ := lldp_grab_complete v1' (by simp) hw2.2
  rw [g2]
  simp only [Res.bind_ok]
  rw [if_neg (by simp)]
  have l2 := v2.len
  simp only at l2 v2
  rw [l2] at v2 ⊢
  rw [if_neg (by simp)]
  have hc2 := lldpPortId_view (v2.sub (n := port.length) (by simp)) print s1
  simp only [List.take_left] at hc2
  rw [hc2, hm2, v2.skip_eq, if_pos (by simp)]
  simp only [Res.ofOption_some, Res.bind_ok]
  have v2' := v2.skip (n := port.length) (by simp)
  simp only [List.drop_left] at v2'
  obtain ⟨g3, v3⟩ := lldp_grab_complete v2' (by simp) (by simp)
  rw [g3]
  simp only [Res.bind_ok]
  rw [if_neg (by simp), if_neg (by simp)]
  have l3 := v3.len
  simp only at l3 v3
  rw [l3] at v3 ⊢
  rw [v3.grab 2, if_pos (by simp)]
  have v4 := v3.skip (n := 2) (by simp)
  simp only [List.cons_append, List.nil_append, List.take_succ_cons, List.take_zero, List.drop_succ_cons,
    List.drop_zero] at v4 ⊢
  simp only [Res.bind_ok, beNat_2]
  simp only [List.length_append, lldpEnc1_length] at hfl
  rw [lldpLoop_complete print _ _ _ ts trailer 3 _ s' v4 (by simp only [List.length_append, lldpEnc1_length]; omega)
    (fun t ht => hw t (by simp [ht])) hm3
    (by simp only [List.length_append, List.length_cons, List.length_nil] at hm hfl ⊢; omega)]
  simp only [Res.bind_ok]
  rw [if_neg (by simp)]
  simp only [Res.pure_eq, Res.ok.injEq, Prod.mk.injEq, true_and]
  simp only [List.length_cons, List.length_nil] at hfl
  omega

end Ladvd
