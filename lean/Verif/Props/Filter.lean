import Verif.Lemmas.Filter
import Verif.Props.Decode
/-!
# C11, C28, C39: capturing and classifying frames
-/

namespace Ladvd.Props

open Spec

/-! ## Specification -/

/-- The frames meant to be captured, except EDP. -/
def Wanted (f : Bytes) : Prop :=
  ∃ payload, LldpFrame f payload ∨ CdpFrame f payload ∨ FdpFrame f payload ∨ NdpFrame f payload

/-- Frames with `0e:2b` in place of the `e0:2b` of EDP's address and organisation. -/
def Mistyped (f : Bytes) : Prop :=
  ∃ payload, LlcFrame [0x00, 0x0e, 0x2b, 0x00, 0x00, 0x00] [0x00, 0x0e, 0x2b] [0x00, 0xbb] f payload

/-- The filter lets the frame through. -/
def Accepts (prog : List Insn) (f : Bytes) : Prop := ∃ n, bpfFilter prog f = .ok n ∧ n ≠ 0

theorem llcFrame_iff (dst org : Bytes) (pid : Nat) (f : Bytes) (hd : dst.length = 6) (ho : org.length = 3) :
    (∃ payload, LlcFrame dst org (be16 pid) f payload) ↔
      at_ f 0 6 = dst ∧ at_ f (14 + tagOff f) 8 = [0xaa, 0xaa, 0x03] ++ org ++ be16 pid := by
  have key := llcPrefix_iff' dst org pid f hd ho (22 + tagOff f)
  constructor
  · rintro ⟨payload, pre, hpre, e⟩
    have := (llcPrefix_iff' dst org pid f hd ho pre.length).mp ⟨pre, payload, e, hpre, rfl⟩
    exact ⟨this.1, this.2.1⟩
  · rintro ⟨h1, h2⟩
    obtain ⟨pre, payload, e, hpre, _⟩ := key.mpr ⟨h1, h2, rfl⟩
    exact ⟨payload, pre, hpre, e⟩

theorem lldpFrame_iff (f : Bytes) :
    (∃ payload, LldpFrame f payload) ↔ at_ f 0 6 = LLDP_DST ∧ at_ f (12 + tagOff f) 2 = [0x88, 0xcc] := by
  constructor
  · rintro ⟨payload, pre, hpre, e⟩
    have := (lldpPrefix_iff' f pre.length).mp ⟨pre, payload, e, hpre, rfl⟩
    exact ⟨this.1, this.2.1⟩
  · rintro ⟨h1, h2⟩
    obtain ⟨pre, payload, e, hpre, _⟩ := (lldpPrefix_iff' f (14 + tagOff f)).mpr ⟨h1, h2, rfl⟩
    exact ⟨payload, pre, hpre, e⟩

/-! ## C11 Capture filter agrees with the frame checks -/

/-- The filter terminates on every frame, of any length, with "reject" or "accept whole packet"; it accepts exactly
the LLDP, CDP, FDP and NDP frames, tagged or not, and the frames with the mistyped EDP address. -/
theorem C11_exact (f : Bytes) :
    (bpfFilter protoFilter f = .ok 0 ∨ bpfFilter protoFilter f = .ok 0xffffffff) ∧
    (Accepts protoFilter f ↔ Wanted f ∨ Mistyped f) := by
  have hrun := protoFilter_run f
  have hw : Wanted f ∨ Mistyped f ↔
      (at_ f 0 6 = LLDP_DST ∧ at_ f (12 + tagOff f) 2 = [0x88, 0xcc]) ∨
       (at_ f (14 + tagOff f) 2 = [0xaa, 0xaa] ∧ ∃ e ∈ bpfLlc, llcMatch f (tagOff f) e) := by
    have e1 := lldpFrame_iff f
    have e2 := llcFrame_iff CDP_DST CDP_ORG CDP_PID f rfl rfl
    have e3 := llcFrame_iff [0x00, 0x0e, 0x2b, 0, 0, 0] [0x00, 0x0e, 0x2b] EDP_PID f rfl rfl
    have e4 := llcFrame_iff FDP_DST FDP_ORG FDP_PID f rfl rfl
    have e5 := llcFrame_iff NDP_DST NDP_ORG NDP_PID f rfl rfl
    rw [← snap_split f (tagOff f) (_, _, _)] at e2 e3 e4 e5
    have hex : (at_ f (14 + tagOff f) 2 = [0xaa, 0xaa] ∧ ∃ e ∈ bpfLlc, llcMatch f (tagOff f) e) ↔
        (∃ payload, CdpFrame f payload) ∨ Mistyped f ∨ (∃ payload, FdpFrame f payload) ∨
          (∃ payload, NdpFrame f payload) := by
      have a2 : (∃ payload, CdpFrame f payload) ↔ _ := e2
      have a3 : Mistyped f ↔ _ := e3
      have a4 : (∃ payload, FdpFrame f payload) ↔ _ := e4
      have a5 : (∃ payload, NdpFrame f payload) ↔ _ := e5
      rw [a2, a3, a4, a5, ← and_or_left, ← and_or_left, ← and_or_left]
      simp [bpfLlc]
    rw [hex, ← e1]
    constructor
    · rintro (⟨p, h | h | h | h⟩ | h)
      · exact Or.inl ⟨p, h⟩
      · exact Or.inr (Or.inl ⟨p, h⟩)
      · exact Or.inr (Or.inr (Or.inr (Or.inl ⟨p, h⟩)))
      · exact Or.inr (Or.inr (Or.inr (Or.inr ⟨p, h⟩)))
      · exact Or.inr (Or.inr (Or.inl h))
    · rintro (⟨p, h⟩ | ⟨p, h⟩ | h | ⟨p, h⟩ | ⟨p, h⟩)
      · exact Or.inl ⟨p, Or.inl h⟩
      · exact Or.inl ⟨p, Or.inr (Or.inl h)⟩
      · exact Or.inr h
      · exact Or.inl ⟨p, Or.inr (Or.inr (Or.inl h))⟩
      · exact Or.inl ⟨p, Or.inr (Or.inr (Or.inr h))⟩
  by_cases hc : Wanted f ∨ Mistyped f
  · rw [if_pos (hw.mp hc)] at hrun
    exact ⟨Or.inr hrun, fun _ => hc, fun _ => ⟨_, hrun, by decide⟩⟩
  · rw [if_neg (fun h => hc (hw.mpr h))] at hrun
    refine ⟨Or.inl hrun, fun ⟨n, h, hn⟩ => ?_, fun h => absurd h hc⟩
    rw [hrun] at h
    exact absurd (Res.ok.inj h).symm hn

/-- Soundness.  The full claim is that every accepted frame is accepted by a frame check; it fails for the frames
of `Mistyped` (`C11_mistyped_accepted`). -/
theorem C11_sound_partial (f pad : Bytes) (h1 : 26 ≤ f.length) (h2 : f.length ≤ 1518)
    (ha : Accepts protoFilter f) (hm : ¬ Mistyped f) : ∃ p n, Proto.check p (f ++ pad) f.length = .ok n := by
  rcases (C11_exact f).2.mp ha with hw | hm'
  · obtain ⟨payload, h | h | h | h⟩ := hw
    · refine ⟨.lldp, 14 + tagOff f, ?_⟩
      show lldpCheck _ _ = _
      rw [lldpCheck_eq f pad (by omega) h2, if_pos ((lldpFrame_iff f).mp ⟨_, h⟩)]
    · refine ⟨.cdp, 22 + tagOff f, ?_⟩
      show llcCheck _ _ _ _ _ = _
      rw [llcCheck_eq _ _ _ f pad rfl (by decide) h1 h2, if_pos ((llcFrame_iff CDP_DST CDP_ORG CDP_PID f rfl rfl).mp ⟨_, h⟩)]
    · refine ⟨.fdp, 22 + tagOff f, ?_⟩
      show llcCheck _ _ _ _ _ = _
      rw [llcCheck_eq _ _ _ f pad rfl (by decide) h1 h2, if_pos ((llcFrame_iff FDP_DST FDP_ORG FDP_PID f rfl rfl).mp ⟨_, h⟩)]
    · refine ⟨.ndp, 22 + tagOff f, ?_⟩
      show llcCheck _ _ _ _ _ = _
      rw [llcCheck_eq _ _ _ f pad rfl (by decide) h1 h2, if_pos ((llcFrame_iff NDP_DST NDP_ORG NDP_PID f rfl rfl).mp ⟨_, h⟩)]
  · exact absurd hm' hm

/-- Completeness.  The full claim covers EDP as well; there it is false (`C11_edp_rejected`). -/
theorem C11_complete_partial (p : Proto) (hp : p ≠ .edp) (f pad : Bytes) (h1 : 26 ≤ f.length) (h2 : f.length ≤ 1518)
    (n : Nat) (hc : Proto.check p (f ++ pad) f.length = .ok n) : Accepts protoFilter f := by
  rw [(C11_exact f).2]
  left
  have llc : ∀ dst org pid, org.length = 3 → dst.length = 6 → pid < 65536 →
      llcCheck dst org pid (f ++ pad) f.length = .ok n → ∃ payload, LlcFrame dst org (be16 pid) f payload := by
    intro dst org pid ho hd hp' h
    rw [llcCheck_eq _ _ _ f pad ho hp' h1 h2] at h
    rw [llcFrame_iff dst org pid f hd ho]
    split at h
    · assumption
    · cases h
  cases p with
  | lldp =>
    have h : lldpCheck (f ++ pad) f.length = .ok n := hc
    rw [lldpCheck_eq f pad (by omega) h2] at h
    split at h
    · next hh => obtain ⟨q, hq⟩ := (lldpFrame_iff f).mpr hh; exact ⟨q, Or.inl hq⟩
    · cases h
  | cdp => obtain ⟨q, hq⟩ := llc CDP_DST CDP_ORG CDP_PID rfl rfl (by decide) hc; exact ⟨q, Or.inr (Or.inl hq)⟩
  | cdp1 => obtain ⟨q, hq⟩ := llc CDP_DST CDP_ORG CDP_PID rfl rfl (by decide) hc; exact ⟨q, Or.inr (Or.inl hq)⟩
  | edp => exact absurd rfl hp
  | fdp =>
    obtain ⟨q, hq⟩ := llc FDP_DST FDP_ORG FDP_PID rfl rfl (by decide) hc; exact ⟨q, Or.inr (Or.inr (Or.inl hq))⟩
  | ndp =>
    obtain ⟨q, hq⟩ := llc NDP_DST NDP_ORG NDP_PID rfl rfl (by decide) hc; exact ⟨q, Or.inr (Or.inr (Or.inr hq))⟩

/-- No EDP frame at all passes the filter. -/
theorem C11_edp_rejected (f payload : Bytes) (h : EdpFrame f payload) : bpfFilter protoFilter f = .ok 0 := by
  have hd : at_ f 0 6 = EDP_DST := ((llcFrame_iff EDP_DST EDP_ORG EDP_PID f rfl rfl).mp ⟨payload, h⟩).1
  rw [protoFilter_run, if_neg]
  rintro (⟨h1, _⟩ | ⟨_, e, he, h1, _⟩)
  · rw [hd] at h1; revert h1; decide
  · rw [hd] at h1
    have : ∀ e ∈ bpfLlc, EDP_DST ≠ e.1 := by decide
    exact this e he h1

/-- Every frame of `Mistyped` passes the filter although no frame check accepts it. -/
theorem C11_mistyped_accepted (f pad : Bytes) (h : Mistyped f) (h1 : 26 ≤ f.length) (h2 : f.length ≤ 1518) :
    Accepts protoFilter f ∧ ∀ p, Proto.check p (f ++ pad) f.length = .fail := by
  refine ⟨(C11_exact f).2.mpr (Or.inr h), ?_⟩
  have hd := ((llcFrame_iff [0x00, 0x0e, 0x2b, 0, 0, 0] [0x00, 0x0e, 0x2b] EDP_PID f rfl rfl).mp h).1
  intro p
  have key : ∀ dst org pid, org.length = 3 → pid < 65536 → ([0x00, 0x0e, 0x2b, 0, 0, 0] : Bytes) ≠ dst →
      llcCheck dst org pid (f ++ pad) f.length = .fail := by
    intro dst org pid ho hp hne
    rw [llcCheck_eq _ _ _ f pad ho hp h1 h2, if_neg]
    rintro ⟨a, _⟩
    rw [hd] at a; exact hne a
  cases p with
  | lldp =>
    show lldpCheck _ _ = _
    rw [lldpCheck_eq f pad (by omega) h2, if_neg]
    rintro ⟨a, _⟩
    rw [hd] at a; revert a; decide
  | cdp => exact key CDP_DST CDP_ORG CDP_PID rfl (by decide) (by decide)
  | cdp1 => exact key CDP_DST CDP_ORG CDP_PID rfl (by decide) (by decide)
  | edp => exact key EDP_DST EDP_ORG EDP_PID rfl (by decide) (by decide)
  | fdp => exact key FDP_DST FDP_ORG FDP_PID rfl (by decide) (by decide)
  | ndp => exact key NDP_DST NDP_ORG NDP_PID rfl (by decide) (by decide)

/-- Without the receive option the installed filter accepts nothing. -/
theorem C11_send_only (f : Bytes) : ¬ Accepts (socketFilter false) f := by
  rintro ⟨n, h, hn⟩
  simp [socketFilter, rejectFilter, bpfFilter, bpf_ret] at h
  exact hn h.symm

/-- A tagged CDP frame is wanted, an EDP frame exists, and so does a mistyped one. -/
example : Wanted ([0x01, 0x00, 0x0c, 0xcc, 0xcc, 0xcc, 2, 0, 0, 0, 0, 1, 0x81, 0, 0, 7, 0, 60, 0xaa, 0xaa, 3, 0, 0,
    0x0c, 0x20, 0] ++ List.replicate 40 0) :=
  ⟨List.replicate 40 0, Or.inr (Or.inl ⟨_, ⟨[2, 0, 0, 0, 0, 1], [0, 60], rfl, rfl, Or.inr ⟨[0, 7], rfl, rfl⟩⟩, rfl⟩)⟩
example : EdpFrame ([0x00, 0xe0, 0x2b, 0, 0, 0, 2, 0, 0, 0, 0, 1, 0, 60, 0xaa, 0xaa, 3, 0, 0xe0, 0x2b, 0, 0xbb] ++
    List.replicate 40 0) (List.replicate 40 0) :=
  ⟨_, ⟨[2, 0, 0, 0, 0, 1], [0, 60], rfl, rfl, Or.inl ⟨rfl, by decide⟩⟩, rfl⟩
example : Mistyped ([0x00, 0x0e, 0x2b, 0, 0, 0, 2, 0, 0, 0, 0, 1, 0, 60, 0xaa, 0xaa, 3, 0, 0x0e, 0x2b, 0, 0xbb] ++
    List.replicate 40 0) :=
  ⟨List.replicate 40 0, _, ⟨[2, 0, 0, 0, 0, 1], [0, 60], rfl, rfl, Or.inl ⟨rfl, by decide⟩⟩, rfl⟩

/-! ## C28 Received frames are classified and bounded before forwarding -/

/-- The protocol number owning a destination address. -/
def owner : Bytes → Option Nat
  | 0x01 :: 0x80 :: 0xc2 :: 0x00 :: 0x00 :: 0x0e :: _ => some 0
  | 0x01 :: 0x00 :: 0x0c :: 0xcc :: 0xcc :: 0xcc :: _ => some 1
  | 0x00 :: 0xe0 :: 0x2b :: 0x00 :: 0x00 :: 0x00 :: _ => some 2
  | 0x01 :: 0xe0 :: 0x52 :: 0xcc :: 0xcc :: 0xcc :: _ => some 3
  | 0x01 :: 0x00 :: 0x81 :: 0x00 :: 0x01 :: 0x00 :: _ => some 4
  | _ => none

/-- What is handed to the unprivileged process: interface, protocol number, frame. -/
def fwdView (m : Fwd) : Nat × Nat × Bytes := (m.index, m.proto.num, m.frame)

/-- Forwarding of a batch of captured packets: short ones are skipped, the batch is abandoned at the first packet
with an unknown destination. -/
def forwarded (index : Nat) (caps : List Bytes) : List (Nat × Nat × Bytes) :=
  ((caps.filter (fun d => 60 ≤ d.length)).takeWhile (fun d => (owner d).isSome)).filterMap
    (fun d => (owner d).map (fun p => (index, p, d.take 1518)))

theorem detect_owner (d : Bytes) (h : 6 ≤ d.length) : (detectProto (d.take 6)).map Proto.num = owner d := by
  match d, h with
  | a :: b :: c :: d :: e :: g :: r, _ =>
    simp only [List.take_succ_cons, List.take_zero, detectProto, protoTable]
    unfold owner
    split <;> simp_all [List.find?, Proto.dst, LLDP_DST, CDP_DST, EDP_DST, FDP_DST, NDP_DST, Proto.num]
    next h2 h3 h4 h5 h6 =>
      have g2 := h2 r; have g3 := h3 r; have g4 := h4 r; have g5 := h5 r; have g6 := h6 r
      clear h2 h3 h4 h5 h6
      repeat' split
      all_goals first | rfl | (exfalso; simp only [Bool.and_eq_true, beq_iff_eq] at *; grind)

theorem recvLoop_spec (index : Nat) (caps : List Bytes) : ∀ buf : Bytes, buf.length = 1518 →
    ∃ ms, parentRecvLoop index buf caps = .ok ms ∧ ms.map fwdView = forwarded index caps := by
  induction caps with
  | nil => intro buf _; exact ⟨[], by rw [parentRecvLoop], rfl⟩
  | cons d caps ih =>
    intro buf hb
    have hlen : (if d.length < ETHER_MAX_LEN then d.length else ETHER_MAX_LEN) = min d.length 1518 := by
      unfold ETHER_MAX_LEN; split <;> omega
    have hrd : rd d 0 (min d.length 1518) = .ok (d.take 1518) := by
      rw [rd_ok (by omega), List.drop_zero]
      congr 1
      by_cases h : d.length ≤ 1518
      · rw [List.take_of_length_le (by omega), List.take_of_length_le h]
      · rw [show min d.length 1518 = 1518 by omega]
    have hl : (d.take 1518).length = min d.length 1518 := by simp; omega
    have hwr : wr buf 0 (d.take 1518) = .ok (d.take 1518 ++ buf.drop (min d.length 1518)) := by
      unfold wr
      rw [if_pos (by omega), hl]; simp
    have hb' : (d.take 1518 ++ buf.drop (min d.length 1518)).length = 1518 := by simp [hb]; omega
    obtain ⟨ms, hms, hview⟩ := ih _ hb'
    rw [parentRecvLoop]
    simp only [hlen, hrd, hwr, Res.bind_eq, Res.bind_ok, hms]
    by_cases hs : min d.length 1518 < ETHER_MIN_LEN - 4
    · refine ⟨ms, by rw [if_pos hs], ?_⟩
      rw [hview]
      have : ¬ 60 ≤ d.length := by simp only [ETHER_MIN_LEN] at hs; omega
      simp [forwarded, this]
    · have h60 : 60 ≤ d.length := by simp only [ETHER_MIN_LEN] at hs; omega
      rw [if_neg hs, rd_append (by omega)]
      have hat : at_ (d.take 1518) 0 6 = d.take 6 := by simp [at_, List.take_take]
      have hat2 : rd (d.take 1518 ++ buf.drop (min d.length 1518)) 0 (min d.length 1518) = .ok (d.take 1518) := by
        rw [rd_append (by omega)]
        simp only [at_, List.drop_zero]
        rw [List.take_of_length_le (by omega)]
      simp only [Res.bind_ok, hat, hat2]
      have ho := detect_owner d (by omega)
      cases hp : detectProto (d.take 6) with
      | none =>
        rw [hp] at ho
        refine ⟨[], rfl, ?_⟩
        simp [forwarded, h60, ← ho]
      | some p =>
        rw [hp] at ho
        refine ⟨⟨index, p, d.take 1518⟩ :: ms, rfl, ?_⟩
        have e : forwarded index (d :: caps) = (index, p.num, d.take 1518) :: forwarded index caps := by
          simp [forwarded, h60, ← ho]
        rw [e, ← hview]
        rfl

/-- For every batch of captured packets: no access outside the message buffer, and exactly the forwarding of
`forwarded` takes place. -/
theorem C28_exact (index : Nat) (caps : List Bytes) :
    ∃ ms, parentRecv index caps = .ok ms ∧ ms.map fwdView = forwarded index caps :=
  recvLoop_spec index caps _ List.length_replicate

/-- Everything forwarded is a captured packet of at least 60 bytes, cut to 1518, with the right protocol and
interface. -/
theorem C28_forward (index : Nat) (caps : List Bytes) (ms : List Fwd) (h : parentRecv index caps = .ok ms)
    (m : Fwd) (hm : m ∈ ms) : ∃ d ∈ caps, 60 ≤ d.length ∧ m.frame = d.take 1518 ∧ m.index = index ∧
      owner d = some m.proto.num ∧ 60 ≤ m.frame.length ∧ m.frame.length ≤ 1518 := by
  obtain ⟨ms', hms', hv⟩ := C28_exact index caps
  rw [h] at hms'
  cases hms'
  have : fwdView m ∈ forwarded index caps := by rw [← hv]; exact List.mem_map_of_mem hm
  unfold forwarded at this
  rw [List.mem_filterMap] at this
  obtain ⟨d, hd, he⟩ := this
  have hd' := List.mem_filter.mp (List.takeWhile_subset _ hd)
  have h60 : 60 ≤ d.length := by simpa using hd'.2
  cases ho : owner d with
  | none => rw [ho] at he; cases he
  | some p =>
    rw [ho] at he
    simp only [Option.map_some, Option.some.injEq, fwdView, Prod.mk.injEq] at he
    refine ⟨d, hd'.1, h60, he.2.2.symm, he.1.symm, by rw [← he.2.1, ho], ?_, ?_⟩ <;> rw [← he.2.2] <;> simp <;> omega

/-- Conversely a batch of known packets is forwarded completely and in order. -/
theorem C28_complete (index : Nat) (caps : List Bytes) (h : ∀ d ∈ caps, 60 ≤ d.length ∧ (owner d).isSome) :
    ∃ ms, parentRecv index caps = .ok ms ∧ ms.map Fwd.frame = caps.map (List.take 1518) ∧
      ms.map (fun m => some m.proto.num) = caps.map owner ∧ ∀ m ∈ ms, m.index = index := by
  obtain ⟨ms, hms, hv⟩ := C28_exact index caps
  have hf : forwarded index caps = caps.filterMap (fun d => (owner d).map (fun p => (index, p, d.take 1518))) := by
    unfold forwarded
    rw [List.filter_eq_self.mpr (by intro d hd; simpa using (h d hd).1)]
    congr 1
    have : ∀ l : List Bytes, (∀ d ∈ l, (owner d).isSome) → l.takeWhile (fun d => (owner d).isSome) = l := by
      intro l
      induction l with
      | nil => intro _; rfl
      | cons a l ih => intro h; rw [List.takeWhile_cons, if_pos (h a (by simp)), ih (fun d hd => h d (by simp [hd]))]
    exact this caps (fun d hd => (h d hd).2)
  rw [hf] at hv
  refine ⟨ms, hms, ?_⟩
  clear hms hf
  induction caps generalizing ms with
  | nil => cases ms with
    | nil => exact ⟨rfl, rfl, by simp⟩
    | cons m ms => cases hv
  | cons d caps ih =>
    obtain ⟨p, hp⟩ := Option.isSome_iff_exists.mp (h d (by simp)).2
    simp only [List.filterMap_cons, hp, Option.map_some] at hv
    cases ms with
    | nil => cases hv
    | cons m ms =>
      simp only [List.map_cons, List.cons.injEq, fwdView, Prod.mk.injEq] at hv
      obtain ⟨a, b, c⟩ := ih (fun d hd => h d (by simp [hd])) ms hv.2
      refine ⟨by simp [hv.1.2.2, a], by simp [hv.1.2.1, hp, b], ?_⟩
      intro m' hm'
      rcases List.mem_cons.mp hm' with rfl | hm'
      · exact hv.1.1
      · exact c m' hm'

/-- A short packet, an NDP packet, an unknown packet and a packet lost behind it. -/
example : parentRecv 7 [[1, 2, 3], [0x01, 0x00, 0x81, 0x00, 0x01, 0x00] ++ List.replicate 60 9,
    List.replicate 64 5, [0x01, 0x00, 0x81, 0x00, 0x01, 0x00] ++ List.replicate 60 8] =
    .ok [⟨7, .ndp, [0x01, 0x00, 0x81, 0x00, 0x01, 0x00] ++ List.replicate 60 9⟩] := by decide +kernel

/-! ## C39 A captured frame cannot crash the unprivileged process -/

theorem detect_dst {m : Bytes} {p : Proto} (h : detectProto m = some p) : p.dst = m.take 6 := by
  have := List.find?_some h
  simpa using this

theorem at_take {f : Bytes} {p n k : Nat} (h : p + n ≤ k) : at_ (f.take k) p n = at_ f p n := by
  unfold at_
  rw [List.drop_take, List.take_take]
  congr 1; omega

theorem tagOff_take (f : Bytes) : tagOff (f.take 1518) = tagOff f := by
  unfold tagOff; rw [at_take (by omega)]

/-- The filter only looks at the first bytes of a packet. -/
theorem wanted_take {f : Bytes} (h : Wanted f) : Wanted (f.take 1518) := by
  have ht : tagOff f ≤ 4 := by unfold tagOff; split <;> omega
  have llc : ∀ dst org pid, dst.length = 6 → org.length = 3 → (∃ payload, LlcFrame dst org (be16 pid) f payload) →
      ∃ payload, LlcFrame dst org (be16 pid) (f.take 1518) payload := by
    intro dst org pid hd ho h
    rw [llcFrame_iff _ _ _ _ hd ho] at h ⊢
    rwa [tagOff_take, at_take (by omega), at_take (by omega)]
  obtain ⟨q, h | h | h | h⟩ := h
  · have := (lldpFrame_iff f).mp ⟨q, h⟩
    obtain ⟨q', h'⟩ := (lldpFrame_iff (f.take 1518)).mpr (by rwa [tagOff_take, at_take (by omega), at_take (by omega)])
    exact ⟨q', Or.inl h'⟩
  · obtain ⟨q', h'⟩ := llc CDP_DST CDP_ORG CDP_PID rfl rfl ⟨q, h⟩; exact ⟨q', Or.inr (Or.inl h')⟩
  · obtain ⟨q', h'⟩ := llc FDP_DST FDP_ORG FDP_PID rfl rfl ⟨q, h⟩; exact ⟨q', Or.inr (Or.inr (Or.inl h'))⟩
  · obtain ⟨q', h'⟩ := llc NDP_DST NDP_ORG NDP_PID rfl rfl ⟨q, h⟩; exact ⟨q', Or.inr (Or.inr (Or.inr h'))⟩

theorem owner_dst {d : Bytes} {p : Proto} (h : 6 ≤ d.length) (ho : owner d = some p.num) : d.take 6 = p.dst := by
  rw [← detect_owner d h] at ho
  cases hp : detectProto (d.take 6) with
  | none => rw [hp] at ho; cases ho
  | some q =>
    rw [hp] at ho
    have hq := detect_dst hp
    rw [List.take_take] at hq
    have : q.num = p.num := by simpa using ho
    have : q = p := by revert this; cases p <;> cases q <;> decide
    rw [← this]
    simpa using hq.symm

/-- The filter and the classification together only let frames through which the frame check of their protocol
accepts. -/
theorem C39_checked (index : Nat) (wire : List Bytes) (hf : ∀ d ∈ wire, Accepts protoFilter d) (ms : List Fwd)
    (h : parentRecv index (wire.map (List.take 1518)) = .ok ms) (m : Fwd) (hm : m ∈ ms) (pad : Bytes) :
    ∃ n, Proto.check m.proto (m.frame ++ pad) m.frame.length = .ok n := by
  obtain ⟨d, hd, h60, he, _, ho, l1, l2⟩ := C28_forward index _ ms h m hm
  obtain ⟨w, hw, rfl⟩ := List.mem_map.mp hd
  have hmf : m.frame = w.take 1518 := by rw [he, List.take_take]; rfl
  have hown := owner_dst (p := m.proto) (by omega) ho
  have hat : at_ m.frame 0 6 = m.proto.dst := by rw [hmf]; simpa [at_] using hown
  have hacc := (C11_exact w).2.mp (hf w hw)
  rcases hacc with hwant | hmis
  · have hg : Wanted m.frame := by rw [hmf]; exact wanted_take hwant
    obtain ⟨q, hq | hq | hq | hq⟩ := hg
    · have hh := (lldpFrame_iff _).mp ⟨q, hq⟩
      have hp : m.proto = .lldp := by
        have := hat.symm.trans hh.1
        revert this; cases m.proto <;> decide
      refine ⟨14 + tagOff m.frame, ?_⟩
      rw [hp]
      show lldpCheck _ _ = _
      rw [lldpCheck_eq _ pad (by omega) l2, if_pos hh]
    · have hh := (llcFrame_iff CDP_DST CDP_ORG CDP_PID _ rfl rfl).mp ⟨q, hq⟩
      have hp : m.proto = .cdp ∨ m.proto = .cdp1 := by
        have := hat.symm.trans hh.1
        revert this; cases m.proto <;> decide
      refine ⟨22 + tagOff m.frame, ?_⟩
      have : llcCheck CDP_DST CDP_ORG CDP_PID (m.frame ++ pad) m.frame.length = .ok (22 + tagOff m.frame) := by
        rw [llcCheck_eq _ _ _ _ pad rfl (by decide) (by omega) l2, if_pos hh]
      rcases hp with hp | hp <;> rw [hp] <;> exact this
    · have hh := (llcFrame_iff FDP_DST FDP_ORG FDP_PID _ rfl rfl).mp ⟨q, hq⟩
      have hp : m.proto = .fdp := by
        have := hat.symm.trans hh.1
        revert this; cases m.proto <;> decide
      refine ⟨22 + tagOff m.frame, ?_⟩
      rw [hp]
      show llcCheck _ _ _ _ _ = _
      rw [llcCheck_eq _ _ _ _ pad rfl (by decide) (by omega) l2, if_pos hh]
    · have hh := (llcFrame_iff NDP_DST NDP_ORG NDP_PID _ rfl rfl).mp ⟨q, hq⟩
      have hp : m.proto = .ndp := by
        have := hat.symm.trans hh.1
        revert this; cases m.proto <;> decide
      refine ⟨22 + tagOff m.frame, ?_⟩
      rw [hp]
      show llcCheck _ _ _ _ _ = _
      rw [llcCheck_eq _ _ _ _ pad rfl (by decide) (by omega) l2, if_pos hh]
  · have hh := ((llcFrame_iff [0x00, 0x0e, 0x2b, 0, 0, 0] [0x00, 0x0e, 0x2b] EDP_PID w rfl rfl).mp hmis).1
    rw [hmf, at_take (by omega), hh] at hat
    exfalso
    revert hat; cases m.proto <;> decide

/-- A frame accepted by the check of a protocol is decoded or refused by its decoder, nothing else. -/
theorem checked_decode (print : Bool) (p : Proto) (f pad : Bytes) (s : Msg) (n : Nat) (h1 : 26 ≤ f.length)
    (h2 : f.length ≤ 1518) (hpad : 2 ≤ pad.length) (hc : p.check (f ++ pad) f.length = .ok n) :
    p.decode print (f ++ pad) f.length s = .fail ∨ ∃ r, p.decode print (f ++ pad) f.length s = .ok r := by
  have llc : ∀ dst org pid, org.length = 3 → dst.length = 6 → pid < 65536 →
      llcCheck dst org pid (f ++ pad) f.length = .ok n → ∃ payload, LlcFrame dst org (be16 pid) f payload := by
    intro dst org pid ho hd hp' h
    rw [llcCheck_eq _ _ _ f pad ho hp' h1 h2] at h
    rw [llcFrame_iff dst org pid f hd ho]
    split at h
    · assumption
    · cases h
  have cdp : llcCheck CDP_DST CDP_ORG CDP_PID (f ++ pad) f.length = .ok n →
      cdpDecode print (f ++ pad) f.length s = .fail ∨ ∃ r, cdpDecode print (f ++ pad) f.length s = .ok r := by
    intro hc
    rcases cdpDecode_sound print f pad s h1 h2 with h | h | ⟨_, _, _, _, h⟩
    · exact absurd (llc CDP_DST CDP_ORG CDP_PID rfl rfl (by decide) hc) h.2
    · exact Or.inl h.1
    · exact Or.inr ⟨_, h⟩
  cases p with
  | lldp =>
    rcases lldpDecode_sound print f pad s (by omega) h2 hpad with h | h | ⟨_, _, _, _, _, h⟩
    · have hc' : lldpCheck (f ++ pad) f.length = .ok n := hc
      rw [lldpCheck_eq f pad (by omega) h2] at hc'
      split at hc'
      · next hh => exact absurd ((lldpFrame_iff f).mpr hh) h.2
      · cases hc'
    · exact Or.inl h.1
    · exact Or.inr ⟨_, h⟩
  | cdp => exact cdp hc
  | cdp1 => exact cdp hc
  | edp =>
    rcases edpDecode_sound f pad s h1 h2 with h | h | ⟨_, _, _, _, h⟩
    · exact absurd (llc EDP_DST EDP_ORG EDP_PID rfl rfl (by decide) hc) h.2
    · exact Or.inl h.1
    · exact Or.inr ⟨_, h⟩
  | fdp =>
    rcases fdpDecode_sound f pad s h1 h2 with h | h | ⟨_, _, _, _, h⟩
    · exact absurd (llc FDP_DST FDP_ORG FDP_PID rfl rfl (by decide) hc) h.2
    · exact Or.inl h.1
    · exact Or.inr ⟨_, h⟩
  | ndp =>
    rcases ndpDecode_spec f pad s h1 h2 with h | ⟨_, _, _, h⟩ | ⟨_, _, _, h⟩
    · exact absurd (llc NDP_DST NDP_ORG NDP_PID rfl rfl (by decide) hc) h.2
    · exact Or.inl h
    · exact Or.inr ⟨_, h⟩

/-- Whatever is on the wire, the unprivileged process decodes or refuses every frame handed to it: no assertion
fails and no access leaves the frame and the two bytes behind it. -/
theorem C39_no_crash (print : Bool) (index : Nat) (wire : List Bytes) (hf : ∀ d ∈ wire, Accepts protoFilter d)
    (ms : List Fwd) (h : parentRecv index (wire.map (List.take 1518)) = .ok ms) (m : Fwd) (hm : m ∈ ms) (pad : Bytes)
    (hpad : 2 ≤ pad.length) (s : Msg) :
    m.proto.decode print (m.frame ++ pad) m.frame.length s = .fail ∨
      ∃ r, m.proto.decode print (m.frame ++ pad) m.frame.length s = .ok r := by
  obtain ⟨_, _, _, _, _, _, l1, l2⟩ := C28_forward index _ ms h m hm
  obtain ⟨n, hn⟩ := C39_checked index wire hf ms h m hm pad
  exact checked_decode print m.proto m.frame pad s n (by omega) l2 hpad hn

/-- Without the filter the assertion in the decoder is reachable. -/
example : ∃ ms, parentRecv 1 [[0x01, 0x00, 0x0c, 0xcc, 0xcc, 0xcc] ++ List.replicate 60 0] = .ok ms ∧
    ∃ m ∈ ms, m.proto.decode false (m.frame ++ [0, 0]) m.frame.length {} = .abort :=
  ⟨[⟨1, .cdp, [0x01, 0x00, 0x0c, 0xcc, 0xcc, 0xcc] ++ List.replicate 60 0⟩], by decide +kernel⟩

/-- An NDP frame makes it through the whole path. -/
example : Accepts protoFilter ([0x01, 0x00, 0x81, 0x00, 0x01, 0x00, 2, 0, 0, 0, 0, 1, 0, 60, 0xaa, 0xaa, 3, 0, 0, 0x81,
    0x01, 0xa2] ++ List.replicate 40 0) :=
  (C11_exact _).2.mpr (Or.inl ⟨List.replicate 40 0, Or.inr (Or.inr (Or.inr
    ⟨_, ⟨[2, 0, 0, 0, 0, 1], [0, 60], rfl, rfl, Or.inl ⟨rfl, by decide⟩⟩, rfl⟩))⟩)

end Ladvd.Props
