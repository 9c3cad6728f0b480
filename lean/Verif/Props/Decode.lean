import Verif.Lemmas.Decode
/-!
# C07, C08, C09, C36, C37: decoding received frames

`f` is the received frame, `pad` the memory behind it (the rest of the 1518 byte frame buffer and of the
structure it lives in).  The receive path only passes on frames of 60 to 1518 bytes; the theorems need 26
(the longest LLC/SNAP header with a VLAN tag), LLDP 18.
-/

namespace Ladvd.Props

open Spec

/-- The decoder finished without leaving the memory it was given. -/
def Safe {α : Type} : Res α → Prop
  | .oob => False
  | .stuck => False
  | _ => True

/-! ## C07 Decoders never read outside the received frame -/

/-- CDP, EDP, FDP and NDP: with nothing at all behind the frame, decoding finishes and reads inside it. -/
theorem C07_cdp (print : Bool) (f : Bytes) (s : Msg) (h1 : 26 ≤ f.length) (h2 : f.length ≤ 1518) :
    Safe (cdpDecode print f f.length s) := by
  have := cdpDecode_sound print f [] s h1 h2
  simp only [List.append_nil] at this
  rcases this with h | h | ⟨_, _, _, _, h⟩
  · rw [h.1]; trivial
  · rw [h.1]; trivial
  · rw [h]; trivial

@[inherit_doc C07_cdp]
theorem C07_edp (f : Bytes) (s : Msg) (h1 : 26 ≤ f.length) (h2 : f.length ≤ 1518) :
    Safe (edpDecode f f.length s) := by
  have := edpDecode_sound f [] s h1 h2
  simp only [List.append_nil] at this
  rcases this with h | h | ⟨_, _, _, _, h⟩
  · rw [h.1]; trivial
  · rw [h.1]; trivial
  · rw [h]; trivial

@[inherit_doc C07_cdp]
theorem C07_fdp (f : Bytes) (s : Msg) (h1 : 26 ≤ f.length) (h2 : f.length ≤ 1518) :
    Safe (fdpDecode f f.length s) := by
  have := fdpDecode_sound f [] s h1 h2
  simp only [List.append_nil] at this
  rcases this with h | h | ⟨_, _, _, _, h⟩
  · rw [h.1]; trivial
  · rw [h.1]; trivial
  · rw [h]; trivial

@[inherit_doc C07_cdp]
theorem C07_ndp (f : Bytes) (s : Msg) (h1 : 26 ≤ f.length) (h2 : f.length ≤ 1518) :
    Safe (ndpDecode f f.length s) := by
  have := ndpDecode_spec f [] s h1 h2
  simp only [List.append_nil] at this
  rcases this with h | ⟨_, _, _, h⟩ | ⟨_, _, _, h⟩
  · rw [h.1]; trivial
  · rw [h]; trivial
  · rw [h]; trivial

/-- LLDP.  The full claim is `Safe (lldpDecode print f f.length s)`; it is false (`C07_lldp_overread`), what
holds is that decoding finishes and reads at most two bytes behind the frame.  In the 1518 byte frame buffer
this is harmless for frames of up to 1516 bytes. -/
theorem C07_lldp_partial (print : Bool) (f pad : Bytes) (s : Msg) (h1 : 18 ≤ f.length) (h2 : f.length ≤ 1518)
    (hp : 2 ≤ pad.length) : Safe (lldpDecode print (f ++ pad) f.length s) := by
  rcases lldpDecode_sound print f pad s h1 h2 hp with h | h | ⟨_, _, _, _, _, h⟩
  · rw [h.1]; trivial
  · rw [h.1]; trivial
  · rw [h]; trivial

/-- A 60 byte LLDP frame that ends behind the chassis ID. -/
def lldpNoEnd : Bytes :=
  [0x01, 0x80, 0xc2, 0x00, 0x00, 0x0e, 2, 0, 0, 0, 0, 1, 0x88, 0xcc] ++
  [0x02, 0x2c, 7] ++ List.replicate 43 0x78

/-- The two bytes behind that frame are read. -/
theorem C07_lldp_overread : ∃ f : Bytes, 60 ≤ f.length ∧ f.length ≤ 1518 ∧ lldpCheck f f.length = .ok 14 ∧
    lldpDecode false f f.length {} = .oob :=
  ⟨lldpNoEnd, by decide +kernel⟩

/-- Frames that get as far as the TLVs: truncated, wrapped, oversized. -/
def cdpHead : Bytes :=
  [0x01, 0x00, 0x0c, 0xcc, 0xcc, 0xcc, 2, 0, 0, 0, 0, 1, 0, 60, 0xaa, 0xaa, 3, 0, 0, 0x0c, 0x20, 0]
example : 26 ≤ (cdpHead ++ [2, 180, 0, 0, 0, 1, 0, 3]).length ∧
    cdpDecode false (cdpHead ++ [2, 180, 0, 0, 0, 1, 0, 3]) 30 {} = .fail := by decide +kernel
example : cdpDecode false (cdpHead ++ [2, 180, 0, 0, 0, 1, 0, 7, 0x61, 0x62, 0x63]) 33 {} =
    .ok ({ proto := 1, ttl := 180, peer := { hostname := some (lit "abc") } }, 33) := by decide +kernel
example : cdpDecode false (cdpHead ++ [2, 180, 0, 0, 0, 2, 0, 9, 0xff, 0xff, 0xff, 0xff, 1]) 35 {} =
    .fail := by decide +kernel
/-- Shorter frames, which the receive path drops, would not be safe. -/
example : cdpDecode false ([0x01, 0x00, 0x0c, 0xcc, 0xcc, 0xcc, 2, 0, 0, 0, 0, 1, 0x81, 0] ++
    List.replicate 9 0) 23 {} = .oob := by decide +kernel

/-! ## C08 Decoding depends only on the received frame -/

/-- Whatever lies behind the frame, the complete outcome (state, return value, accept or reject) is the
same. -/
theorem C08_cdp (print : Bool) (f p1 p2 : Bytes) (s : Msg) (h1 : 26 ≤ f.length) (h2 : f.length ≤ 1518) :
    cdpDecode print (f ++ p1) f.length s = cdpDecode print (f ++ p2) f.length s := by
  rcases cdpDecode_sound print f p1 s h1 h2 with ⟨h, n⟩ | ⟨h, n⟩ | ⟨pl, s', hf, hp, h⟩
  · rcases cdpDecode_sound print f p2 s h1 h2 with ⟨h', n'⟩ | ⟨h', n'⟩ | ⟨pl', _, hf', _, h'⟩
    · rw [h, h']
    · exact absurd n' n
    · exact absurd ⟨_, hf'⟩ n
  · rcases cdpDecode_sound print f p2 s h1 h2 with ⟨h', n'⟩ | ⟨h', n'⟩ | ⟨pl', s', hf', hp', h'⟩
    · exact absurd n n'
    · rw [h, h']
    · rw [cdpDecode_complete print f p1 pl' s s' h1 h2 hf' hp'] at h; cases h
  · rw [h, cdpDecode_complete print f p2 pl s s' h1 h2 hf hp]

@[inherit_doc C08_cdp]
theorem C08_fdp (f p1 p2 : Bytes) (s : Msg) (h1 : 26 ≤ f.length) (h2 : f.length ≤ 1518) :
    fdpDecode (f ++ p1) f.length s = fdpDecode (f ++ p2) f.length s := by
  rcases fdpDecode_sound f p1 s h1 h2 with ⟨h, n⟩ | ⟨h, n⟩ | ⟨pl, s', hf, hp, h⟩
  · rcases fdpDecode_sound f p2 s h1 h2 with ⟨h', n'⟩ | ⟨h', n'⟩ | ⟨pl', _, hf', _, h'⟩
    · rw [h, h']
    · exact absurd n' n
    · exact absurd ⟨_, hf'⟩ n
  · rcases fdpDecode_sound f p2 s h1 h2 with ⟨h', n'⟩ | ⟨h', n'⟩ | ⟨pl', s', hf', hp', h'⟩
    · exact absurd n n'
    · rw [h, h']
    · rw [fdpDecode_complete f p1 pl' s s' h1 h2 hf' hp'] at h; cases h
  · rw [h, fdpDecode_complete f p2 pl s s' h1 h2 hf hp]

@[inherit_doc C08_cdp]
theorem C08_edp (f p1 p2 : Bytes) (s : Msg) (h1 : 26 ≤ f.length) (h2 : f.length ≤ 1518) :
    edpDecode (f ++ p1) f.length s = edpDecode (f ++ p2) f.length s := by
  rcases edpDecode_sound f p1 s h1 h2 with ⟨h, n⟩ | ⟨h, n⟩ | ⟨pl, s', hf, hp, h⟩
  · rcases edpDecode_sound f p2 s h1 h2 with ⟨h', n'⟩ | ⟨h', n'⟩ | ⟨pl', _, hf', _, h'⟩
    · rw [h, h']
    · exact absurd n' n
    · exact absurd ⟨_, hf'⟩ n
  · rcases edpDecode_sound f p2 s h1 h2 with ⟨h', n'⟩ | ⟨h', n'⟩ | ⟨pl', s', hf', hp', h'⟩
    · exact absurd n n'
    · rw [h, h']
    · rw [edpDecode_complete f p1 pl' s s' h1 h2 hf' hp'] at h; cases h
  · rw [h, edpDecode_complete f p2 pl s s' h1 h2 hf hp]

@[inherit_doc C08_cdp]
theorem C08_ndp (f p1 p2 : Bytes) (s : Msg) (h1 : 26 ≤ f.length) (h2 : f.length ≤ 1518) :
    ndpDecode (f ++ p1) f.length s = ndpDecode (f ++ p2) f.length s := by
  unfold ndpDecode ndpCheck
  rcases llc_cases NDP_DST NDP_ORG NDP_PID [0x01, 0xa2] f p1 (by decide) rfl rfl (by decide) h1 h2 with
    ⟨h, n⟩ | ⟨pre, pl, e, hp, h, _, _, _, hu⟩
  · rcases llc_cases NDP_DST NDP_ORG NDP_PID [0x01, 0xa2] f p2 (by decide) rfl rfl (by decide) h1 h2 with
      ⟨h', n'⟩ | ⟨pre', pl', e', hp', h', _, _, _, _⟩
    · rw [h, h']
    · exact absurd ⟨_, _, hp', e'⟩ n
  · rcases llc_cases NDP_DST NDP_ORG NDP_PID [0x01, 0xa2] f p2 (by decide) rfl rfl (by decide) h1 h2 with
      ⟨h', n'⟩ | ⟨pre', pl', e', hp', h', _, _, _, _⟩
    · exact absurd ⟨_, _, hp, e⟩ n'
    · have hpl := hu pl' ⟨_, hp', e'⟩
      have hpre : pre = pre' := by
        rw [e, hpl] at e'
        exact List.append_cancel_right e'
      rw [h, h', hpre]

/-- LLDP reads up to two bytes behind the frame but does not let them influence the outcome. -/
theorem C08_lldp (print : Bool) (f p1 p2 : Bytes) (s : Msg) (h1 : 18 ≤ f.length) (h2 : f.length ≤ 1518)
    (l1 : 2 ≤ p1.length) (l2 : 2 ≤ p2.length) :
    lldpDecode print (f ++ p1) f.length s = lldpDecode print (f ++ p2) f.length s := by
  rcases lldpDecode_sound print f p1 s h1 h2 l1 with ⟨h, n⟩ | ⟨h, n⟩ | ⟨pdu, tr, s', hf, hp, h⟩
  · rcases lldpDecode_sound print f p2 s h1 h2 l2 with ⟨h', n'⟩ | ⟨h', n'⟩ | ⟨_, _, _, hf', _, h'⟩
    · rw [h, h']
    · exact absurd n' n
    · exact absurd ⟨_, hf'⟩ n
  · rcases lldpDecode_sound print f p2 s h1 h2 l2 with ⟨h', n'⟩ | ⟨h', n'⟩ | ⟨pdu', tr', s', hf', hp', h'⟩
    · exact absurd n n'
    · rw [h, h']
    · rw [lldpDecode_complete print f p1 pdu' tr' s s' h1 h2 l1 hf' hp'] at h; cases h
  · rw [h, lldpDecode_complete print f p2 pdu tr s s' h1 h2 l2 hf hp]

/-- Stale memory that would continue the last TLV, or supply an End TLV. -/
example : cdpDecode false (cdpHead ++ [2, 180, 0, 0, 0, 1, 0, 7, 0x61, 0x62] ++ [0x63]) 32 {} = .fail ∧
    cdpDecode false (cdpHead ++ [2, 180, 0, 0, 0, 1, 0, 7, 0x61, 0x62, 0x63]) 33 {} ≠ .fail := by
  decide +kernel
example : lldpDecode false (lldpNoEnd ++ [0x04, 0x02, 5, 0x62, 0x06, 0x02, 0, 120, 0, 0]) 60 {} = .fail ∧
    lldpDecode false (lldpNoEnd ++ [0x04, 0x02, 5, 0x62, 0x06, 0x02, 0, 120, 0, 0]) 70 {} ≠ .fail := by
  decide +kernel

/-! ## C09 LLDP grammar enforcement -/

/-- Type and length rules for an LLDP data unit: chassis ID and port ID of 2 to 256 bytes and a two byte TTL come
first and in this order, then TLVs of types 1 to 8 or 127 with at most one system name (of at most 255
bytes), then an empty End TLV. -/
def LldpGrammar (pdu : Bytes) : Prop :=
  ∃ (chassis port ttl : Bytes) (ts : List Tlv),
    pdu = lldpEnc ([(1, chassis), (2, port), (3, ttl)] ++ ts ++ [(0, [])]) ∧
    (2 ≤ chassis.length ∧ chassis.length ≤ 256) ∧ (2 ≤ port.length ∧ port.length ≤ 256) ∧ ttl.length = 2 ∧
    (∀ t ∈ ts, ((1 ≤ t.1 ∧ t.1 ≤ 8) ∨ t.1 = 127) ∧ t.2.length < 512 ∧
      (t.1 = 5 → t.2.length ≤ 255) ∧ (t.1 = 7 → t.2.length = 4)) ∧
    (ts.filter (fun t => t.1 = 5)).length ≤ 1

theorem chassisMeaning_len {print : Bool} {s s1 : Msg} {v : Bytes} (h : chassisMeaning print s v = some s1) :
    2 ≤ v.length ∧ v.length ≤ 256 := by
  match v, h with
  | [], h => simp [chassisMeaning] at h
  | [_], h => simp [chassisMeaning] at h
  | a :: b :: r, h =>
    simp only [chassisMeaning] at h
    by_cases hl : (b :: r).length > 255
    · rw [if_pos hl] at h; cases h
    · simp only [List.length_cons] at hl ⊢; omega

theorem portMeaning_len {print : Bool} {s s1 : Msg} {v : Bytes} (h : portMeaning print s v = some s1) :
    2 ≤ v.length ∧ v.length ≤ 256 := by
  match v, h with
  | [], h => simp [portMeaning] at h
  | [_], h => simp [portMeaning] at h
  | a :: b :: r, h =>
    simp only [portMeaning] at h
    by_cases hl : (b :: r).length > 255
    · rw [if_pos hl] at h; cases h
    · simp only [List.length_cons] at hl ⊢; omega

theorem showOr_hostname (print : Bool) (txt : Bytes) (g : Peer → Peer) (s : Msg)
    (h : (g s.peer).hostname = s.peer.hostname) : (showOr print txt g s).peer.hostname = s.peer.hostname := by
  unfold showOr; cases print <;> simp [h]

theorem showAddr_hostname (fam : Nat) (v : Bytes) (s : Msg) : (showAddr fam v s).peer = s.peer := by
  unfold showAddr; split <;> rfl

theorem chassisMeaning_peer {print : Bool} {s s1 : Msg} {v : Bytes} (h : chassisMeaning print s v = some s1) :
    s1.peer = s.peer := by
  unfold chassisMeaning at h
  repeat' split at h
  all_goals first
    | (cases h; done)
    | (simp only [Option.some.injEq] at h; subst h; first | rfl | exact showAddr_hostname _ _ _)

theorem portMeaning_hostname {print : Bool} {s s1 : Msg} {v : Bytes} (h : portMeaning print s v = some s1) :
    s1.peer.hostname = s.peer.hostname := by
  unfold portMeaning at h
  repeat' split at h
  all_goals first
    | (cases h; done)
    | (simp only [Option.some.injEq] at h; subst h
       first
       | rfl
       | exact showOr_hostname _ _ _ _ rfl
       | (rw [showAddr_hostname]))

theorem mgmtMeaning_hostname {print : Bool} {s s1 : Msg} {v : Bytes} (h : mgmtMeaning print s v = some s1) :
    s1.peer.hostname = s.peer.hostname := by
  unfold mgmtMeaning at h
  dsimp only at h
  repeat' split at h
  all_goals first
    | (cases h; done)
    | (simp only [Option.some.injEq] at h; subst h
       first
       | rfl
       | exact showOr_hostname _ _ _ _ rfl)

theorem orgMeaning_hostname {print : Bool} {s s1 : Msg} {v : Bytes} (h : orgMeaning print s v = some s1) :
    s1.peer.hostname = s.peer.hostname := by
  unfold orgMeaning at h
  repeat' split at h
  all_goals first
    | (cases h; done)
    | (simp only [Option.some.injEq] at h; subst h
       first
       | rfl
       | exact showOr_hostname _ _ _ _ rfl)

/-- What acceptance of one TLV says about its type and length, and about the remembered system name. -/
theorem lldpMeaning_shape {print : Bool} {s s1 : Msg} {t : Tlv} (h : lldpMeaning print s t = some s1) :
    ((1 ≤ t.1 ∧ t.1 ≤ 8) ∨ t.1 ≥ 127) ∧ (t.1 = 5 → t.2.length ≤ 255) ∧ (t.1 = 7 → t.2.length = 4) ∧
    (t.1 = 5 → s.peer.hostname = none ∧ s1.peer.hostname.isSome) ∧
    (t.1 ≠ 5 → s1.peer.hostname = s.peer.hostname) := by
  unfold lldpMeaning at h
  dsimp only at h
  by_cases h0 : t.1 = 0
  · rw [if_pos h0] at h; cases h
  rw [if_neg h0] at h
  by_cases h5 : t.1 = 5
  · rw [if_pos h5] at h
    split at h
    · cases h
    rename_i hl
    split at h
    · cases h
    rename_i hn
    simp only [Option.some.injEq] at h
    subst h
    refine ⟨by omega, fun _ => by omega, fun _ => by omega, fun _ => ⟨?_, rfl⟩, fun h => absurd h5 h⟩
    cases hs : s.peer.hostname with
    | none => rfl
    | some x => rw [hs] at hn; simp at hn
  rw [if_neg h5] at h
  refine ⟨?_, fun h => absurd h h5, ?_, fun h => absurd h h5, fun _ => ?_⟩
  · split at h
    · omega
    split at h
    · omega
    split at h
    · omega
    split at h
    · omega
    split at h
    · omega
    split at h
    · cases h
    omega
  · intro h7
    rw [if_neg (by omega), if_neg (by omega), if_pos h7] at h
    split at h
    · cases h
    rename_i hl
    exact Decidable.not_not.mp hl
  · split at h
    · simp only [Option.some.injEq] at h; subst h; exact showOr_hostname _ _ _ _ rfl
    split at h
    · simp only [Option.some.injEq] at h; subst h; split <;> rfl
    split at h
    · repeat' split at h
      all_goals first
        | (cases h; done)
        | (simp only [Option.some.injEq] at h; subst h; rfl)
    split at h
    · exact mgmtMeaning_hostname h
    split at h
    · exact orgMeaning_hostname h
    split at h
    · cases h
    · simp only [Option.some.injEq] at h; subst h; rfl

theorem lldpMeanings_shape {print : Bool} (ts : List Tlv) : ∀ {s s1 : Msg}, ts.foldlM (lldpMeaning print) s = some s1 →
    (∀ t ∈ ts, ((1 ≤ t.1 ∧ t.1 ≤ 8) ∨ t.1 ≥ 127) ∧ (t.1 = 5 → t.2.length ≤ 255) ∧
      (t.1 = 7 → t.2.length = 4)) ∧
    (ts.filter (fun t => t.1 = 5)).length + s.peer.hostname.toList.length =
      s1.peer.hostname.toList.length := by
  induction ts with
  | nil =>
    intro s s1 h
    simp only [List.foldlM_nil, Option.pure_def, Option.some.injEq] at h
    subst h; simp
  | cons t ts ih =>
    intro s s1 h
    simp only [List.foldlM_cons, Option.bind_eq_bind, Option.bind_eq_some_iff] at h
    obtain ⟨s2, h2, h3⟩ := h
    obtain ⟨a1, a2, a3, a4, a5⟩ := lldpMeaning_shape h2
    obtain ⟨b1, b2⟩ := ih h3
    refine ⟨?_, ?_⟩
    · intro u hu
      rcases List.mem_cons.mp hu with rfl | hu
      · exact ⟨a1, a2, a3⟩
      · exact b1 u hu
    · by_cases h5 : t.1 = 5
      · obtain ⟨c1, c2⟩ := a4 h5
        rw [List.filter_cons_of_pos (by simpa using h5), List.length_cons, c1]
        have : s2.peer.hostname.toList.length = 1 := by
          cases hx : s2.peer.hostname with
          | none => rw [hx] at c2; cases c2
          | some x => rfl
        simp only [Option.toList_none, List.length_nil]; omega
      · rw [List.filter_cons_of_neg (by simpa using h5), ← b2, a5 h5]

/-- Acceptance is exactly the specification: the payload is one data unit with a meaning, possibly followed by
bytes that are ignored; the state and return value are the ones it prescribes. -/
theorem C09_accept_iff (print : Bool) (f pad : Bytes) (s s' : Msg) (n : Nat) (h1 : 18 ≤ f.length)
    (h2 : f.length ≤ 1518) (hp : 2 ≤ pad.length) :
    lldpDecode print (f ++ pad) f.length s = .ok (s', n) ↔
      ∃ pdu trailer, LldpFrame f (pdu ++ trailer) ∧ lldpPdu print pdu s s' ∧ n = f.length - trailer.length := by
  constructor
  · intro h
    rcases lldpDecode_sound print f pad s h1 h2 hp with h' | h' | ⟨pdu, tr, s'', hf, hm, h'⟩
    · rw [h'.1] at h; cases h
    · rw [h'.1] at h; cases h
    · rw [h'] at h
      simp only [Res.ok.injEq, Prod.mk.injEq] at h
      obtain ⟨rfl, rfl⟩ := h
      exact ⟨pdu, tr, hf, hm, rfl⟩
  · rintro ⟨pdu, tr, hf, hm, rfl⟩
    exact lldpDecode_complete print f pad pdu tr s s' h1 h2 hp hf hm

/-- The decoder accepts only data units that follow the grammar. -/
theorem C09_grammar (print : Bool) (f pad : Bytes) (s s' : Msg) (n : Nat) (h1 : 18 ≤ f.length)
    (h2 : f.length ≤ 1518) (hp : 2 ≤ pad.length)
    (h : lldpDecode print (f ++ pad) f.length s = .ok (s', n)) :
    ∃ pdu trailer, LldpFrame f (pdu ++ trailer) ∧ LldpGrammar pdu ∧ n = f.length - trailer.length := by
  obtain ⟨pdu, tr, hf, ⟨ch, po, t0, t1, ts, s1, s2, e, hw, m1, m2, m3⟩, rfl⟩ :=
    (C09_accept_iff print f pad s s' n h1 h2 hp).mp h
  obtain ⟨c1, c2⟩ := lldpMeanings_shape ts m3
  refine ⟨pdu, tr, hf, ⟨ch, po, [t0, t1], ts, e, chassisMeaning_len m1, portMeaning_len m2, rfl, ?_, ?_⟩, rfl⟩
  · intro t ht
    obtain ⟨d1, d2, d3⟩ := c1 t ht
    have := hw t (by simp [ht])
    exact ⟨by omega, by omega, d2, d3⟩
  · have : s'.peer.hostname.toList.length ≤ 1 := by cases s'.peer.hostname <;> simp
    omega

/-- Everything else carried by a LLDP frame is rejected (and a frame that is not LLDP is never decoded at
all: the decoder's own assertion stops it). -/
theorem C09_reject (print : Bool) (f pad payload : Bytes) (s : Msg) (h1 : 18 ≤ f.length) (h2 : f.length ≤ 1518)
    (hp : 2 ≤ pad.length) (hf : LldpFrame f payload)
    (hn : ¬ ∃ pdu trailer s', payload = pdu ++ trailer ∧ lldpPdu print pdu s s') :
    lldpDecode print (f ++ pad) f.length s = .fail := by
  rcases lldpDecode_sound print f pad s h1 h2 hp with h' | h' | ⟨pdu, tr, s'', hf', hm, h'⟩
  · exact absurd ⟨_, hf⟩ h'.2
  · exact h'.1
  · obtain ⟨pre, hpre, e⟩ := hf
    obtain ⟨pre', hpre', e'⟩ := hf'
    exact absurd ⟨pdu, tr, s'', (lldpPrefix_unique h1 e hpre e' hpre').2, hm⟩ hn

def lldpHead : Bytes := [0x01, 0x80, 0xc2, 0x00, 0x00, 0x0e, 2, 0, 0, 0, 0, 1, 0x88, 0xcc]

/-- An accepted data unit with an ignored trailer; a missing End TLV, wrong order, second system name, reserved
type, nonempty End TLV. -/
example : lldpDecode false (lldpHead ++ lldpEnc [(1, [7, 0x61]), (2, [5, 0x62]), (3, [0, 120]), (5, [0x63]),
    (0, [])] ++ [9, 9, 9]) 34 {} =
    .ok ({ ttl := 120, peer := { hostname := some [0x63], portname := some [0x62] } }, 31) := by decide +kernel
example : lldpDecode false (lldpHead ++ lldpEnc [(2, [5, 0x62]), (1, [7, 0x61]), (3, [0, 120]), (0, [])] ++
    [9, 9]) 28 {} = .fail := by decide +kernel
example : lldpDecode false (lldpHead ++ lldpEnc [(1, [7, 0x61]), (2, [5, 0x62]), (3, [0, 120]), (5, [0x63]),
    (5, [0x63]), (0, [])] ++ [9, 9]) 34 {} = .fail := by decide +kernel
example : lldpDecode false (lldpHead ++ lldpEnc [(1, [7, 0x61]), (2, [5, 0x62]), (3, [0, 120]), (9, [0x63]),
    (0, [])] ++ [9, 9]) 31 {} = .fail := by decide +kernel
example : lldpDecode false (lldpHead ++ lldpEnc [(1, [7, 0x61]), (2, [5, 0x62]), (3, [0, 120]), (0, [0x63])] ++
    [9, 9]) 29 {} = .fail := by decide +kernel

/-! ## C37 A repeated mandatory LLDP TLV -/

/-- IEEE 802.1AB requires a data unit that repeats chassis ID, port ID or TTL to be discarded.  ladvd accepts
it: the claim is false. -/
theorem C37_duplicate_accepted : ∃ (f pad : Bytes) (ts : List Tlv) (r : Msg × Nat),
    f = lldpHead ++ lldpEnc ts ∧ 60 ≤ f.length ∧ (ts.filter (fun t => t.1 = 3)).length = 2 ∧
    (ts.filter (fun t => t.1 = 1)).length = 2 ∧ lldpDecode false (f ++ pad) f.length {} = .ok r :=
  ⟨lldpHead ++ lldpEnc [(1, [7, 0x61]), (2, [5, 0x62]), (3, [0, 120]), (1, [7, 0x63]), (3, [0, 1]),
      (6, List.replicate 24 0x78), (0, [])], [0, 0],
    [(1, [7, 0x61]), (2, [5, 0x62]), (3, [0, 120]), (1, [7, 0x63]), (3, [0, 1]), (6, List.replicate 24 0x78),
      (0, [])],
    ({ ttl := 120, peer := { portname := some [0x62] } }, 62), by decide +kernel⟩

/-- Equal encodings start with the same TLV. -/
theorem lldpEnc1_inj {t t' : Tlv} {r r' : Bytes} (h1 : t.1 < 128) (h2 : t.2.length < 512)
    (h1' : t'.1 < 128) (h2' : t'.2.length < 512) (h : lldpEnc1 t ++ r = lldpEnc1 t' ++ r') : t = t' ∧ r = r' := by
  have e1 := lldpEnc1_hdr t r h1 h2
  have e2 := lldpEnc1_hdr t' r' h1' h2'
  rw [h] at e1
  have ht : t.1 = t'.1 := by omega
  have hl : t.2.length = t'.2.length := by omega
  have hd := congrArg (List.drop 2) h
  rw [lldpEnc1_drop, lldpEnc1_drop] at hd
  have := List.append_inj hd hl
  exact ⟨Prod.ext ht this.1, this.2⟩

/-- The TLV sequence before the first End TLV is determined by the bytes. -/
theorem lldpEnc_end_inj (ts : List Tlv) : ∀ {ts' : List Tlv} {r r' : Bytes}, LldpWf ts → LldpWf ts' →
    (∀ t ∈ ts, t.1 ≠ 0) → (∀ t ∈ ts', t.1 ≠ 0) →
    lldpEnc (ts ++ [(0, [])]) ++ r = lldpEnc (ts' ++ [(0, [])]) ++ r' → ts = ts' ∧ r = r' := by
  induction ts with
  | nil =>
    intro ts' r r' _ w' _ n' h
    cases ts' with
    | nil =>
      simp only [List.nil_append] at h
      exact ⟨rfl, List.append_cancel_left h⟩
    | cons t' ts' =>
      simp only [List.nil_append, List.cons_append, lldpEnc_cons, List.append_assoc] at h
      have w := w' t' (by simp)
      have := (lldpEnc1_inj (by simp) (by simp) w.1 w.2 h).1
      exact absurd (by rw [← this]) (n' t' (by simp))
  | cons t ts ih =>
    intro ts' r r' w w' n n' h
    cases ts' with
    | nil =>
      simp only [List.nil_append, List.cons_append, lldpEnc_cons, List.append_assoc] at h
      have w := w t (by simp)
      have := (lldpEnc1_inj w.1 w.2 (by simp) (by simp) h).1
      exact absurd (by rw [this]) (n t (by simp))
    | cons t' ts' =>
      simp only [List.cons_append, lldpEnc_cons, List.append_assoc] at h
      have a := w t (by simp)
      have a' := w' t' (by simp)
      obtain ⟨e1, e2⟩ := lldpEnc1_inj a.1 a.2 a'.1 a'.2 h
      obtain ⟨f1, f2⟩ := ih (fun u hu => w u (by simp [hu])) (fun u hu => w' u (by simp [hu]))
        (fun u hu => n u (by simp [hu])) (fun u hu => n' u (by simp [hu])) e2
      exact ⟨by rw [e1, f1], f2⟩

theorem lldpMeanings_nonzero {print : Bool} {ts : List Tlv} {s s1 : Msg}
    (h : ts.foldlM (lldpMeaning print) s = some s1) : ∀ t ∈ ts, t.1 ≠ 0 := by
  intro t ht
  have := ((lldpMeanings_shape ts h).1 t ht).1
  omega

theorem lldpMeanings_filter {print : Bool} (ts : List Tlv) : ∀ (s : Msg),
    (ts.filter (fun t => ¬ (1 ≤ t.1 ∧ t.1 ≤ 3))).foldlM (lldpMeaning print) s =
      ts.foldlM (lldpMeaning print) s := by
  induction ts with
  | nil => intro s; rfl
  | cons t ts ih =>
    intro s
    by_cases h : 1 ≤ t.1 ∧ t.1 ≤ 3
    · rw [List.filter_cons_of_neg (by simp; omega), ih, List.foldlM_cons]
      have : lldpMeaning print s t = some s := by
        unfold lldpMeaning
        have : t.1 = 1 ∨ t.1 = 2 ∨ t.1 = 3 := by omega
        rcases this with h | h | h <;> simp [h]
      rw [this]; rfl
    · rw [List.filter_cons_of_pos (by simp; omega), List.foldlM_cons, List.foldlM_cons]
      congr 1
      funext s2
      exact ih s2

/-- The part that holds: repetitions of the mandatory TLVs never change what is learnt.  If `f` carries a data
unit and `f'` the same one without the repetitions, one is accepted iff the other is, with the same
outcome. -/
theorem C37_duplicate_ignored_partial (print : Bool) (f f' pad : Bytes) (ch po : Bytes) (t0 t1 : UInt8)
    (ts : List Tlv) (tr tr' : Bytes) (s s' : Msg) (h1 : 18 ≤ f.length) (h2 : f.length ≤ 1518)
    (h1' : 18 ≤ f'.length) (h2' : f'.length ≤ 1518) (hp : 2 ≤ pad.length)
    (hw : LldpWf ([(1, ch), (2, po)] ++ ts)) (hz : ∀ t ∈ ts, t.1 ≠ 0)
    (hf : LldpFrame f (lldpEnc ([(1, ch), (2, po), (3, [t0, t1])] ++ ts ++ [(0, [])]) ++ tr))
    (hf' : LldpFrame f' (lldpEnc ([(1, ch), (2, po), (3, [t0, t1])] ++
      ts.filter (fun t => ¬ (1 ≤ t.1 ∧ t.1 ≤ 3)) ++ [(0, [])]) ++ tr')) :
    (∃ n, lldpDecode print (f ++ pad) f.length s = .ok (s', n)) ↔
      (∃ n, lldpDecode print (f' ++ pad) f'.length s = .ok (s', n)) := by
  have key : ∀ (g : Bytes) (us : List Tlv) (u : Bytes), 18 ≤ g.length → g.length ≤ 1518 →
      LldpWf ([(1, ch), (2, po)] ++ us) → (∀ t ∈ us, t.1 ≠ 0) →
      LldpFrame g (lldpEnc ([(1, ch), (2, po), (3, [t0, t1])] ++ us ++ [(0, [])]) ++ u) →
      ((∃ n, lldpDecode print (g ++ pad) g.length s = .ok (s', n)) ↔
        ∃ s1 s2, chassisMeaning print s ch = some s1 ∧ portMeaning print s1 po = some s2 ∧
          us.foldlM (lldpMeaning print) { s2 with ttl := t0.toNat * 256 + t1.toNat } = some s') := by
    intro g us u l1 l2 w z hg
    constructor
    · rintro ⟨n, h⟩
      obtain ⟨pdu, tr2, hg', ⟨ch', po', t0', t1', us', s1, s2, rfl, hw', m1, m2, m3⟩, _⟩ :=
        (C09_accept_iff print g pad s s' n l1 l2 hp).mp h
      obtain ⟨pre, hpre, e⟩ := hg
      obtain ⟨pre', hpre', e'⟩ := hg'
      have hz' := lldpMeanings_nonzero m3
      have heq := (lldpPrefix_unique l1 e hpre e' hpre').2
      obtain ⟨x, _⟩ := lldpEnc_end_inj _ (by
          intro t ht
          simp only [List.cons_append, List.nil_append, List.mem_cons] at ht
          rcases ht with rfl | rfl | rfl | ht
          · exact w _ (by simp)
          · exact w _ (by simp)
          · simp
          · exact w t (by simp [ht])) (by
          intro t ht
          simp only [List.cons_append, List.nil_append, List.mem_cons] at ht
          rcases ht with rfl | rfl | rfl | ht
          · exact hw' _ (by simp)
          · exact hw' _ (by simp)
          · simp
          · exact hw' t (by simp [ht])) (by
          intro t ht
          simp only [List.cons_append, List.nil_append, List.mem_cons] at ht
          rcases ht with rfl | rfl | rfl | ht
          · simp
          · simp
          · simp
          · exact z t ht) (by
          intro t ht
          simp only [List.cons_append, List.nil_append, List.mem_cons] at ht
          rcases ht with rfl | rfl | rfl | ht
          · simp
          · simp
          · simp
          · exact hz' t ht) heq
      simp only [List.cons_append, List.nil_append, List.cons.injEq, Prod.mk.injEq, true_and, and_true] at x
      obtain ⟨rfl, rfl, ⟨rfl, rfl⟩, rfl⟩ := x
      exact ⟨s1, s2, m1, m2, m3⟩
    · rintro ⟨s1, s2, m1, m2, m3⟩
      exact ⟨_, (C09_accept_iff print g pad s s' _ l1 l2 hp).mpr
        ⟨_, u, hg, ⟨ch, po, t0, t1, us, s1, s2, rfl, w, m1, m2, m3⟩, rfl⟩⟩
  rw [key f ts tr h1 h2 hw hz hf, key f' _ tr' h1' h2' (by
      intro t ht
      simp only [List.cons_append, List.nil_append, List.mem_cons] at ht
      rcases ht with rfl | rfl | ht
      · exact hw _ (by simp)
      · exact hw _ (by simp)
      · exact hw t (by simp [(List.mem_filter.mp ht).1]))
    (fun t ht => hz t (List.mem_filter.mp ht).1) hf']
  simp only [lldpMeanings_filter]

/-- With a second chassis ID and TTL, and without. -/
example :
    let p := [9, 9]
    let a := lldpHead ++ lldpEnc [(1, [7, 0x61]), (2, [5, 0x62]), (3, [0, 120]), (1, [7, 0x63]), (3, [0, 1]), (0, [])]
    let b := lldpHead ++ lldpEnc [(1, [7, 0x61]), (2, [5, 0x62]), (3, [0, 120]), (0, [])]
    lldpDecode false (a ++ p) a.length {} = .ok ({ ttl := 120, peer := { portname := some [0x62] } }, a.length) ∧
    lldpDecode false (b ++ p) b.length {} = .ok ({ ttl := 120, peer := { portname := some [0x62] } }, b.length) := by
  decide +kernel

/-! ## C36 What the CDP, FDP, EDP and NDP decoders accept and learn -/

/-- Acceptance and outcome are exactly those of the wire specification. -/
theorem C36_cdp (print : Bool) (f pad : Bytes) (s s' : Msg) (n : Nat) (h1 : 26 ≤ f.length)
    (h2 : f.length ≤ 1518) :
    cdpDecode print (f ++ pad) f.length s = .ok (s', n) ↔
      n = f.length ∧ ∃ payload, CdpFrame f payload ∧ cdpPayload print payload s s' := by
  constructor
  · intro h
    rcases cdpDecode_sound print f pad s h1 h2 with h' | h' | ⟨pl, s'', hf, hm, h'⟩
    · rw [h'.1] at h; cases h
    · rw [h'.1] at h; cases h
    · rw [h'] at h
      simp only [Res.ok.injEq, Prod.mk.injEq] at h
      obtain ⟨rfl, rfl⟩ := h
      exact ⟨rfl, pl, hf, hm⟩
  · rintro ⟨rfl, pl, hf, hm⟩
    exact cdpDecode_complete print f pad pl s s' h1 h2 hf hm

@[inherit_doc C36_cdp]
theorem C36_fdp (f pad : Bytes) (s s' : Msg) (n : Nat) (h1 : 26 ≤ f.length) (h2 : f.length ≤ 1518) :
    fdpDecode (f ++ pad) f.length s = .ok (s', n) ↔
      n = f.length ∧ ∃ payload, FdpFrame f payload ∧ fdpPayload payload s s' := by
  constructor
  · intro h
    rcases fdpDecode_sound f pad s h1 h2 with h' | h' | ⟨pl, s'', hf, hm, h'⟩
    · rw [h'.1] at h; cases h
    · rw [h'.1] at h; cases h
    · rw [h'] at h
      simp only [Res.ok.injEq, Prod.mk.injEq] at h
      obtain ⟨rfl, rfl⟩ := h
      exact ⟨rfl, pl, hf, hm⟩
  · rintro ⟨rfl, pl, hf, hm⟩
    exact fdpDecode_complete f pad pl s s' h1 h2 hf hm

@[inherit_doc C36_cdp]
theorem C36_edp (f pad : Bytes) (s s' : Msg) (n : Nat) (h1 : 26 ≤ f.length) (h2 : f.length ≤ 1518) :
    edpDecode (f ++ pad) f.length s = .ok (s', n) ↔
      n = f.length ∧ ∃ payload, EdpFrame f payload ∧ edpPayload payload s s' := by
  constructor
  · intro h
    rcases edpDecode_sound f pad s h1 h2 with h' | h' | ⟨pl, s'', hf, hm, h'⟩
    · rw [h'.1] at h; cases h
    · rw [h'.1] at h; cases h
    · rw [h'] at h
      simp only [Res.ok.injEq, Prod.mk.injEq] at h
      obtain ⟨rfl, rfl⟩ := h
      exact ⟨rfl, pl, hf, hm⟩
  · rintro ⟨rfl, pl, hf, hm⟩
    exact edpDecode_complete f pad pl s s' h1 h2 hf hm

/-- NDP: any payload of at least eleven bytes; only a fixed lifetime is learnt. -/
theorem C36_ndp (f pad : Bytes) (s s' : Msg) (n : Nat) (h1 : 26 ≤ f.length) (h2 : f.length ≤ 1518) :
    ndpDecode (f ++ pad) f.length s = .ok (s', n) ↔
      s' = { s with ttl := 180 } ∧
        ∃ hdr rest, hdr.length = 11 ∧ NdpFrame f (hdr ++ rest) ∧ n = f.length - rest.length := by
  constructor
  · intro h
    rcases ndpDecode_spec f pad s h1 h2 with h' | ⟨pl, _, _, h'⟩ | ⟨pl, hf, hl, h'⟩
    · rw [h'.1] at h; cases h
    · rw [h'] at h; cases h
    · rw [h'] at h
      simp only [Res.ok.injEq, Prod.mk.injEq] at h
      obtain ⟨rfl, rfl⟩ := h
      refine ⟨rfl, pl.take 11, pl.drop 11, by simp; omega, by rw [List.take_append_drop]; exact hf, by simp⟩
  · rintro ⟨rfl, hdr, rest, hh, hf, rfl⟩
    rcases ndpDecode_spec f pad s h1 h2 with h' | ⟨pl, hf', hl, h'⟩ | ⟨pl, hf', hl, h'⟩
    · exact absurd ⟨_, hf⟩ h'.2
    · obtain ⟨pre, hpre, e⟩ := hf
      obtain ⟨pre', hpre', e'⟩ := hf'
      have hpid : be16 NDP_PID = [0x01, 0xa2] := by decide
      rw [← hpid] at hpre hpre'
      have := (llcPrefix_unique rfl rfl h1 e hpre e' hpre').2
      rw [← this] at hl
      simp at hl; omega
    · obtain ⟨pre, hpre, e⟩ := hf
      obtain ⟨pre', hpre', e'⟩ := hf'
      have hpid : be16 NDP_PID = [0x01, 0xa2] := by decide
      rw [← hpid] at hpre hpre'
      have := (llcPrefix_unique rfl rfl h1 e hpre e' hpre').2
      rw [h', ← this]
      simp [hh]

example : cdpDecode false (cdpHead ++ [1, 20, 0, 0] ++ cdpEnc [(1, lit "sw"), (3, lit "Gi0/1"), (4, [0, 0, 0, 0x29]),
      (2, [0, 0, 0, 1, 1, 1, 0xcc, 0, 4, 10, 0, 0, 1]), (1, lit "other"), (0x99, [1, 2])]) 81 {} =
    .ok (⟨5, 20, { hostname := some (lit "sw"), portname := some (lit "Gi0/1"), cap := some (lit "RS"), inet4 := some [10, 0, 0, 1] }, []⟩, 81) := by
  decide +kernel
example : fdpDecode ([0x01, 0xe0, 0x52, 0xcc, 0xcc, 0xcc, 2, 0, 0, 0, 0, 1, 0, 60, 0xaa, 0xaa, 3, 0, 0xe0, 0x52,
      0x20, 0] ++ [1, 20, 0, 0] ++ cdpEnc [(1, lit "sw"), (4, lit "Router")]) 42 {} =
    .ok ({ ttl := 20, peer := { hostname := some (lit "sw"), cap := some (lit "R") } }, 42) := by decide +kernel
example : edpDecode ([0x00, 0xe0, 0x2b, 0x00, 0x00, 0x00, 2, 0, 0, 0, 0, 1, 0, 60, 0xaa, 0xaa, 3, 0, 0xe0, 0x2b,
      0x00, 0xbb] ++ [1] ++ List.replicate 15 0 ++ edpEnc [(0x99, 1, lit "sw*" ++ [0]), (0x99, 0, [])]) 50 {} =
    .ok ({ ttl := 180, peer := { hostname := some (lit "sw\\052") } }, 50) := by decide +kernel
example : ndpDecode ([0x01, 0x00, 0x81, 0x00, 0x01, 0x00, 2, 0, 0, 0, 0, 1, 0, 60, 0xaa, 0xaa, 3, 0, 0, 0x81,
      0x01, 0xa2] ++ List.replicate 42 0) 64 {} = .ok ({ ttl := 180 }, 33) := by decide +kernel

end Ladvd.Props
