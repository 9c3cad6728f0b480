import Verif.Spec.Views
import Verif.Lemmas.Report
/-!
# Lemmas for C86
-/

namespace Ladvd

open Spec

theorem Spec.Whole.append {a b : Bytes} (ha : Whole a) (hb : Whole b) : Whole (a ++ b) := by
  rcases hb with rfl | hb
  · rw [List.append_nil]; exact ha
  · right; rw [List.getLast?_append, hb]; rfl

theorem whole_nil : Whole [] := Or.inl rfl

theorem whole_labelled (l v : Bytes) : Whole (labelled l v) := by
  right; unfold labelled; exact List.getLast?_concat

theorem whole_flat {ls : List Bytes} (h : ∀ l ∈ ls, Whole l) : Whole ls.flatten := by
  induction ls with
  | nil => exact whole_nil
  | cons l ls ih => rw [List.flatten_cons]; exact (h l (by simp)).append (ih (fun x hx => h x (by simp [hx])))

theorem whole_paragraph (l v : Bytes) : Whole (paragraph l v) := by
  unfold paragraph
  split
  · refine Whole.append (Or.inr (by simp)) ?_
    rw [List.flatMap_def]
    refine whole_flat fun x hx => ?_
    obtain ⟨y, -, rfl⟩ := List.mem_map.mp hx
    exact Or.inr List.getLast?_concat
  · exact whole_labelled _ _

theorem Spec.HasLine.more {t l : Bytes} (h : HasLine t l) (x : Bytes) : HasLine (t ++ x) l := by
  obtain ⟨a, b, rfl, ha⟩ := h
  exact ⟨a, b ++ x, by simp only [List.append_assoc], ha⟩

theorem hasLine_last {t : Bytes} (h : Whole t) (x : Bytes) : HasLine (t ++ x) x := ⟨t, [], by simp, h⟩

theorem hasLine_mid {t : Bytes} (h : Whole t) (x y : Bytes) : HasLine (t ++ (x ++ y)) x := ⟨t, y, by simp, h⟩

theorem Spec.HasLine.before {t l x : Bytes} (hx : Whole x) (h : HasLine t l) : HasLine (x ++ t) l := by
  obtain ⟨a, b, rfl, ha⟩ := h
  exact ⟨x ++ a, b, by simp only [List.append_assoc], hx.append ha⟩

/-- A field that keeps the first value is still covered. -/
theorem first_shown {o : Option Bytes} {v : Bytes} {P : Bytes → Prop} (h : ∀ t ∈ o, P t) (hv : P v) : ∀ t ∈ first o v, P t := by
  intro t ht
  cases o with
  | none => cases ht; exact hv
  | some w =>
    have : some w = some t := ht
    exact h t this

theorem Spec.LldpShows.more {n6 : Bytes → Bytes} {t : Bytes} {p : Peer} (h : LldpShows n6 t p) (x : Bytes) : LldpShows n6 (t ++ x) p :=
  ⟨fun a b => (h.hostname a b).more x, fun a b => (h.portname a b).more x, fun a b => (h.portdescr a b).more x, fun a b => (h.cap a b).more x,
    fun a b => (h.inet4 a b).more x, fun a b => (h.inet6 a b).more x, fun a b => (h.mac a b).more x, fun a b => (h.vlan a b).more x⟩

theorem Spec.CdpShows.more {nm : Bytes} {n6 : Bytes → Bytes} {t : Bytes} {p : Peer} (h : CdpShows nm n6 t p) (x : Bytes) : CdpShows nm n6 (t ++ x) p :=
  ⟨fun a b => (h.hostname a b).imp (·.more x) (·.more x), fun a b => (h.portname a b).more x, h.portdescr, fun a b => (h.cap a b).more x,
    fun a b => (h.inet4 a b).more x, fun a b => (h.inet6 a b).more x, h.mac, fun a b => (h.vlan a b).more x⟩

/-- The state and the text go together. -/
structure LCov (env : PrintEnv) (acc : Bytes) (s : Msg) : Prop where
  whole : Whole acc
  shows : LldpShows env.ntop6 acc s.peer

theorem lldp_mgmt {env : PrintEnv} {s : Msg} {v x acc : Bytes} (h : mgmtLine env v = some x) (hc : LCov env acc s) :
    ∃ s', mgmtMeaning false s v = some s' ∧ LCov env (acc ++ x) s' ∧ s'.ttl = s.ttl ∧ s'.proto = s.proto ∧ s'.peer.hostname = s.peer.hostname := by
  have hm := hc.shows.more x
  unfold mgmtLine at h
  unfold mgmtMeaning
  match v with
  | [] => cases h
  | [_] => cases h
  | alen :: fam :: r =>
    dsimp only at h ⊢
    split at h
    · cases h
    next hr =>
    by_cases f1 : fam = 1
    · subst f1
      split at h
      · next hn =>
        cases h
        rw [if_neg (by decide), if_neg hr, if_pos rfl]
        split
        · exact ⟨_, rfl, ⟨hc.whole.append (whole_labelled _ _), hm⟩, rfl, rfl, rfl⟩
        · rw [if_pos hn.2]
          exact ⟨_, rfl, ⟨hc.whole.append (whole_labelled _ _), { hm with inet4 := first_shown hm.inet4 (hasLine_last hc.whole _) }⟩, rfl, rfl, rfl⟩
      · rw [if_neg (fun h => absurd h.1 (by decide)), if_neg (fun h => absurd h.1 (by decide))] at h
        cases h
    · rw [if_neg (fun h => f1 h.1)] at h
      by_cases f2 : fam = 2
      · subst f2
        split at h
        · next hn =>
          cases h
          rw [if_neg (by decide), if_neg hr, if_neg f1, if_pos rfl]
          split
          · exact ⟨_, rfl, ⟨hc.whole.append (whole_labelled _ _), hm⟩, rfl, rfl, rfl⟩
          · rw [if_pos hn.2]
            exact ⟨_, rfl, ⟨hc.whole.append (whole_labelled _ _), { hm with inet6 := first_shown hm.inet6 (hasLine_last hc.whole _) }⟩, rfl, rfl, rfl⟩
        · rw [if_neg (fun h => absurd h.1 (by decide))] at h
          cases h
      · rw [if_neg (fun h => f2 h.1)] at h
        split at h
        · next hn =>
          cases h
          obtain ⟨rfl, hn⟩ := hn
          rw [if_neg (by decide), if_neg hr, if_neg f1, if_neg f2]
          split
          · exact ⟨_, rfl, ⟨hc.whole.append (whole_labelled _ _), hm⟩, rfl, rfl, rfl⟩
          · exact ⟨_, rfl, ⟨hc.whole.append (whole_labelled _ _), { hm with mac := first_shown hm.mac (hasLine_last hc.whole _) }⟩, rfl, rfl, rfl⟩
        · cases h

theorem lldp_org {env : PrintEnv} {s : Msg} {v x acc : Bytes} (h : orgLine v = some x) (hc : LCov env acc s) :
    ∃ s', orgMeaning false s v = some s' ∧ LCov env (acc ++ x) s' ∧ s'.ttl = s.ttl ∧ s'.proto = s.proto ∧ s'.peer.hostname = s.peer.hostname := by
  have hm := hc.shows.more x
  unfold orgLine at h
  unfold orgMeaning
  match v with
  | [] | [_] | [_, _] => cases h
  | o0 :: o1 :: o2 :: r =>
    dsimp only at h
    rw [if_neg (by simp only [List.length_cons]; omega)]
    simp only [List.take_succ_cons, List.take_zero, List.drop_succ_cons, List.drop_zero]
    split at h
    · next ho =>
      cases h
      rw [if_pos ho]
      exact ⟨s, rfl, ⟨by rw [List.append_nil]; exact hc.whole, hm⟩, rfl, rfl, rfl⟩
    · next ho =>
      rw [if_neg ho]
      cases r with
      | nil => cases h
      | cons sub id =>
        dsimp only at h ⊢
        split at h
        · next hs =>
          cases h
          rw [if_pos hs]
          exact ⟨s, rfl, ⟨by rw [List.append_nil]; exact hc.whole, hm⟩, rfl, rfl, rfl⟩
        · next hs =>
          split at h
          · next hl =>
            cases h
            rw [if_neg hs, if_pos hl]
            exact ⟨_, rfl, ⟨hc.whole.append (whole_labelled _ _), { hm with vlan := first_shown hm.vlan (hasLine_last hc.whole _) }⟩, rfl, rfl, rfl⟩
          · cases h

/-- One TLV. -/
theorem lldp_line {env : PrintEnv} {s : Msg} {t : Tlv} {x acc : Bytes} (h0 : t.1 ≠ 0) (h : lldpLine env s.peer.hostname.isSome t = some x) (hc : LCov env acc s) :
    ∃ s', lldpMeaning false s t = some s' ∧ LCov env (acc ++ x) s' ∧ s'.ttl = s.ttl ∧ s'.proto = s.proto ∧
      s'.peer.hostname.isSome = (s.peer.hostname.isSome || t.1 == 5) := by
  have hm := hc.shows.more x
  obtain ⟨ty, v⟩ := t
  unfold lldpLine at h
  unfold lldpMeaning
  dsimp only at h h0 ⊢
  rw [if_neg h0]
  by_cases t5 : ty = 5
  · subst t5
    rw [if_pos rfl] at h ⊢
    split at h
    · cases h
    · next hn =>
      rw [not_or] at hn
      cases h
      rw [if_neg hn.1, if_neg hn.2]
      exact ⟨_, rfl, ⟨hc.whole.append (whole_labelled _ _), { hm with hostname := fun t ht => by cases ht; exact hasLine_last hc.whole _ }⟩, rfl, rfl, by simp⟩
  rw [if_neg t5] at h ⊢
  have hb : (ty == 5) = false := by simpa using t5
  rw [hb, Bool.or_false]
  by_cases t4 : ty = 4
  · subst t4
    rw [if_pos rfl] at h ⊢
    cases h
    exact ⟨_, rfl, ⟨hc.whole.append (whole_paragraph _ _), { hm with portdescr := first_shown hm.portdescr (hasLine_last hc.whole _) }⟩, rfl, rfl, rfl⟩
  rw [if_neg t4] at h ⊢
  by_cases t6 : ty = 6
  · subst t6
    rw [if_pos rfl] at h ⊢
    cases h
    exact ⟨_, rfl, ⟨hc.whole.append (whole_paragraph _ _), hm⟩, rfl, rfl, rfl⟩
  rw [if_neg t6] at h ⊢
  by_cases t7 : ty = 7
  · subst t7
    rw [if_pos rfl] at h ⊢
    unfold capsLine at h
    split at h
    · cases h
    next hl =>
    dsimp only at h
    split at h
    · cases h
    next h1 =>
    split at h
    · cases h
    next h2 =>
    cases h
    rw [if_neg hl]
    rw [if_neg h1, if_neg h2]
    refine ⟨_, rfl, ⟨hc.whole.append ((whole_labelled _ _).append (whole_labelled _ _)), { hm with cap := first_shown hm.cap ?_ }⟩, rfl, rfl, rfl⟩
    rw [← List.append_assoc]
    exact hasLine_last (hc.whole.append (whole_labelled _ _)) _
  rw [if_neg t7] at h ⊢
  by_cases t8 : ty = 8
  · subst t8
    rw [if_pos rfl] at h ⊢
    obtain ⟨s', a, b, c, d, e⟩ := lldp_mgmt h hc
    exact ⟨s', a, b, c, d, by rw [e]⟩
  rw [if_neg t8] at h ⊢
  by_cases t127 : ty = 127
  · subst t127
    rw [if_pos rfl] at h ⊢
    obtain ⟨s', a, b, c, d, e⟩ := lldp_org h hc
    exact ⟨s', a, b, c, d, by rw [e]⟩
  rw [if_neg t127] at h ⊢
  split at h
  · cases h
  · next hr =>
    cases h
    rw [if_neg hr]
    exact ⟨s, rfl, ⟨by rw [List.append_nil]; exact hc.whole, hm⟩, rfl, rfl, rfl⟩

/-- All TLVs behind the mandatory ones. -/
theorem lldp_lines {env : PrintEnv} : ∀ (ts : List Tlv) {s : Msg} {acc : Bytes}, (∀ t ∈ ts, t.1 ≠ 0) → (lldpLines env s.peer.hostname.isSome ts).2 = true → LCov env acc s →
    ∃ s', ts.foldlM (lldpMeaning false) s = some s' ∧ LCov env (acc ++ (lldpLines env s.peer.hostname.isSome ts).1) s' ∧ s'.ttl = s.ttl ∧ s'.proto = s.proto
  | [], s, acc, _, _, hc => ⟨s, rfl, by rw [lldpLines, List.append_nil]; exact hc, rfl, rfl⟩
  | t :: ts, s, acc, hz, h, hc => by
    rw [lldpLines] at h ⊢
    cases hl : lldpLine env s.peer.hostname.isSome t with
    | none => rw [hl] at h; cases h
    | some x =>
      rw [hl] at h
      dsimp only at h ⊢
      obtain ⟨s1, a, b, c, d, e⟩ := lldp_line (hz t (by simp)) hl hc
      rw [← e] at h ⊢
      obtain ⟨s2, a', b', c', d'⟩ := lldp_lines ts (fun t ht => hz t (by simp [ht])) h b
      refine ⟨s2, ?_, ?_, c'.trans c, d'.trans d⟩
      · rw [List.foldlM_cons, a]
        exact a'
      · rw [← List.append_assoc]; exact b'

/-! ## CDP -/

/-- The state and the text go together. -/
structure CCov (env : PrintEnv) (acc : Bytes) (s : Msg) : Prop where
  whole : Whole acc
  shows : CdpShows env.name env.ntop6 acc s.peer

theorem cdp_addr {env : PrintEnv} {s : Msg} {e : AddrEntry} {x acc : Bytes} (h : addrLine env e = some x) (hc : CCov env acc s) :
    ∃ s', addrMeaning false s e = some s' ∧ CCov env (acc ++ x) s' ∧ s'.ttl = s.ttl ∧ s'.proto = s.proto := by
  have hm := hc.shows.more x
  unfold addrLine at h
  unfold addrMeaning
  by_cases h1 : e.pt = 1 ∧ e.protocol = [0xcc]
  · rw [if_pos h1] at h ⊢
    split at h
    · next hl =>
      cases h
      rw [if_pos hl]
      exact ⟨_, rfl, ⟨hc.whole.append (whole_labelled _ _), { hm with inet4 := first_shown hm.inet4 (hasLine_last hc.whole _) }⟩, rfl, rfl⟩
    · cases h
  rw [if_neg h1] at h ⊢
  by_cases h2 : e.pt = 2 ∧ e.protocol = [0xaa, 0xaa, 0x03, 0x00, 0x00, 0x00, 0x86, 0xdd]
  · rw [if_pos h2] at h ⊢
    split at h
    · next hl =>
      cases h
      rw [if_pos hl]
      exact ⟨_, rfl, ⟨hc.whole.append (whole_labelled _ _), { hm with inet6 := first_shown hm.inet6 (hasLine_last hc.whole _) }⟩, rfl, rfl⟩
    · cases h
  rw [if_neg h2] at h ⊢
  cases h
  exact ⟨s, rfl, ⟨by rw [List.append_nil]; exact hc.whole, hm⟩, rfl, rfl⟩

theorem cdp_addrs {env : PrintEnv} : ∀ (n : Nat) {v : Bytes} {s : Msg} {acc : Bytes}, (addrLines env n v).2 = true → CCov env acc s →
    ∃ es s', addrEntries n v = some es ∧ es.foldlM (addrMeaning false) s = some s' ∧ CCov env (acc ++ (addrLines env n v).1) s' ∧ s'.ttl = s.ttl ∧ s'.proto = s.proto
  | 0, v, s, acc, _, hc => ⟨[], s, rfl, rfl, by rw [addrLines, List.append_nil]; exact hc, rfl, rfl⟩
  | n + 1, v, s, acc, h, hc => by
    rw [addrLines] at h ⊢
    rw [addrEntries]
    cases he : addrEntry v with
    | none => rw [he] at h; cases h
    | some y =>
      obtain ⟨e, r⟩ := y
      rw [he] at h
      dsimp only at h ⊢
      cases hl : addrLine env e with
      | none => rw [hl] at h; cases h
      | some x =>
        rw [hl] at h
        dsimp only at h ⊢
        obtain ⟨s1, a, b, c, d⟩ := cdp_addr hl hc
        by_cases hr : r = []
        · rw [if_pos hr] at h ⊢
          refine ⟨[e], s1, by rw [Option.bind_eq_bind, Option.bind_some]; dsimp only; rw [if_pos (Or.inl hr)], ?_, b, c, d⟩
          rw [List.foldlM_cons, a]; rfl
        · rw [if_neg hr] at h ⊢
          dsimp only at h ⊢
          obtain ⟨es, s2, e1, e2, e3, e4, e5⟩ := cdp_addrs n h b
          by_cases hn : n = 0
          · subst hn
            refine ⟨[e], s1, by rw [Option.bind_eq_bind, Option.bind_some]; dsimp only; rw [if_pos (Or.inr rfl)], ?_, ?_, c, d⟩
            · rw [List.foldlM_cons, a]; rfl
            · rw [addrLines, List.append_nil]; exact b
          · refine ⟨e :: es, s2, ?_, ?_, by rw [← List.append_assoc]; exact e3, e4.trans c, e5.trans d⟩
            · rw [Option.bind_eq_bind, Option.bind_some]
              dsimp only
              rw [if_neg (by rw [not_or]; exact ⟨hr, hn⟩), e1]
              rfl
            · rw [List.foldlM_cons, a]; exact e2

theorem cdp_addrTlv {env : PrintEnv} {label v : Bytes} {s : Msg} {acc : Bytes} (h : (addrsLine env label v).2 = true) (hc : CCov env acc s) :
    ∃ s', (if v.length < 4 then none else do
        let es ← addrEntries (addrLimit (beNat (v.take 4))) (v.drop 4)
        es.foldlM (addrMeaning false) s) = some s' ∧ CCov env (acc ++ (addrsLine env label v).1) s' ∧ s'.ttl = s.ttl ∧ s'.proto = s.proto := by
  unfold addrsLine at h ⊢
  split at h
  · cases h
  · next hl =>
    rw [if_neg hl, if_neg hl]
    dsimp only at h ⊢
    generalize addrLimit (beNat (v.take 4)) = n at h ⊢
    have hw : Whole (label ++ lit " address(es):\n") := by
      right
      rw [show lit " address(es):\n" = lit " address(es):" ++ [0x0a] by decide, ← List.append_assoc]
      exact List.getLast?_concat
    obtain ⟨es, s', a, b, c, d, e⟩ := cdp_addrs n (s := s) (acc := acc ++ (label ++ lit " address(es):\n")) h ⟨hc.whole.append hw, hc.shows.more _⟩
    refine ⟨s', ?_, ?_, d, e⟩
    · rw [a]; exact b
    · rw [← List.append_assoc]; exact c

/-- One TLV. -/
theorem cdp_line {env : PrintEnv} {s : Msg} {t : Tlv} {acc : Bytes} (h : (cdpLine env t).2 = true) (hc : CCov env acc s) :
    ∃ s', cdpMeaning false s t = some s' ∧ CCov env (acc ++ (cdpLine env t).1) s' ∧ s'.ttl = s.ttl ∧ s'.proto = s.proto := by
  have hm := hc.shows.more (cdpLine env t).1
  have nl : ∀ a : Bytes, Whole (a ++ lit "\n") := fun a => Or.inr List.getLast?_concat
  have nl' : ∀ a : Bytes, Whole (a ++ lit "'\n") := fun a => Or.inr (by
    rw [show lit "'\n" = lit "'" ++ [0x0a] by decide, ← List.append_assoc]; exact List.getLast?_concat)
  obtain ⟨ty, v⟩ := t
  unfold cdpLine at h hm ⊢
  unfold cdpMeaning
  dsimp only at h hm ⊢
  split at h
  · exact ⟨_, rfl, ⟨hc.whole.append (whole_labelled _ _), { hm with hostname := first_shown hm.hostname (Or.inl (hasLine_last hc.whole _)) }⟩, rfl, rfl⟩
  · exact ⟨_, rfl, ⟨hc.whole.append (whole_labelled _ _), { hm with hostname := first_shown hm.hostname (Or.inr (hasLine_last hc.whole _)) }⟩, rfl, rfl⟩
  · exact ⟨_, rfl, ⟨hc.whole.append (nl _), { hm with portname := first_shown hm.portname (hasLine_last hc.whole _) }⟩, rfl, rfl⟩
  · split at h
    · next hl =>
      simp only [if_pos hl] at hm ⊢
      exact ⟨_, rfl, ⟨hc.whole.append (whole_labelled _ _), { hm with cap := first_shown hm.cap (hasLine_last hc.whole _) }⟩, rfl, rfl⟩
    · cases h
  · exact cdp_addrTlv h hc
  · exact cdp_addrTlv h hc
  · exact ⟨_, rfl, ⟨hc.whole.append (whole_paragraph _ _), hm⟩, rfl, rfl⟩
  · exact ⟨_, rfl, ⟨hc.whole.append (whole_paragraph _ _), hm⟩, rfl, rfl⟩
  · exact ⟨_, rfl, ⟨hc.whole.append (nl' _), hm⟩, rfl, rfl⟩
  · split at h
    · next hl =>
      simp only [if_pos hl] at hm ⊢
      exact ⟨_, rfl, ⟨hc.whole.append (whole_labelled _ _), { hm with vlan := first_shown hm.vlan (hasLine_last hc.whole _) }⟩, rfl, rfl⟩
    · cases h
  · match v, h with
    | [d], _ =>
      refine ⟨s, ?_, ⟨hc.whole.append (whole_labelled _ _), hm⟩, rfl, rfl⟩
      show (if false = true ∧ [d].length ≠ 1 then none else some s) = some s
      rw [if_neg (fun h => absurd h.1 (by decide))]
  · refine ⟨s, ?_, ⟨by rw [List.append_nil]; exact hc.whole, hc.shows.more _⟩, rfl, rfl⟩
    split <;> first | rfl | contradiction

/-- All TLVs. -/
theorem cdp_lines {env : PrintEnv} : ∀ (ts : List Tlv) {s : Msg} {acc : Bytes}, (cdpLines env ts).2 = true → CCov env acc s →
    ∃ s', ts.foldlM (cdpMeaning false) s = some s' ∧ CCov env (acc ++ (cdpLines env ts).1) s' ∧ s'.ttl = s.ttl ∧ s'.proto = s.proto
  | [], s, acc, _, hc => ⟨s, rfl, by rw [cdpLines, List.append_nil]; exact hc, rfl, rfl⟩
  | t :: ts, s, acc, h, hc => by
    rw [cdpLines] at h ⊢
    split at h
    · next h1 =>
      rw [if_pos h1]
      dsimp only at h ⊢
      obtain ⟨s1, a, b, c, d⟩ := cdp_line h1 hc
      obtain ⟨s2, a', b', c', d'⟩ := cdp_lines ts h b
      refine ⟨s2, ?_, by rw [← List.append_assoc]; exact b', c'.trans c, d'.trans d⟩
      rw [List.foldlM_cons, a]
      exact a'
    · cases h

end Ladvd
