import Verif.Spec.Capture
import Verif.Lemmas.Rawfd
/-!
# Lemmas about dumps
-/

namespace Ladvd.Spec
open Ladvd

theorem field_le (b : Bytes) : field false b = leNat b := by
  unfold field
  rw [if_neg (by decide), List.foldl_reverse]
  induction b with
  | nil => rfl
  | cons x b ih =>
    rw [List.foldr_cons, ih, leNat]
    omega

theorem field_leBytes {k n : Nat} (h : n < 256 ^ k) : field false (leBytes k n) = n := by
  rw [field_le, leNat_leBytes k n h]

/-- One record, as written. -/
def recordBytes (ts : Nat × Nat) (f : Bytes) : Bytes :=
  leBytes 4 ts.1 ++ leBytes 4 ts.2 ++ leBytes 4 f.length ++ leBytes 4 f.length ++ f

theorem records_cons {snap : Nat} {ts : Nat × Nat} {f : Bytes} (hs : snap < 2 ^ 32) (hf : f.length ≤ snap) (h1 : ts.1 < 2 ^ 32) (h2 : ts.2 < 2 ^ 32)
    (rest : Bytes) :
    records false snap (recordBytes ts f ++ rest) = (records false snap rest).map (⟨ts.1, ts.2, f.length, f⟩ :: ·) := by
  have l := leBytes_length
  have e : recordBytes ts f ++ rest = leBytes 4 ts.1 ++ (leBytes 4 ts.2 ++ (leBytes 4 f.length ++ (leBytes 4 f.length ++ (f ++ rest)))) := by
    unfold recordBytes; simp only [List.append_assoc]
  rw [e, records]
  generalize ha : leBytes 4 ts.1 = a
  generalize hb : leBytes 4 ts.2 = b
  generalize hc : leBytes 4 f.length = c
  have la : a.length = 4 := by rw [← ha]; exact l 4 _
  have lb : b.length = 4 := by rw [← hb]; exact l 4 _
  have lc : c.length = 4 := by rw [← hc]; exact l 4 _
  have ea : field false a = ts.1 := by rw [← ha]; exact field_leBytes (by omega)
  have eb : field false b = ts.2 := by rw [← hb]; exact field_leBytes (by omega)
  have ec : field false c = f.length := by rw [← hc]; exact field_leBytes (by omega)
  have d4 : (a ++ (b ++ (c ++ (c ++ (f ++ rest))))).drop 4 = b ++ (c ++ (c ++ (f ++ rest))) := List.drop_left' la
  have d8 : (a ++ (b ++ (c ++ (c ++ (f ++ rest))))).drop 8 = c ++ (c ++ (f ++ rest)) := by
    rw [show 8 = 4 + 4 from rfl, ← List.drop_drop, d4]; exact List.drop_left' lb
  have d12 : (a ++ (b ++ (c ++ (c ++ (f ++ rest))))).drop 12 = c ++ (f ++ rest) := by
    rw [show 12 = 8 + 4 from rfl, ← List.drop_drop, d8]; exact List.drop_left' lc
  have d16 : (a ++ (b ++ (c ++ (c ++ (f ++ rest))))).drop 16 = f ++ rest := by
    rw [show 16 = 12 + 4 from rfl, ← List.drop_drop, d12]; exact List.drop_left' lc
  have dn : (a ++ (b ++ (c ++ (c ++ (f ++ rest))))).drop (16 + f.length) = rest := by
    rw [← List.drop_drop, d16]; exact List.drop_left' rfl
  have hl : (a ++ (b ++ (c ++ (c ++ (f ++ rest))))).length = 16 + (f.length + rest.length) := by
    simp only [List.length_append, la, lb, lc]; omega
  rw [if_neg (by intro h; rw [h] at hl; simp only [List.length_nil] at hl; omega), if_neg (by omega)]
  simp only [d8, List.take_left' lc, ec]
  rw [if_neg (by omega), dn, d4, d12, d16, List.take_left' la, List.take_left' lb, List.take_left' lc, List.take_left' rfl, ea, eb, ec]

/-- What a list of records looks like in the file. -/
def bodyOf (l : List (Option (Nat × Nat) × Bytes)) : Bytes := l.flatMap (fun x => recordBytes (x.1.getD (0, 0)) x.2)

theorem records_body {snap : Nat} (hs : snap < 2 ^ 32) : ∀ {l : List (Option (Nat × Nat) × Bytes)},
    (∀ x ∈ l, x.2.length ≤ snap ∧ (x.1.getD (0, 0)).1 < 2 ^ 32 ∧ (x.1.getD (0, 0)).2 < 2 ^ 32) →
    records false snap (bodyOf l) = some (l.map (fun x => ⟨(x.1.getD (0, 0)).1, (x.1.getD (0, 0)).2, x.2.length, x.2⟩))
  | [], _ => by
    unfold bodyOf
    rw [List.flatMap_nil, records, if_pos rfl]
    rfl
  | x :: l, h => by
    obtain ⟨h1, h2, h3⟩ := h x List.mem_cons_self
    have := records_body hs (fun y hy => h y (List.mem_cons_of_mem _ hy))
    unfold bodyOf at this ⊢
    rw [List.flatMap_cons, records_cons hs h1 h2 h3, this]
    rfl

theorem pcapWrites_eq : ∀ {l : List (Option (Nat × Nat) × Bytes)} {p : Pcap}, p.dumping = true → (∀ x ∈ l, x.2.length < 2 ^ 32) →
    pcapWrites l p = .ok { p with file := p.file ++ bodyOf l }
  | [], p, _, _ => by
    unfold bodyOf
    rw [List.flatMap_nil, List.append_nil]
    rfl
  | (now, f) :: r, p, hp, h => by
    have hf : f.length < 2 ^ 32 := h (now, f) List.mem_cons_self
    have hw : pcapWrite now f.length f p = .ok { p with file := p.file ++ recordBytes (now.getD (0, 0)) f } := by
      unfold pcapWrite recordBytes
      rw [hp, if_neg (by decide), Nat.mod_eq_of_lt hf]
      unfold rd
      dsimp only
      rw [if_pos (by omega), List.drop_zero, List.take_length]
      rfl
    rw [pcapWrites, hw]
    have hp' : ({ p with file := p.file ++ recordBytes (now.getD (0, 0)) f } : Pcap).dumping = true := hp
    have := pcapWrites_eq (l := r) hp' (fun x hx => h x (List.mem_cons_of_mem _ hx))
    show pcapWrites r _ = _
    rw [this]
    unfold bodyOf
    rw [List.flatMap_cons, List.append_assoc]

theorem capture_header (b : Bytes) : capture (pcapHeader ++ b) = (records false 1518 b).map (fun r => (1, r)) := by
  have hl : pcapHeader.length = 24 := by decide
  have ht : ∀ n, n ≤ 24 → (pcapHeader ++ b).take n = pcapHeader.take n := fun n hn => List.take_append_of_le_length (by omega)
  have hd : ∀ n k, n + k ≤ 24 → ((pcapHeader ++ b).drop n).take k = (pcapHeader.drop n).take k := by
    intro n k hn
    rw [List.drop_append_of_le_length (by omega), List.take_append_of_le_length (by rw [List.length_drop]; omega)]
  unfold capture
  rw [if_neg (by rw [List.length_append]; omega)]
  simp only [ht 4 (by omega), hd 4 2 (by omega), hd 6 2 (by omega), hd 16 4 (by omega), hd 20 4 (by omega), List.drop_left' hl]
  rw [if_pos (by decide), if_pos (by decide)]
  rw [show field false ((pcapHeader.drop 16).take 4) = 1518 by decide, show field false ((pcapHeader.drop 20).take 4) = 1 by decide]

/-- Writing complete frames and reading them again. -/
theorem dump_read {clock : Nat → Option (Nat × Nat)} (hc : ClockOk clock) {fs : List Bytes} (hf : ∀ f ∈ fs, f.length ≤ 1518) {p : Pcap}
    (hp : pcapInit .file {} = .ok p) :
    ∃ q, pcapWrites (fs.mapIdx (fun i f => (clock i, f))) p = .ok q ∧ capture q.file = some (1, complete clock fs) := by
  have e : p = { dumping := true, file := pcapHeader } := by
    unfold pcapInit at hp
    injection hp with hp
    rw [← hp]; rfl
  subst e
  have hm : ∀ x ∈ fs.mapIdx (fun i f => (clock i, f)), x.2.length ≤ 1518 ∧ (x.1.getD (0, 0)).1 < 2 ^ 32 ∧ (x.1.getD (0, 0)).2 < 2 ^ 32 := by
    intro x hx
    obtain ⟨i, hi, rfl⟩ := List.mem_mapIdx.mp hx
    refine ⟨hf _ (List.getElem_mem hi), ?_⟩
    dsimp only
    cases hci : clock i with
    | none => exact ⟨by decide, by decide⟩
    | some t =>
      have := hc i t hci
      exact ⟨this.1, Nat.lt_trans this.2 (by decide)⟩
  refine ⟨_, pcapWrites_eq rfl (fun x hx => Nat.lt_of_le_of_lt (hm x hx).1 (by decide)), ?_⟩
  dsimp only
  rw [capture_header, records_body (by decide) hm]
  unfold complete
  have hm2 : ∀ (g : Option (Nat × Nat) × Bytes → Packet), (fs.mapIdx (fun i f => (clock i, f))).map g = fs.mapIdx (fun i f => g (clock i, f)) := by
    intro g
    apply List.ext_getElem
    · simp
    · intro i h1 h2; simp
  rw [hm2]
  rfl

/-! ## The privileged process -/

theorem dumps_append (a b : List Act) : dumps (a ++ b) = dumps a ++ dumps b := by unfold dumps; exact List.filterMap_append ..

theorem parentRun_dumps {c : Conf} (hd : c.opts.has OPT_DEBUG = true) : ∀ {es : List PEvent} {s s' : Parent}, (∀ e ∈ es, PEventOk e) →
    parentRun c es s = .ok s' → ∃ fs, HandedOver es fs ∧ dumps s'.acts = dumps s.acts ++ fs ∧ ∀ f ∈ fs, 60 ≤ f.length ∧ f.length ≤ 1518 ∧ ∃ p, Advert p f
  | [], s, s', _, hs => by
    rw [parentRun] at hs
    cases hs
    exact ⟨[], .nil, (List.append_nil _).symm, fun _ h => nomatch h⟩
  | e :: es, s, s', he, hs => by
    rw [parentRun] at hs
    match hr : parentStep c s e with
    | .ok (s1, x) =>
      rw [hr] at hs
      replace hs : parentRun c es s1 = .ok s' := hs
      obtain ⟨fs, h1, h2, h3⟩ := parentRun_dumps hd (fun e' h' => he e' (List.mem_cons_of_mem _ h')) hs
      have heok := he e List.mem_cons_self
      cases e with
      | req env dg =>
        obtain ⟨new, a1, b1, -⟩ := parentStep_acts heok hr
        have hn : dumps new = [] := by
          unfold dumps
          rw [List.filterMap_eq_nil_iff]
          intro a ha
          obtain ⟨⟨op, i, payload, name, -, -, -, hent⟩, -⟩ := b1 a ha
          cases a with
          | dump f => exact absurd hent (by unfold Entitled; exact fun h => h)
          | _ => rfl
        refine ⟨fs, .other (fun env dg i p f h => by cases h) h1, ?_, h3⟩
        rw [h2, a1, dumps_append, hn, List.append_nil]
      | recv i caps =>
        have := parentStep_recv hr
        subst this
        exact ⟨fs, .other (fun env dg i p f h => by cases h) h1, h2, h3⟩
      | send env dg =>
        rw [parentStep] at hr
        rcases parentSend_cases (c := c) heok s dg with ⟨hno, hh⟩ | ⟨i, p, f, hh, hcase⟩
        · rw [hh] at hr
          cases hr
          refine ⟨fs, .other ?_ h1, h2, h3⟩
          intro env' dg' i p f e hh
          cases e
          exact absurd hh (hno i p f)
        · rcases hcase with ⟨hn, hh'⟩ | ⟨name, hn, ⟨-, hh'⟩ | ⟨⟨hsz, hadv⟩, hh'⟩⟩
          · rw [hh'] at hr
            cases hr
            refine ⟨fs, .other ?_ h1, h2, h3⟩
            intro env' dg' i' p' f' e hh2
            cases e
            obtain ⟨rfl, -⟩ := hands_inj hh hh2
            rw [hn]; rfl
          · rw [hh'] at hr
            cases hr
          · rw [hh', if_pos hd] at hr
            cases hr
            refine ⟨f :: fs, .frame hh (by rw [hn]; rfl) h1, ?_, ?_⟩
            · rw [h2]
              unfold Parent.log
              rw [dumps_append, List.append_assoc]
              rfl
            · intro g hg
              rcases List.mem_cons.mp hg with rfl | hg
              · obtain ⟨_, _, _, _, _, _, hle, _⟩ := hh
                exact ⟨hsz, hle, p, hadv⟩
              · exact h3 g hg
    | .fail => rw [hr] at hs; cases hs
    | .oob => rw [hr] at hs; cases hs
    | .abort => rw [hr] at hs; cases hs
    | .stuck => rw [hr] at hs; cases hs

/-- No socket is open and nothing has touched the network. -/
def Offline (s : Parent) : Prop := (∀ r ∈ s.rawfds, r.handle = false) ∧ ∀ a ∈ s.acts, Silent a

theorem offline_log {s : Parent} {a : Act} (h : Offline s) (ha : Silent a) : Offline (s.log a) := by
  refine ⟨h.1, fun x hx => ?_⟩
  rcases List.mem_append.mp hx with hx | hx
  · exact h.2 x hx
  · rw [List.mem_singleton.mp hx]; exact ha

theorem offline_op {c : Conf} {env : PEnv} {r : Req} {name : Bytes} {s s' : Parent} {x : Bytes × Nat} (hd : c.opts.has OPT_DEBUG = true)
    (h : Offline s) (hs : parentOp c env r name s = .ok (s', x)) : Offline s' := by
  have hb : ∀ {α β : Type} {a : Res α} {f : α → Res β} {y : β}, a.bind f = .ok y → ∃ z, a = .ok z ∧ f z = .ok y := by
    intro α β a f y hy
    cases a <;> first | exact ⟨_, rfl, hy⟩ | cases hy
  unfold parentOp at hs
  split at hs
  · split at hs
    · obtain ⟨o, h1, h2⟩ := hb hs
      unfold parentOpen at h1
      rw [if_pos hd] at h1
      cases h1
      cases h2
      refine ⟨fun q hq => ?_, h.2⟩
      rcases List.mem_append.mp hq with hq | hq
      · exact h.1 q hq
      · rw [List.mem_singleton.mp hq]
    · cases hs; exact h
  split at hs
  · split at hs
    · cases hs; exact h
    · rename_i f hf
      cases hs
      have hl : listens c = false := by unfold listens; rw [hd]; simp
      have hm : f ∈ s.rawfds := List.mem_of_find?_eq_some hf
      unfold parentClose
      rw [hl]
      dsimp only
      rw [h.1 f hm]
      exact ⟨fun q hq => h.1 q (List.mem_of_mem_erase hq), h.2⟩
  split at hs
  · obtain ⟨o, h1, h2⟩ := hb hs
    cases h2
    split
    · exact offline_log h trivial
    · exact h
  split at hs
  · obtain ⟨o, h1, h2⟩ := hb hs
    cases h2
    exact offline_log h trivial
  split at hs
  · cases hs; exact offline_log h trivial
  split at hs
  · obtain ⟨o, h1, h2⟩ := hb hs
    cases h2
    exact offline_log h trivial
  split at hs
  · obtain ⟨o, h1, h2⟩ := hb hs
    cases h2
    exact offline_log h trivial
  split at hs
  · obtain ⟨o, h1, h2⟩ := hb hs
    cases h2
    exact offline_log h trivial
  split at hs
  · obtain ⟨o, h1, h2⟩ := hb hs
    cases h2
    exact offline_log h trivial
  · cases hs

theorem offline_step {c : Conf} {e : PEvent} {s s' : Parent} {x : List Bytes × List Fwd} (hd : c.opts.has OPT_DEBUG = true) (he : PEventOk e)
    (h : Offline s) (hs : parentStep c s e = .ok (s', x)) : Offline s' := by
  have hb : ∀ {α β : Type} {a : Res α} {f : α → Res β} {y : β}, a.bind f = .ok y → ∃ z, a = .ok z ∧ f z = .ok y := by
    intro α β a f y hy
    cases a <;> first | exact ⟨_, rfl, hy⟩ | cases hy
  cases e with
  | req env dg =>
    rw [parentStep] at hs
    obtain ⟨⟨s1, b⟩, h1, h2⟩ := hb hs
    cases h2
    unfold parentReq at h1
    dsimp only at h1
    split at h1
    · cases h1
    split at h1
    · obtain ⟨_, _, h2⟩ := hb h1
      cases h2
      exact h
    · obtain ⟨_, _, h2⟩ := hb h1
      split at h2
      · cases h2
      · obtain ⟨⟨s2, y⟩, h3, h4⟩ := hb h2
        obtain ⟨_, _, h5⟩ := hb h4
        cases h5
        exact offline_op hd h h3
  | recv i caps =>
    rw [parentStep_recv hs]; exact h
  | send env dg =>
    rw [parentStep] at hs
    obtain ⟨s1, h1, h2⟩ := hb hs
    cases h2
    rcases parentSend_cases (c := c) he s dg with ⟨-, hh⟩ | ⟨i, p, f, -, hcase⟩
    · rw [hh] at h1; cases h1; exact h
    · rcases hcase with ⟨-, hh⟩ | ⟨name, -, ⟨-, hh⟩ | ⟨-, hh⟩⟩
      · rw [hh] at h1; cases h1; exact h
      · rw [hh] at h1; cases h1
      · rw [hh, if_pos hd] at h1
        cases h1
        exact offline_log h trivial

theorem offline_run {c : Conf} (hd : c.opts.has OPT_DEBUG = true) : ∀ {es : List PEvent} {s s' : Parent}, (∀ e ∈ es, PEventOk e) → Offline s →
    parentRun c es s = .ok s' → Offline s'
  | [], s, s', _, h, hs => by rw [parentRun] at hs; cases hs; exact h
  | e :: es, s, s', he, h, hs => by
    rw [parentRun] at hs
    match hr : parentStep c s e with
    | .ok (s1, x) =>
      rw [hr] at hs
      exact offline_run hd (fun e' h' => he e' (List.mem_cons_of_mem _ h')) (offline_step hd (he e List.mem_cons_self) h hr) hs
    | .fail => rw [hr] at hs; cases hs
    | .oob => rw [hr] at hs; cases hs
    | .abort => rw [hr] at hs; cases hs
    | .stuck => rw [hr] at hs; cases hs

end Ladvd.Spec
