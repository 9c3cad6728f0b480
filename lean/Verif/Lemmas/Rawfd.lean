import Verif.Lemmas.Parent
/-!
# The sockets of the privileged process over time
-/

namespace Ladvd
open Spec

theorem transmit_pinv {c : Conf} {env : PEnv} {s : Parent} {r : Rfd} (f : Bytes) (h : PInv c s) (hr : r ∈ s.rawfds) :
    PInv c (transmit c env r f s) := by
  unfold transmit
  split
  · exact pinv_close h hr
  · exact pinv_log (new := [.frame r.index f]) h rfl rfl rfl (fun _ i => ⟨rfl, rfl⟩)
  · exact h

/-- Effects of requests other than opening and closing. -/
theorem entitled_count {op i : Nat} {name payload : Bytes} {new : List Act} (h : ∀ a ∈ new, Entitled op i name payload a)
    {q : Prop} (ho : op ≠ 0 ∧ op ≠ 1 ∨ new = [] ∧ q) (j : Nat) : new.countP (Act.opens j) = 0 ∧ new.countP (Act.closes j) = 0 := by
  rcases ho with ⟨h0, h1⟩ | ⟨rfl, -⟩
  · constructor
    · rw [List.countP_eq_zero]
      intro a ha
      have := h a ha
      cases a <;> simp_all [Act.opens, Entitled]
    · rw [List.countP_eq_zero]
      intro a ha
      have := h a ha
      cases a <;> simp_all [Act.closes, Entitled]
  · exact ⟨rfl, rfl⟩

theorem parentReq_pinv {c : Conf} {env : PEnv} (he : PEnvOk env) {s s' : Parent} {dg b : Bytes} (h : PInv c s)
    (hs : parentReq c env s dg = .ok (s', b)) : PInv c s' := by
  rcases parentReq_cases (c := c) he s dg with ⟨-, h1⟩ | ⟨op, i, payload, -, ⟨-, b', h1, -⟩ | ⟨name, -, ⟨-, h1⟩ |
    ⟨-, ⟨-, -, -, -, h1⟩ | ⟨s1, b1, out, new, h1, -, hacts, hent, -, hst⟩⟩⟩⟩
  · rw [h1] at hs; cases hs
  · rw [h1] at hs; cases hs; exact h
  · rw [h1] at hs; cases hs
  · rw [h1] at hs; cases hs
  · rw [h1] at hs
    cases hs
    rcases hst with ⟨e1, e2, e3⟩ | ⟨-, hn, -, e⟩ | ⟨-, r, hr, e⟩
    · exact pinv_log h e1 e2 hacts (fun _ j => entitled_count hent e3 j)
    · rw [e]; exact pinv_open h hn
    · rw [e]; exact pinv_close h (rfdByIndex_some hr).1

theorem sendOn_pinv {c : Conf} (hd : c.opts.has OPT_DEBUG = false) {env : PEnv} {i : Nat} {name f : Bytes} {s s' : Parent} (h : PInv c s)
    (hs : sendOn c env i name f s = .ok s') : PInv c s' := by
  rw [sendOn_eq c hd] at hs
  match hr : rfdByIndex s i with
  | some r =>
    rw [hr] at hs
    cases hs
    exact transmit_pinv f h (rfdByIndex_some hr).1
  | none =>
    rw [hr] at hs
    dsimp only at hs
    match hk : env.sock name with
    | .fatal => rw [hk] at hs; cases hs
    | .failed => rw [hk] at hs; cases hs; exact h
    | .ok =>
      rw [hk] at hs
      cases hs
      exact transmit_pinv f (pinv_open h hr) (List.mem_append_right _ List.mem_cons_self)

theorem parentSend_pinv {c : Conf} {env : PEnv} (he : PEnvOk env) {s s' : Parent} {dg : Bytes} (h : PInv c s)
    (hs : parentSend c env s dg = .ok s') : PInv c s' := by
  rcases parentSend_cases (c := c) he s dg with ⟨-, h1⟩ | ⟨i, p, f, -, ⟨-, h1⟩ | ⟨name, -, ⟨-, h1⟩ | ⟨-, h1⟩⟩⟩
  · rw [h1] at hs; cases hs; exact h
  · rw [h1] at hs; cases hs; exact h
  · rw [h1] at hs; cases hs
  · rw [h1] at hs
    cases hd : c.opts.has OPT_DEBUG with
    | true =>
      rw [hd, if_pos rfl] at hs
      cases hs
      exact pinv_log (new := [.dump f]) h rfl rfl rfl (fun _ i => ⟨rfl, rfl⟩)
    | false =>
      rw [hd, if_neg (by decide)] at hs
      exact sendOn_pinv hd h hs

theorem parentStep_pinv {c : Conf} {s s' : Parent} {e : PEvent} {x : List Bytes × List Fwd} (he : PEventOk e) (h : PInv c s)
    (hs : parentStep c s e = .ok (s', x)) : PInv c s' := by
  cases e with
  | req env dg =>
    rw [parentStep] at hs
    match hr : parentReq c env s dg with
    | .ok (s1, b) => rw [hr] at hs; cases hs; exact parentReq_pinv he h hr
    | .fail => rw [hr] at hs; cases hs
    | .oob => rw [hr] at hs; cases hs
    | .abort => rw [hr] at hs; cases hs
    | .stuck => rw [hr] at hs; cases hs
  | send env dg =>
    rw [parentStep] at hs
    match hr : parentSend c env s dg with
    | .ok s1 => rw [hr] at hs; cases hs; exact parentSend_pinv he h hr
    | .fail => rw [hr] at hs; cases hs
    | .oob => rw [hr] at hs; cases hs
    | .abort => rw [hr] at hs; cases hs
    | .stuck => rw [hr] at hs; cases hs
  | recv i caps =>
    rw [parentStep] at hs
    split at hs
    · cases hs; exact h
    · split at hs
      · cases hs; exact h
      · split at hs
        · cases hs
        · match hr : parentRecv i caps with
          | .ok ms => rw [hr] at hs; cases hs; exact h
          | .fail => rw [hr] at hs; cases hs
          | .oob => rw [hr] at hs; cases hs
          | .abort => rw [hr] at hs; cases hs
          | .stuck => rw [hr] at hs; cases hs

theorem pinv_init (c : Conf) : PInv c {} := ⟨List.nodup_nil, (fun _ h => nomatch h), fun _ => rfl, fun _ _ => rfl⟩

theorem parentRun_pinv {c : Conf} : ∀ {es : List PEvent} {s s' : Parent}, (∀ e ∈ es, PEventOk e) → PInv c s → parentRun c es s = .ok s' → PInv c s'
  | [], s, s', _, h, hs => by rw [parentRun] at hs; cases hs; exact h
  | e :: es, s, s', he, h, hs => by
    rw [parentRun] at hs
    match hr : parentStep c s e with
    | .ok (s1, x) =>
      rw [hr] at hs
      exact parentRun_pinv (fun e' h' => he e' (List.mem_cons_of_mem _ h')) (parentStep_pinv (he e List.mem_cons_self) h hr) hs
    | .fail => rw [hr] at hs; cases hs
    | .oob => rw [hr] at hs; cases hs
    | .abort => rw [hr] at hs; cases hs
    | .stuck => rw [hr] at hs; cases hs

theorem closeAll_pinv {c : Conf} {env : PEnv} : ∀ (l : List Rfd) {s : Parent}, PInv c s → s.rawfds = l →
    PInv c (closeAll c env l s) ∧ (closeAll c env l s).rawfds = []
  | [], s, h, hl => ⟨h, hl⟩
  | r :: l, s, h, hl => by
    rw [closeAll]
    refine closeAll_pinv l (pinv_close h (by rw [hl]; exact List.mem_cons_self)) ?_
    rw [parentClose_eq]
    dsimp only
    rw [hl, List.erase_cons_head]

/-! ## Multicast groups -/

theorem multiLoop_add (c : Conf) : ∀ ps : List Proto, ∀ op, op ≠ 0 →
    multiLoop c op ps = ((ps.filter (fun p => c.enabled p || c.opts.has OPT_AUTO)).map Proto.dst).map (fun a => (true, a))
  | [], _, _ => rfl
  | p :: ps, op, ho => by
    rw [multiLoop]
    cases hp : c.enabled p || c.opts.has OPT_AUTO with
    | false =>
      rw [Bool.or_eq_false_iff] at hp
      rw [if_pos (by rw [hp.1, hp.2]; rfl), List.filter_cons_of_neg (by rw [hp.1, hp.2]; decide)]
      exact multiLoop_add c ps op ho
    | true =>
      rw [if_neg (by
        intro h
        rw [Bool.and_eq_true, Bool.not_eq_true', Bool.not_eq_true'] at h
        rw [h.1, h.2] at hp
        cases hp), List.filter_cons_of_pos (p := fun p => c.enabled p || c.opts.has OPT_AUTO) hp, List.map_cons, List.map_cons, if_pos ho]
      dsimp only
      rw [multiLoop_add c ps 1 (by decide)]
      rfl

/-- The calls made on closing: the first group is dropped, the others are requested. -/
def closeCalls : List Bytes → List (Bool × Bytes)
  | [] => []
  | g :: gs => (false, g) :: gs.map (fun a => (true, a))

theorem multiLoop_drop (c : Conf) : ∀ ps : List Proto,
    multiLoop c 0 ps = closeCalls ((ps.filter (fun p => c.enabled p || c.opts.has OPT_AUTO)).map Proto.dst)
  | [] => rfl
  | p :: ps => by
    rw [multiLoop]
    cases hp : c.enabled p || c.opts.has OPT_AUTO with
    | false =>
      rw [Bool.or_eq_false_iff] at hp
      rw [if_pos (by rw [hp.1, hp.2]; rfl), List.filter_cons_of_neg (by rw [hp.1, hp.2]; decide)]
      exact multiLoop_drop c ps
    | true =>
      rw [if_neg (by
        intro h
        rw [Bool.and_eq_true, Bool.not_eq_true', Bool.not_eq_true'] at h
        rw [h.1, h.2] at hp
        cases hp), List.filter_cons_of_pos (p := fun p => c.enabled p || c.opts.has OPT_AUTO) hp, List.map_cons, if_neg (by decide)]
      dsimp only
      rw [multiLoop_add c ps 2 (by decide)]
      rfl

theorem applyMember_fold (env : PEnv) (hm : ∀ a g, env.member a g = true) : ∀ (l : List Bytes) (g : List Bytes),
    (l.map (fun a => (true, a))).foldl (applyMember env) g = g ++ l
  | [], g => by simp
  | x :: l, g => by
    rw [List.map_cons, List.foldl_cons, applyMember_fold env hm l]
    unfold applyMember
    dsimp only
    rw [if_pos (hm _ _), if_pos rfl, List.append_assoc]
    rfl

theorem joined_table (c : Conf) :
    (protoTable.filter (fun p => c.enabled p || c.opts.has OPT_AUTO)).map Proto.dst = joined c.enabled (c.opts.has OPT_AUTO) := by
  have : ∀ (on : Proto → Bool) (l : List Proto), (l.filter on).map Proto.dst = (l.map (fun p => (p, p.dst))).filterMap
      (fun x : Proto × Bytes => if on x.1 then some x.2 else none) := by
    intro on l
    induction l with
    | nil => rfl
    | cons p l ih =>
      rw [List.map_cons, List.filterMap_cons, List.filter_cons]
      dsimp only
      cases on p with
      | true => rw [if_pos rfl, if_pos rfl, List.map_cons, ih]
      | false => rw [if_neg (by decide), if_neg (by decide), ih]
  exact this (fun p => c.enabled p || c.opts.has OPT_AUTO) protoTable

theorem newRfd_groups (c : Conf) (env : PEnv) (hm : ∀ a g, env.member a g = true) (i : Nat) (name : Bytes) :
    (newRfd c env i name).groups = if listens c then joined c.enabled (c.opts.has OPT_AUTO) else [] := by
  unfold newRfd
  cases hd : c.opts.has OPT_DEBUG with
  | true =>
    have : listens c = false := by unfold listens; rw [hd]; simp
    rw [this]
    rfl
  | false =>
    rw [if_neg (by decide)]
    cases hl : listens c with
    | false => rfl
    | true =>
      rw [if_pos rfl, if_pos rfl]
      dsimp only
      rw [multiLoop_add c _ _ (by decide), applyMember_fold env hm, List.nil_append]
      exact joined_table c


/-! ## Effects and records of one event -/

theorem openActs_mem {c : Conf} {i : Nat} {name : Bytes} {a : Act} (h : a ∈ openActs c i name) :
    a = .socket i name (socketFilter (c.opts.has OPT_RECV)) ∨ listens c = true ∧ ∃ g ∈ joined c.enabled (c.opts.has OPT_AUTO), a = .member i true g := by
  unfold openActs at h
  cases hd : c.opts.has OPT_DEBUG with
  | true => rw [hd, if_pos rfl] at h; cases h
  | false =>
    rw [hd, if_neg (by decide)] at h
    rcases List.mem_cons.mp h with h | h
    · exact .inl h
    · right
      cases hr : c.opts.has OPT_RECV with
      | false => rw [hr, if_neg (by decide)] at h; cases h
      | true =>
        rw [hr, if_pos rfl, multiLoop_add c _ _ (by decide), joined_table] at h
        obtain ⟨x, hx, rfl⟩ := List.mem_map.mp h
        obtain ⟨g, hg, rfl⟩ := List.mem_map.mp hx
        exact ⟨by unfold listens; rw [hr, hd]; rfl, g, hg, rfl⟩

theorem joined_groups {on : Proto → Bool} {auto : Bool} {g : Bytes} (h : g ∈ joined on auto) : g ∈ groups := by
  obtain ⟨x, hx, he⟩ := List.mem_filterMap.mp h
  split at he
  · cases he
    have : ∀ x ∈ ([(.lldp, [0x01, 0x80, 0xc2, 0x00, 0x00, 0x0e]), (.cdp, [0x01, 0x00, 0x0c, 0xcc, 0xcc, 0xcc]), (.edp, [0x00, 0xe0, 0x2b, 0x00, 0x00, 0x00]),
      (.fdp, [0x01, 0xe0, 0x52, 0xcc, 0xcc, 0xcc]), (.ndp, [0x01, 0x00, 0x81, 0x00, 0x01, 0x00]),
      (.cdp1, [0x01, 0x00, 0x0c, 0xcc, 0xcc, 0xcc])] : List (Proto × Bytes)), x.2 ∈ groups := by decide
    exact this x hx
  · cases he

theorem closeActs_mem {c : Conf} {r : Rfd} {a : Act} (h : a ∈ closeActs c r) :
    a = .close r.index ∨ listens c = true ∧ ∃ add, ∃ g ∈ groups, a = .member r.index add g := by
  rcases List.mem_append.mp h with h | h
  · right
    split at h
    · rename_i hl
      obtain ⟨x, hx, rfl⟩ := List.mem_map.mp h
      exact ⟨hl, x.1, x.2, multiLoop_groups hx, rfl⟩
    · cases h
  · split at h
    · exact .inl (List.mem_singleton.mp h)
    · cases h

theorem transmit_acts (c : Conf) (env : PEnv) (r : Rfd) (f : Bytes) (s : Parent) :
    ∃ new, (transmit c env r f s).acts = s.acts ++ new ∧
      (∀ a ∈ new, a = .frame r.index f ∨ a = .close r.index ∨ listens c = true ∧ ∃ add, ∃ g ∈ groups, a = .member r.index add g) ∧
      ∀ x ∈ (transmit c env r f s).rawfds, x ∈ s.rawfds := by
  unfold transmit
  split
  · rw [parentClose_eq]
    exact ⟨_, rfl, fun a ha => .inr (closeActs_mem ha), fun x hx => List.mem_of_mem_erase hx⟩
  · exact ⟨[.frame r.index f], rfl, fun a ha => .inl (List.mem_singleton.mp ha), fun x hx => hx⟩
  · exact ⟨[], (List.append_nil _).symm, (fun _ h => nomatch h), fun x hx => hx⟩

theorem sendOn_acts {c : Conf} (hd : c.opts.has OPT_DEBUG = false) {env : PEnv} {i : Nat} {name f : Bytes} {s s' : Parent}
    (hs : sendOn c env i name f s = .ok s') :
    ∃ new, s'.acts = s.acts ++ new ∧
      (∀ a ∈ new, a = .frame i f ∨ a = .close i ∨ a = .socket i name (socketFilter (c.opts.has OPT_RECV)) ∨
        listens c = true ∧ ∃ add, ∃ g ∈ groups, a = .member i add g) ∧
      ∀ x ∈ s'.rawfds, x ∈ s.rawfds ∨ x = newRfd c env i name := by
  rw [sendOn_eq c hd] at hs
  match hr : rfdByIndex s i with
  | some r =>
    rw [hr] at hs
    cases hs
    obtain ⟨new, h1, h2, h3⟩ := transmit_acts c env r f s
    rw [(rfdByIndex_some hr).2] at h2
    refine ⟨new, h1, fun a ha => ?_, fun x hx => .inl (h3 x hx)⟩
    rcases h2 a ha with h | h | h
    · exact .inl h
    · exact .inr (.inl h)
    · exact .inr (.inr (.inr h))
  | none =>
    rw [hr] at hs
    dsimp only at hs
    match hk : env.sock name with
    | .fatal => rw [hk] at hs; cases hs
    | .failed => rw [hk] at hs; cases hs; exact ⟨[], (List.append_nil _).symm, (fun _ h => nomatch h), fun x hx => .inl hx⟩
    | .ok =>
      rw [hk] at hs
      cases hs
      obtain ⟨new, h1, h2, h3⟩ := transmit_acts c env (newRfd c env i name) f
        ⟨s.rawfds ++ [newRfd c env i name], s.fds ++ [i], s.acts ++ openActs c i name⟩
      rw [newRfd_index] at h2
      refine ⟨openActs c i name ++ new, ?_, fun a ha => ?_, fun x hx => ?_⟩
      · rw [h1, List.append_assoc]
      · rcases List.mem_append.mp ha with ha | ha
        · rcases openActs_mem ha with h | ⟨hl, g, hg, h⟩
          · exact .inr (.inr (.inl h))
          · exact .inr (.inr (.inr ⟨hl, true, g, joined_groups hg, h⟩))
        · rcases h2 a ha with h | h | h
          · exact .inl h
          · exact .inr (.inl h)
          · exact .inr (.inr (.inr h))
      · rcases List.mem_append.mp (h3 x hx) with h | h
        · exact .inl h
        · exact .inr (List.mem_singleton.mp h)

/-- Effects and records of a datagram on the message socket. -/
theorem parentSend_acts {c : Conf} {env : PEnv} (he : PEnvOk env) {s s' : Parent} {dg : Bytes} (hs : parentSend c env s dg = .ok s') :
    ∃ new, s'.acts = s.acts ++ new ∧ (∀ a ∈ new, Conveys env dg a) ∧
      (∀ j n f, Act.socket j n f ∈ new → f = socketFilter (c.opts.has OPT_RECV)) ∧
      (∀ j add g, Act.member j add g ∈ new → listens c = true) ∧
      ∀ x ∈ s'.rawfds, x ∈ s.rawfds ∨ ∃ i name, env.ifName i = some name ∧ x = newRfd c env i name := by
  have triv : ∃ new, s.acts = s.acts ++ new ∧ (∀ a ∈ new, Conveys env dg a) ∧
      (∀ j n f, Act.socket j n f ∈ new → f = socketFilter (c.opts.has OPT_RECV)) ∧
      (∀ j add g, Act.member j add g ∈ new → listens c = true) ∧
      ∀ x ∈ s.rawfds, x ∈ s.rawfds ∨ ∃ i name, env.ifName i = some name ∧ x = newRfd c env i name :=
    ⟨[], (List.append_nil _).symm, (fun _ h => nomatch h), (fun _ _ _ h => nomatch h), (fun _ _ _ h => nomatch h), fun x hx => .inl hx⟩
  rcases parentSend_cases (c := c) he s dg with ⟨-, h1⟩ | ⟨i, p, f, hh, ⟨-, h1⟩ | ⟨name, hn, ⟨-, h1⟩ | ⟨hv, h1⟩⟩⟩
  · rw [h1] at hs; cases hs; exact triv
  · rw [h1] at hs; cases hs; exact triv
  · rw [h1] at hs; cases hs
  · rw [h1] at hs
    cases hd : c.opts.has OPT_DEBUG with
    | true =>
      rw [hd, if_pos rfl] at hs
      cases hs
      refine ⟨[.dump f], rfl, ?_, ?_, ?_, fun x hx => .inl hx⟩
      · intro a ha
        rw [List.mem_singleton.mp ha]
        exact ⟨i, p, hh, hv.1, hv.2⟩
      · intro j n g hg; cases List.mem_singleton.mp hg
      · intro j n g hg; cases List.mem_singleton.mp hg
    | false =>
      rw [hd, if_neg (by decide)] at hs
      obtain ⟨new, g1, g2, g3⟩ := sendOn_acts hd hs
      refine ⟨new, g1, ?_, ?_, ?_, fun x hx => ?_⟩
      · intro a ha
        rcases g2 a ha with rfl | rfl | rfl | ⟨-, add, g, hg, rfl⟩
        · exact ⟨p, hh, hv.1, hv.2⟩
        · exact ⟨p, f, hh⟩
        · exact ⟨⟨p, f, hh⟩, hn⟩
        · exact ⟨⟨p, f, hh⟩, hg⟩
      · intro j n g hg
        rcases g2 _ hg with h | h | h | ⟨-, _, _, -, h⟩ <;> cases h
        rfl
      · intro j n g hg
        rcases g2 _ hg with h | h | h | ⟨hl, _, _, -, h⟩ <;> cases h
        exact hl
      · rcases g3 x hx with h | h
        · exact .inl h
        · exact .inr ⟨i, name, hn, h⟩

/-- Effects and records of a request. -/
theorem parentReq_acts {c : Conf} {env : PEnv} (he : PEnvOk env) {s s' : Parent} {dg b : Bytes} (hs : parentReq c env s dg = .ok (s', b)) :
    ∃ op i payload, Asks (dg.take 544) op i payload ∧
      ∃ new, s'.acts = s.acts ++ new ∧ (∀ a ∈ new, ∃ name, env.ifName i = some name ∧ Served op payload.length ∧ Entitled op i name payload a) ∧
      (∀ j n f, Act.socket j n f ∈ new → f = socketFilter (c.opts.has OPT_RECV)) ∧
      (∀ j add g, Act.member j add g ∈ new → listens c = true) ∧
      ∀ x ∈ s'.rawfds, x ∈ s.rawfds ∨ ∃ i name, env.ifName i = some name ∧ x = newRfd c env i name := by
  rcases parentReq_cases (c := c) he s dg with ⟨-, h1⟩ | ⟨op, i, payload, hask, ⟨-, b', h1, -⟩ | ⟨name, hn, ⟨-, h1⟩ |
    ⟨hsv, ⟨-, -, -, -, h1⟩ | ⟨s1, b1, out, new, h1, -, hacts, hent, -, hst⟩⟩⟩⟩
  · rw [h1] at hs; cases hs
  · rw [h1] at hs
    cases hs
    exact ⟨op, i, payload, hask, [], (List.append_nil _).symm, (fun _ h => nomatch h), (fun _ _ _ h => nomatch h), (fun _ _ _ h => nomatch h),
      fun x hx => .inl hx⟩
  · rw [h1] at hs; cases hs
  · rw [h1] at hs; cases hs
  · rw [h1] at hs
    cases hs
    refine ⟨op, i, payload, hask, new, hacts, fun a ha => ⟨name, hn, hsv, hent a ha⟩, ?_, ?_, ?_⟩
    · intro j n f hf
      rcases hst with ⟨-, -, e3⟩ | ⟨-, -, -, e⟩ | ⟨h1, -⟩
      · rcases e3 with e3 | e3
        · exact absurd (hent _ hf).1 e3.1
        · rw [e3.1] at hf; cases hf
      · rw [e] at hacts
        have := List.append_cancel_left hacts
        rw [← this] at hf
        rcases openActs_mem hf with h | ⟨-, _, -, h⟩ <;> cases h
        rfl
      · have := (hent _ hf).1
        omega
    · intro j add g hf
      rcases hst with ⟨-, -, e3⟩ | ⟨-, -, -, e⟩ | ⟨-, r, -, e⟩
      · rcases e3 with e3 | e3
        · rcases (hent _ hf).2.2 with h | h
          · exact absurd h.1 e3.1
          · exact absurd h e3.2
        · rw [e3.1] at hf; cases hf
      · rw [e] at hacts
        have := List.append_cancel_left hacts
        rw [← this] at hf
        rcases openActs_mem hf with h | ⟨hl, _, -, h⟩ <;> cases h
        exact hl
      · rw [e, parentClose_eq] at hacts
        have := List.append_cancel_left hacts
        rw [← this] at hf
        rcases closeActs_mem hf with h | ⟨hl, _, _, -, h⟩ <;> cases h
        exact hl
    · intro x hx
      rcases hst with ⟨e1, -⟩ | ⟨-, -, -, e⟩ | ⟨-, r, -, e⟩
      · rw [e1] at hx; exact .inl hx
      · rw [e] at hx
        rcases List.mem_append.mp hx with h | h
        · exact .inl h
        · exact .inr ⟨i, name, hn, List.mem_singleton.mp h⟩
      · rw [e, parentClose_eq] at hx
        exact .inl (List.mem_of_mem_erase hx)

/-! ## Histories -/

/-- What holds of an effect in every configuration. -/
def ActOk (c : Conf) (a : Act) : Prop :=
  (∀ j n f, a = .socket j n f → f = socketFilter (c.opts.has OPT_RECV)) ∧ ∀ j add g, a = .member j add g → listens c = true

theorem parentStep_recv {c : Conf} {s s' : Parent} {i : Nat} {caps : List Bytes} {x : List Bytes × List Fwd}
    (hs : parentStep c s (.recv i caps) = .ok (s', x)) : s' = s := by
  rw [parentStep] at hs
  split at hs
  · cases hs; rfl
  · split at hs
    · cases hs; rfl
    · split at hs
      · cases hs
      · match hr : parentRecv i caps with
        | .ok ms => rw [hr] at hs; cases hs; rfl
        | .fail => rw [hr] at hs; cases hs
        | .oob => rw [hr] at hs; cases hs
        | .abort => rw [hr] at hs; cases hs
        | .stuck => rw [hr] at hs; cases hs

theorem parentStep_acts {c : Conf} {s s' : Parent} {e : PEvent} {x : List Bytes × List Fwd} (he : PEventOk e)
    (hs : parentStep c s e = .ok (s', x)) :
    ∃ new, s'.acts = s.acts ++ new ∧ (∀ a ∈ new, Allowed e a ∧ ActOk c a) ∧
      ∀ y ∈ s'.rawfds, y ∈ s.rawfds ∨ ∃ env i name, (Accepting e → ∀ add g, env.member add g = true) ∧ y = newRfd c env i name := by
  cases e with
  | req env dg =>
    rw [parentStep] at hs
    match hr : parentReq c env s dg with
    | .ok (s1, b) =>
      rw [hr] at hs
      cases hs
      obtain ⟨op, i, payload, h1, new, h2, h3, h4, h5, h6⟩ := parentReq_acts he hr
      refine ⟨new, h2, fun a ha => ⟨?_, ?_, ?_⟩, fun y hy => ?_⟩
      · obtain ⟨name, hn, hs, hent⟩ := h3 a ha
        exact ⟨op, i, payload, name, h1, hn, hs, hent⟩
      · rintro j n f rfl; exact h4 j n f ha
      · rintro j n f rfl; exact h5 j n f ha
      · rcases h6 y hy with h | ⟨i, name, -, h⟩
        · exact .inl h
        · exact .inr ⟨env, i, name, fun h => h, h⟩
    | .fail => rw [hr] at hs; cases hs
    | .oob => rw [hr] at hs; cases hs
    | .abort => rw [hr] at hs; cases hs
    | .stuck => rw [hr] at hs; cases hs
  | send env dg =>
    rw [parentStep] at hs
    match hr : parentSend c env s dg with
    | .ok s1 =>
      rw [hr] at hs
      cases hs
      obtain ⟨new, h2, h3, h4, h5, h6⟩ := parentSend_acts he hr
      refine ⟨new, h2, fun a ha => ⟨h3 a ha, ?_, ?_⟩, fun y hy => ?_⟩
      · rintro j n f rfl; exact h4 j n f ha
      · rintro j n f rfl; exact h5 j n f ha
      · rcases h6 y hy with h | ⟨i, name, -, h⟩
        · exact .inl h
        · exact .inr ⟨env, i, name, fun h => h, h⟩
    | .fail => rw [hr] at hs; cases hs
    | .oob => rw [hr] at hs; cases hs
    | .abort => rw [hr] at hs; cases hs
    | .stuck => rw [hr] at hs; cases hs
  | recv i caps =>
    rw [parentStep_recv hs]
    exact ⟨[], (List.append_nil _).symm, (fun _ h => nomatch h), fun y hy => .inl hy⟩

theorem parentRun_acts {c : Conf} : ∀ {es : List PEvent} {s s' : Parent}, (∀ e ∈ es, PEventOk e) → parentRun c es s = .ok s' →
    ∃ new, s'.acts = s.acts ++ new ∧ (∀ a ∈ new, ∃ e ∈ es, Allowed e a ∧ ActOk c a) ∧
      ∀ y ∈ s'.rawfds, y ∈ s.rawfds ∨ ∃ e ∈ es, ∃ env i name, (Accepting e → ∀ add g, env.member add g = true) ∧ y = newRfd c env i name
  | [], s, s', _, hs => by
    rw [parentRun] at hs
    cases hs
    exact ⟨[], (List.append_nil _).symm, (fun _ h => nomatch h), fun y hy => .inl hy⟩
  | e :: es, s, s', he, hs => by
    rw [parentRun] at hs
    match hr : parentStep c s e with
    | .ok (s1, x) =>
      rw [hr] at hs
      obtain ⟨new1, a1, b1, c1⟩ := parentStep_acts (he e List.mem_cons_self) hr
      obtain ⟨new2, a2, b2, c2⟩ := parentRun_acts (fun e' h' => he e' (List.mem_cons_of_mem _ h')) hs
      refine ⟨new1 ++ new2, by rw [a2, a1, List.append_assoc], fun a ha => ?_, fun y hy => ?_⟩
      · rcases List.mem_append.mp ha with ha | ha
        · exact ⟨e, List.mem_cons_self, b1 a ha⟩
        · obtain ⟨e', he', h⟩ := b2 a ha
          exact ⟨e', List.mem_cons_of_mem _ he', h⟩
      · rcases c2 y hy with h | ⟨e', he', h⟩
        · rcases c1 y h with h | h
          · exact .inl h
          · exact .inr ⟨e, List.mem_cons_self, h⟩
        · exact .inr ⟨e', List.mem_cons_of_mem _ he', h⟩
    | .fail => rw [hr] at hs; cases hs
    | .oob => rw [hr] at hs; cases hs
    | .abort => rw [hr] at hs; cases hs
    | .stuck => rw [hr] at hs; cases hs

end Ladvd
