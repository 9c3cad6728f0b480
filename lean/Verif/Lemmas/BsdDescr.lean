import Verif.Spec.BsdDescr
import Verif.Lemmas.Alias
/-!
# Lemmas: interface descriptions on FreeBSD
-/

namespace Ladvd

open Spec

/-! ## The requests of an operation -/

theorem child_out {o : Opts} {st st' : Child} {op : ChildOp} (hc : ∀ now r, op = .recv now r → Clocked (.recv now r)) (h : childStep o st op = .ok st') :
    ∃ R, st'.out = st.out ++ R ∧ Asked o st'.queue st'.netifs (fun i => (∃ now r, op = .recv now r ∧ r.index = i ∧ st' ≠ st) ∨
      TextChanges o st.queue st'.queue i) R := by
  cases op with
  | recv now r =>
    have h : childQueue o now r st = .ok st' := h
    rcases queueLog_cases h with ⟨rfl, -, -⟩ | ⟨t, subif, m, rfl, ht, -, hst⟩
    · refine ⟨[], by simp, fun _ => rfl, (fun _ h => nomatch h), ?_⟩
      intro _ i n _ hi
      rcases hi with ⟨_, _, -, -, hne⟩ | hi
      · exact absurd rfl hne
      · exact absurd rfl hi
    · obtain ⟨R, h1, h2⟩ := queueStore_out (e := entryOf st t r subif m) ht.known (by
        intro h0
        have h0 : m.ttl = 0 := h0
        refine ⟨?_, rfl⟩
        show (if m.ttl ≠ 0 then t else r.received) < t
        rw [if_neg (by rw [h0]; exact fun h => h rfl)]
        exact hc _ _ rfl) hst
      refine ⟨R, h1, h2.congr (fun _ => rfl) ?_⟩
      intro i _ hi
      rcases hi with ⟨_, _, he, hi, -⟩ | hi
      · injection he with he1 he2
        subst he2
        exact Or.inl hi.symm
      · exact Or.inr hi
  | expire now =>
    have h : childExpire o now st = .ok st' := h
    obtain ⟨R, h1, h2⟩ := childExpire_out h
    refine ⟨R, h1, h2.congr (fun _ => rfl) ?_⟩
    intro i _ hi
    rcases hi with ⟨_, _, he, -⟩ | hi
    · cases he
    · rw [(childExpire_frame h).1] at hi
      exact expire_text hi
  | fetch l =>
    injection h with h
    subst h
    refine ⟨[], by simp, fun _ => rfl, (fun _ h => nomatch h), ?_⟩
    intro _ i n _ hi
    rcases hi with ⟨_, _, he, -⟩ | hi
    · cases he
    · exact absurd rfl hi
  | accept =>
    injection h with h
    subst h
    refine ⟨[], by simp [cliAccept], fun _ => rfl, (fun _ h => nomatch h), ?_⟩
    intro _ i n _ hi
    rcases hi with ⟨_, _, he, -⟩ | hi
    · cases he
    · exact absurd rfl hi
  | write sid ws =>
    have h : cliWrite sid ws st = .ok st' := h
    obtain ⟨h1, h2⟩ := cliWrite_still h
    refine ⟨[], by rw [List.append_nil]; exact h2, fun _ => rfl, (fun _ h => nomatch h), ?_⟩
    intro _ i n _ hi
    rcases hi with ⟨_, _, he, -⟩ | hi
    · cases he
    · refine absurd ?_ hi
      rw [← descrText_lock _ _ st'.queue, h1, descrText_lock]

/-- Only a refresh changes the interfaces. -/
theorem child_bare {o : Opts} {st st' : Child} {op : ChildOp} (hf : ∀ l, op ≠ .fetch l) (h : childStep o st op = .ok st') :
    st'.netifs.map bare = st.netifs.map bare := by
  cases op with
  | recv now r => exact childQueue_bare h
  | expire now => exact childExpire_bare h
  | fetch l => exact absurd rfl (hf l)
  | accept => injection h with h; subst h; rfl
  | write sid ws => exact congrArg (List.map bare) (cliWrite_origin h).1

/-! ## Serving the requests -/

theorem descrArg_text {t : Bytes} (hl : t.length ≤ 63) (h0 : (0 : UInt8) ∉ t) : descrArg (t ++ [0]) = some (some t) := by
  unfold descrArg
  rw [if_neg (by rw [List.length_append, List.length_singleton]; omega), if_neg (by simp), List.dropLast_concat]
  have : ∀ l : Bytes, (0 : UInt8) ∉ l → l.takeWhile (· ≠ 0) = l := by
    intro l
    induction l with
    | nil => intro _; rfl
    | cons b l ih =>
      intro h
      rw [List.mem_cons, not_or] at h
      rw [List.takeWhile_cons, if_pos (by simpa using fun hc => h.1 hc.symm), ih h.2]
  rw [this t h0]

/-- What becomes of a request. -/
theorem bsdServe_eq (c : Conf) {ifName : Nat → Option Bytes} (h : ∀ i n, ifName i = some n → n.length ≤ 15) (d : Descrs) (s : Parent)
    {i : Nat} (hi : i < 2 ^ 32) {text : Bytes} (hl : text.length ≤ 63) :
    bsdServe c (descrEnv ifName d) s (i, text) = .ok ((ifName i).toList.map fun n => (n, text ++ [0])) := by
  have hl' : (text ++ [(0 : UInt8)]).length ≤ 512 := by rw [List.length_append, List.length_singleton]; omega
  have hask : Asks (descrReq (i, text)) 2 i (text ++ [0]) := mreqBytes_asks hi hl'
  have htake : (descrReq (i, text)).take 544 = descrReq (i, text) := mreqBytes_take hi hl'
  obtain ⟨pad, nm, hp, hnm, hlen, hr⟩ := reqOf_asks hask (List.replicate (544 - (descrReq (i, text)).length) 0)
  have hbuf : (text ++ [0] ++ List.replicate (544 - (descrReq (i, text)).length) 0 : Bytes).length = 512 := by
    rw [List.length_append, List.length_replicate, hlen]; omega
  have hcond : ¬ ((descrReq (i, text)).length < REQ_MIN ∨ (descrReq (i, text)).length ≠ reqLen (text ++ [(0 : UInt8)]).length) := by
    rw [reqLen_small hl']
    unfold REQ_MIN
    omega
  suffices hmain : ∃ b, bsdParentReq c (descrEnv ifName d) s (descrReq (i, text)) = .ok (s, b, (ifName i).toList.map fun n => (n, text ++ [0])) ∧
      ∃ out, Asks b 2 i out by
    obtain ⟨b, e, out, hb⟩ := hmain
    obtain ⟨r, e2, -⟩ := mreqReply_asks hb
    unfold bsdServe
    rw [e]
    simp only [Res.bind_ok]
    rw [e2]
    rfl
  unfold bsdParentReq
  rw [recvInto_eq]
  unfold REQ_MAX
  rw [htake]
  dsimp only
  rw [hr]
  dsimp only
  rw [if_neg hcond]
  rw [show (descrEnv ifName d).base.ifName = ifName from rfl]
  cases hn : ifName i with
  | none =>
    dsimp only
    obtain ⟨b, e, hb⟩ := reply_asks (op := UInt8.ofNat 2) (pad := pad) (name := nm) (i := i) (len := 0)
      (buf := text ++ [0] ++ List.replicate (544 - (descrReq (i, text)).length) 0) hp hnm hi hbuf (by omega)
    refine ⟨b, ?_, _, hb⟩
    simp only [Res.bind_eq, Res.pure_eq]
    rw [e]
    rfl
  | some name =>
    dsimp only
    have hname := h i name hn
    obtain ⟨nm', en, -, ln⟩ := wr_some (m := nm) (p := 0) (v := name ++ [0]) (by rw [List.length_append, List.length_singleton]; omega)
    simp only [Res.bind_eq, Res.pure_eq]
    rw [en]
    simp only [Res.bind_ok]
    rw [if_neg (by
      unfold bsdParentCheck
      dsimp only
      rw [Bool.not_eq_true', Bool.eq_false_iff]
      simp only [ne_eq, Classical.not_not]
      simp only [Bool.and_eq_true, decide_eq_true_eq]
      refine ⟨⟨?_, by decide⟩, ?_⟩
      · omega
      · rw [if_neg (by decide), if_neg (by decide), if_pos (by decide), decide_eq_true_eq, List.length_append, List.length_singleton]
        omega)]
    obtain ⟨buf', eb, vb, lb⟩ := wr_some (m := text ++ [0] ++ List.replicate (544 - (descrReq (i, text)).length) 0) (p := 64) (v := [(0 : UInt8)])
      (by rw [hbuf]; decide)
    have htk : buf'.take (text ++ [(0 : UInt8)]).length = text ++ [0] := by
      have h64 : (text ++ [(0 : UInt8)]).length ≤ 64 := by rw [List.length_append, List.length_singleton]; omega
      generalize hm : (text ++ [0] ++ List.replicate (544 - (descrReq (i, text)).length) 0 : Bytes) = m at vb hbuf
      have h1 : (text ++ [(0 : UInt8)]).length ≤ (m.take 64).length := by rw [List.length_take, hbuf]; omega
      rw [vb, List.append_assoc, List.take_append_of_le_length h1, List.take_take, Nat.min_eq_left h64, ← hm, List.take_left' rfl]
    unfold bsdParentOp
    dsimp only
    rw [if_neg (by decide), if_neg (by decide), if_pos (by decide)]
    unfold bsdParentDescr
    simp only [Res.bind_eq, Res.pure_eq]
    rw [eb]
    simp only [Res.bind_ok]
    rw [htk]
    generalize hg : (if (descrEnv ifName d).setDescr (name.take 15) (text ++ [0]) = true then (text ++ [(0 : UInt8)]).length else 0) = g
    have hg' : g ≤ 512 := by rw [← hg]; split <;> omega
    obtain ⟨b, e, hb⟩ := reply_asks (op := UInt8.ofNat 2) (pad := pad) (name := nm') (i := i) (len := g) (buf := buf')
        hp (by omega) hi (by omega) hg'
    refine ⟨b, ?_, _, hb⟩
    rw [e, List.take_of_length_le hname]
    rfl

/-- The requests about one interface. -/
theorem bsdServedAll_eq (c : Conf) {ifName : Nat → Option Bytes} (h : NamesOk ifName) (R : List (Nat × Bytes)) : ∀ (d : Descrs),
    (∀ r ∈ R, r.1 < 2 ^ 32 ∧ r.2.length ≤ 63 ∧ (0 : UInt8) ∉ r.2) →
    ∃ d', bsdServedAll c ifName R d = .ok d' ∧ (∀ n, (∀ r ∈ R, ifName r.1 ≠ some n) → d' n = d n) ∧
      ∀ i n t, ifName i = some n → (∀ r ∈ R, r.1 = i → r.2 = t) → d' n = if (i, t) ∈ R then (d n).map (fun _ => some t) else d n := by
  induction R with
  | nil =>
    intro d _
    exact ⟨d, rfl, fun _ _ => rfl, fun i n t _ _ => by rw [if_neg (by nofun)]⟩
  | cons r R ih =>
    intro d hr
    obtain ⟨r1, r2, r3⟩ := hr r (by simp)
    obtain ⟨d', ha, hother, hmine⟩ := ih (((ifName r.1).toList.map fun n => (n, r.2 ++ [0])).foldl descrEffect d) (fun x hx => hr x (by simp [hx]))
    have hstep : ∀ n, ((ifName r.1).toList.map fun n => (n, r.2 ++ [0])).foldl descrEffect d n =
        if ifName r.1 = some n then (d n).map (fun _ => some r.2) else d n := by
      intro n
      cases e : ifName r.1 with
      | none => rw [if_neg (by nofun)]; rfl
      | some m =>
        show (if n = m then (d n).map (fun old => (descrArg (r.2 ++ [0])).getD old) else d n) = _
        rw [descrArg_text r2 r3]
        by_cases hm : m = n
        · subst hm; rw [if_pos rfl, if_pos rfl]; rfl
        · rw [if_neg (fun hc => hm hc.symm), if_neg (by simpa using hm)]
    refine ⟨d', ?_, ?_, ?_⟩
    · rw [bsdServedAll, show r = (r.1, r.2) from rfl, bsdServe_eq c h.short d {} r1 r2, Res.bind_ok]
      exact ha
    · intro n hn
      rw [hother n (fun x hx => hn x (by simp [hx])), hstep, if_neg (hn r (by simp))]
    · intro i n t hi ht
      rw [hmine i n t hi (fun x hx => ht x (by simp [hx])), hstep]
      by_cases hri : r.1 = i
      · have hrt : r.2 = t := ht r (by simp) hri
        have hr' : r = (i, t) := by rw [← hri, ← hrt]
        rw [hri, hi, if_pos rfl, hrt, if_pos (show (i, t) ∈ r :: R by rw [hr']; simp)]
        split
        · rw [Option.map_map]
          rfl
        · rfl
      · have hne : ifName r.1 ≠ some n := fun hc => hri (h.inj _ _ _ hc hi)
        rw [if_neg hne]
        have : (i, t) ∈ r :: R ↔ (i, t) ∈ R := by
          rw [List.mem_cons]
          constructor
          · rintro (hc | hc)
            · exact absurd (by rw [← hc]) hri
            · exact hc
          · exact Or.inr
        by_cases hm : (i, t) ∈ R
        · rw [if_pos hm, if_pos (this.mpr hm)]
        · rw [if_neg hm, if_neg (fun hc => hm (this.mp hc))]

/-! ## Histories -/

theorem bDescribedStep_ok {c : Conf} {ifName : Nat → Option Bytes} {s s' : BDescribed} {op : ChildOp} (h : bDescribedStep c ifName s (.child op) = .ok s') :
    childStep c.opts s.child (withDescrs s.descr op) = .ok s'.child ∧
      bsdServedAll c ifName (s'.child.out.drop s.child.out.length) s.descr = .ok s'.descr := by
  rw [bDescribedStep] at h
  cases e : childStep c.opts s.child (withDescrs s.descr op) with
  | ok ch =>
    rw [e, Res.bind_ok] at h
    cases e2 : bsdServedAll c ifName (ch.out.drop s.child.out.length) s.descr with
    | ok d =>
      rw [e2, Res.bind_ok] at h
      injection h with h
      subst h
      exact ⟨rfl, e2⟩
    | fail => rw [e2] at h; cases h
    | oob => rw [e2] at h; cases h
    | abort => rw [e2] at h; cases h
    | stuck => rw [e2] at h; cases h
  | fail => rw [e] at h; cases h
  | oob => rw [e] at h; cases h
  | abort => rw [e] at h; cases h
  | stuck => rw [e] at h; cases h

theorem bDescribedRun_append (c : Conf) (ifName : Nat → Option Bytes) (a b : List BOp) : ∀ s : BDescribed,
    bDescribedRun c ifName (a ++ b) s = (bDescribedRun c ifName a s).bind (bDescribedRun c ifName b) := by
  induction a with
  | nil => intro s; rfl
  | cons x a ih =>
    intro s
    rw [List.cons_append, bDescribedRun, bDescribedRun]
    cases bDescribedStep c ifName s x with
    | ok s1 => simp only [Res.bind_ok]; exact ih s1
    | fail => rfl
    | oob => rfl
    | abort => rfl
    | stuck => rfl

theorem Spec.BLives.before {c : Conf} {ifName : Nat → Option Bytes} {s0 s : BDescribed} {ops : List BOp} {op : BOp} (h : BLives c ifName s0 (ops ++ [op]) s) :
    ∃ s1, BLives c ifName s0 ops s1 ∧ BOpOk ifName op ∧ bDescribedStep c ifName s1 op = .ok s := by
  have hr := h.run
  rw [bDescribedRun_append] at hr
  cases h1 : bDescribedRun c ifName ops s0 with
  | ok s1 =>
    rw [h1, Res.bind_ok, bDescribedRun] at hr
    refine ⟨s1, ⟨h.names, h.start, fun x hx => h.each x (by simp [hx]), h1⟩, h.each op (by simp), ?_⟩
    cases h2 : bDescribedStep c ifName s1 op with
    | ok s2 => rw [h2, Res.bind_ok] at hr; exact hr
    | fail => rw [h2] at hr; cases hr
    | oob => rw [h2] at hr; cases hr
    | abort => rw [h2] at hr; cases hr
    | stuck => rw [h2] at hr; cases hr
  | fail => rw [h1] at hr; cases hr
  | oob => rw [h1] at hr; cases hr
  | abort => rw [h1] at hr; cases hr
  | stuck => rw [h1] at hr; cases hr

theorem blives_unique {c : Conf} {ifName : Nat → Option Bytes} {s0 s s' : BDescribed} {ops : List BOp} (h : BLives c ifName s0 ops s)
    (h' : BLives c ifName s0 ops s') : s = s' := by
  have a := h.run
  rw [h'.run] at a
  injection a with a
  exact a.symm

/-- Induction over histories. -/
theorem blives_induction {c : Conf} {ifName : Nat → Option Bytes} {s0 : BDescribed} {P : List BOp → BDescribed → Prop} (h0 : P [] s0)
    (hs : ∀ ops op s1 s, BLives c ifName s0 ops s1 → BOpOk ifName op → bDescribedStep c ifName s1 op = .ok s → P ops s1 → P (ops ++ [op]) s) :
    ∀ (n : Nat) (ops : List BOp) (s : BDescribed), ops.length = n → BLives c ifName s0 ops s → P ops s := by
  intro n
  induction n with
  | zero =>
    intro ops s hn h
    have : ops = [] := List.eq_nil_of_length_eq_zero hn
    subst this
    have := h.run
    injection this with this
    subst this
    exact h0
  | succ n ih =>
    intro ops s hn h
    rcases List.eq_nil_or_concat ops with rfl | ⟨pre, op, rfl⟩
    · cases hn
    · rw [List.concat_eq_append] at hn h ⊢
      rw [List.length_append, List.length_singleton] at hn
      obtain ⟨s1, h1, hok, hst⟩ := h.before
      exact hs pre op s1 s h1 hok hst (ih pre s1 (by omega) h1)

/-- The child of a history. -/
theorem blives_child {c : Conf} {ifName : Nat → Option Bytes} {s0 s : BDescribed} {ops : List BOp} (h : BLives c ifName s0 ops s) :
    ∃ cops, childRun c.opts {} cops = .ok s.child ∧ ∀ x ∈ cops, ∃ op ∈ ops, ∃ y d, op = .child y ∧ x = withDescrs d y := by
  refine blives_induction (P := fun ops s => ∃ cops, childRun c.opts {} cops = .ok s.child ∧ ∀ x ∈ cops, ∃ op ∈ ops, ∃ y d, op = .child y ∧ x = withDescrs d y)
    ?_ ?_ _ ops s rfl h
  · exact ⟨[], by rw [h.start]; rfl, fun _ hx => nomatch hx⟩
  · intro ops op s1 s _ _ hst ⟨cops, hr, hf⟩
    cases op with
    | admin name new =>
      injection hst with hst
      subst hst
      exact ⟨cops, hr, fun x hx => by
        obtain ⟨op, ho, y⟩ := hf x hx
        exact ⟨op, by simp [ho], y⟩⟩
    | child op =>
      obtain ⟨h1, -⟩ := bDescribedStep_ok hst
      refine ⟨cops ++ [withDescrs s1.descr op], ?_, ?_⟩
      · rw [childRun_append, hr, Res.bind_ok, childRun, h1]
        rfl
      · intro x hx
        rcases List.mem_append.mp hx with hx | hx
        · obtain ⟨op, ho, y⟩ := hf x hx
          exact ⟨op, by simp [ho], y⟩
        · exact ⟨.child op, by simp, op, s1.descr, rfl, List.mem_singleton.mp hx⟩

theorem withDescrs_recv {d : Descrs} {y : ChildOp} {now : Option Int} {r : RawMsg} (h : ChildOp.recv now r = withDescrs d y) : y = .recv now r := by
  cases y with
  | fetch l => cases h
  | recv => exact h.symm
  | expire => cases h
  | accept => cases h
  | write => cases h

theorem Spec.BLives.safe {c : Conf} {ifName : Nat → Option Bytes} {s0 s : BDescribed} {ops : List BOp} (h : BLives c ifName s0 ops s) :
    ∀ x ∈ s.child.queue, Props.PeerSafe x.peer := by
  obtain ⟨cops, hr, hf⟩ := blives_child h
  have := (entries_run (P := Stored) (fun e i l h => ⟨⟨h.dec.msg, h.dec.len, h.dec.dec⟩, h.min⟩) (by
    intro st t r subif m hm ht
    obtain ⟨op, ho, y, d, rfl, hy⟩ := hf _ hm
    have hy := withDescrs_recv hy
    subst hy
    obtain ⟨hc, -⟩ := h.each _ ho
    obtain ⟨h1, h2⟩ := captured_size hc
    exact ⟨taken_decodes h1 (by omega) ht, by show 60 ≤ r.len.toNat; omega⟩) (by intro e he; cases he) (by intro e he; cases he) hr).1
  exact fun x hx => stored_safe (this x hx)

/-- The interfaces known to the daemon. -/
structure BGood (ifName : Nat → Option Bytes) (l : List Netif) : Prop where
  nodup : (l.map (·.index)).Nodup
  each : ∀ n ∈ l, n.index < 2 ^ 32 ∧ ifName n.index = some n.name

theorem bgood_bare {ifName : Nat → Option Bytes} {l l' : List Netif} (h : l'.map bare = l.map bare) (hg : BGood ifName l) : BGood ifName l' := by
  have e : ∀ l : List Netif, l.map (·.index) = (l.map bare).map (·.index) := by intro l; rw [List.map_map]; rfl
  refine ⟨by rw [e, h, ← e]; exact hg.nodup, ?_⟩
  intro n hn
  have : bare n ∈ l.map bare := by rw [← h]; exact List.mem_map_of_mem hn
  obtain ⟨y, hy, he⟩ := List.mem_map.mp this
  have h1 : y.index = n.index := (congrArg (fun x : Netif => x.index) he :)
  have h2 : y.name = n.name := (congrArg (fun x : Netif => x.name) he :)
  rw [← h1, ← h2]
  exact hg.each y hy

theorem withDescrs_fetch {d : Descrs} {op : ChildOp} (h : ∀ l, op ≠ .fetch l) : withDescrs d op = op := by
  cases op with
  | fetch l => exact absurd rfl (h l)
  | recv => rfl
  | expire => rfl
  | accept => rfl
  | write => rfl

theorem Spec.BLives.good {c : Conf} {ifName : Nat → Option Bytes} {s0 s : BDescribed} {ops : List BOp} (h : BLives c ifName s0 ops s) :
    BGood ifName s.child.netifs := by
  refine blives_induction (P := fun _ s => BGood ifName s.child.netifs) ?_ ?_ _ ops s rfl h
  · rw [h.start]; exact ⟨List.nodup_nil, by intro e he; cases he⟩
  · intro ops op s1 s _ hok hst hg
    cases op with
    | admin name new =>
      injection hst with hst
      subst hst
      exact hg
    | child op =>
      obtain ⟨h1, -⟩ := bDescribedStep_ok hst
      cases op with
      | fetch l =>
        injection h1 with h1
        rw [← h1]
        obtain ⟨k1, k2⟩ := hok
        refine ⟨?_, ?_⟩
        · dsimp only
          rw [List.map_map]
          exact k1
        · intro n hn
          obtain ⟨y, hy, rfl⟩ := List.mem_map.mp hn
          exact k2 y hy
      | recv now r => exact bgood_bare (child_bare (by nofun) h1) hg
      | expire now => exact bgood_bare (child_bare (by nofun) h1) hg
      | accept => exact bgood_bare (child_bare (by nofun) h1) hg
      | write sid ws => exact bgood_bare (child_bare (by nofun) h1) hg

/-- What an operation of the daemon does to the descriptions. -/
theorem bdescribed_core {c : Conf} {ifName : Nat → Option Bytes} (hn : NamesOk ifName) {s : BDescribed} {ch : Child} {op : ChildOp}
    (hg : BGood ifName ch.netifs) (hq : ∀ x ∈ ch.queue, Props.PeerSafe x.peer) (hc : BOpOk ifName (.child op))
    (h : childStep c.opts s.child (withDescrs s.descr op) = .ok ch) :
    ∃ R d', bDescribedStep c ifName s (.child op) = .ok ⟨ch, d'⟩ ∧
      Asked c.opts ch.queue ch.netifs (fun i => BHears s ⟨ch, d'⟩ (.child op) i ∨ TextChanges c.opts s.child.queue ch.queue i) R ∧
      (∀ n, (∀ r ∈ R, ifName r.1 ≠ some n) → d' n = s.descr n) ∧
      ∀ i n, ifName i = some n → d' n = if (i, descrText c.opts i ch.queue) ∈ R
        then (s.descr n).map (fun _ => some (descrText c.opts i ch.queue)) else s.descr n := by
  obtain ⟨R, ho, ha⟩ := child_out (by
    intro now r he
    have := withDescrs_recv he.symm
    subst this
    exact hc.2) h
  obtain ⟨d', e1, e2, e3⟩ := bsdServedAll_eq c hn R s.descr (by
    intro r hr
    obtain ⟨n, hn, ht, -⟩ := ha.only r hr
    rw [ht]
    refine ⟨?_, descrText_length _ _ _, descrText_nul _ _ hq⟩
    rw [← byIndex_index hn]
    exact (hg.each n (byIndex_mem hn)).1)
  refine ⟨R, d', ?_, ?_, e2, ?_⟩
  · rw [bDescribedStep, h, Res.bind_ok, ho, List.drop_left, e1, Res.bind_ok]
  · refine ha.congr (fun _ => rfl) ?_
    intro i _ hi
    rcases hi with ⟨now, r, he, hi, hne⟩ | hi
    · injection he with he
      subst he
      exact Or.inl ⟨now, r, rfl, hi, hne⟩
    · exact Or.inr hi
  · intro i n hi
    refine e3 i n _ hi ?_
    intro r hr hri
    obtain ⟨_, -, ht, -⟩ := ha.only r hr
    rw [ht, hri]

end Ladvd
