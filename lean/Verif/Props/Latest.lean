import Verif.Spec.Latest
import Verif.Lemmas.Alias
import Verif.Props.Network
/-!
# C80: the table holds the latest valid advertisement of every neighbour
-/

namespace Ladvd.Props

open Spec

theorem lookup_some {q : List Entry} (hn : (q.map neighbour).Nodup) (k : Key) (i : Info) :
    lookup q k = some i ↔ ∃ e ∈ q, neighbour e = k ∧ info e = i := by
  unfold lookup
  rw [Option.map_eq_some_iff]
  constructor
  · rintro ⟨e, he, hi⟩
    exact ⟨e, List.mem_of_find?_eq_some he, by simpa using List.find?_some he, hi⟩
  · rintro ⟨e, he, hk, hi⟩
    refine ⟨e, ?_, hi⟩
    induction q with
    | nil => cases he
    | cons a q ih =>
      rw [List.map_cons, List.nodup_cons] at hn
      rw [List.find?_cons]
      rcases List.mem_cons.mp he with rfl | hm
      · rw [hk, beq_self_eq_true]
      · have : (neighbour a == k) = false := by
          rw [beq_eq_false_iff_ne]
          intro hc
          exact hn.1 (by rw [hc, ← hk]; exact List.mem_map_of_mem hm)
        rw [this]
        exact ih hn.2 hm

theorem unexpired_some {now : Int} {i : Option Info} {x : Info} : unexpired now i = some x ↔ i = some x ∧ now ≤ x.received + x.ttl := by
  unfold unexpired
  rw [Option.filter_eq_some_iff, decide_eq_true_eq]

theorem unexpired_ext {now : Int} {i j : Option Info} (h : ∀ x, now ≤ x.received + x.ttl → (i = some x ↔ j = some x)) : unexpired now i = unexpired now j := by
  apply Option.ext
  intro x
  rw [unexpired_some, unexpired_some]
  constructor
  · rintro ⟨a, b⟩; exact ⟨(h x b).mp a, b⟩
  · rintro ⟨a, b⟩; exact ⟨(h x b).mpr a, b⟩

/-- Expiry at a time not later than `now` does not change what is valid at `now`. -/
theorem unexpired_keeps {q : List Entry} (hn : (q.map neighbour).Nodup) {t now : Int} (ht : t ≤ now) (k : Key) :
    unexpired now (lookup (q.filter (keeps t)) k) = unexpired now (lookup q k) := by
  refine unexpired_ext fun x hx => ?_
  rw [lookup_some hn, lookup_some (hn.sublist (List.filter_sublist.map _))]
  constructor
  · rintro ⟨e, he, h⟩
    exact ⟨e, (List.mem_filter.mp he).1, h⟩
  · rintro ⟨e, he, hk, rfl⟩
    refine ⟨e, List.mem_filter.mpr ⟨he, ?_⟩, hk, rfl⟩
    unfold keeps
    rw [Bool.or_eq_true, decide_eq_true_eq]
    left
    have : now ≤ e.received + e.ttl := hx
    omega

theorem lookup_lock {q q' : List Entry} (h : q'.map (fun e => { e with lock := 0 }) = q.map (fun e => { e with lock := 0 })) (k : Key) :
    lookup q' k = lookup q k := by
  have : ∀ q : List Entry, lookup q k = lookup (q.map (fun e => { e with lock := 0 })) k := by
    intro q
    unfold lookup
    rw [List.find?_map, Option.map_map]
    rfl
  rw [this q', h, ← this q]

theorem offer_iff {st : Child} {t : Int} {r : RawMsg} {k : Key} {i : Info} :
    offer st.netifs t r = some (k, i) ↔ ∃ subif m, Taken st t r subif m ∧ k = (r.index, m.proto, r.msg.take 6, (r.msg.drop 6).take 6) ∧
      i = ⟨subif.name, t, m.ttl, r.msg.take r.len.toNat, m.peer⟩ := by
  unfold offer
  constructor
  · intro h
    split at h
    · next hc =>
      split at h
      · next n p hn hp =>
        split at h
        · next m len hd =>
          split at h
          · cases h
          · next hl =>
            injection h with h
            injection h with h1 h2
            exact ⟨n, m, ⟨⟨by simp only [PARENT_MSG_MIN]; omega, by simp only [PARENT_MSG_MIN]; omega⟩, ⟨p, len, hp, hd, hl⟩, by simp only [ETHER_MAX_LEN]; omega,
              hn, hc.2.2.2⟩, h1.symm, h2.symm⟩
        · cases h
      · cases h
    · cases h
  · rintro ⟨n, m, ht, rfl, rfl⟩
    obtain ⟨p, len, hp, hd, hl⟩ := ht.proto
    have h1 := ht.size
    have h2 := ht.len
    have h3 : st.netifs.find? (fun n => n.index == r.index) = some n := ht.known
    simp only [PARENT_MSG_MIN, ETHER_MAX_LEN] at h1 h2
    rw [if_pos ⟨by omega, by omega, by omega, ht.foreign⟩, h3, hp]
    dsimp only
    rw [hd]
    dsimp only
    rw [if_neg hl]

/-- Only index, name and address of the interfaces matter. -/
theorem offer_bare {l l' : List Netif} (h : l'.map bare = l.map bare) (t : Int) (r : RawMsg) : offer l' t r = offer l t r := by
  have key : ∀ l : List Netif, offer l t r = offer (l.map bare) t r := by
    intro l
    unfold offer
    rw [List.find?_map]
    have hf : ((fun n : Netif => n.index == r.index) ∘ bare) = fun n : Netif => n.index == r.index := rfl
    have hc : ((r.size : Int) = 40 + r.len ∧ 0 ≤ r.len ∧ r.len ≤ 1518 ∧ ∀ n ∈ l, n.hwaddr ≠ (r.msg.drop 6).take 6) ↔
        ((r.size : Int) = 40 + r.len ∧ 0 ≤ r.len ∧ r.len ≤ 1518 ∧ ∀ n ∈ l.map bare, n.hwaddr ≠ (r.msg.drop 6).take 6) := by
      rw [List.forall_mem_map]
      exact Iff.rfl
    rw [hf]
    simp only [hc]
    cases l.find? (fun n : Netif => n.index == r.index) with
    | none => rfl
    | some n => cases Proto.ofNum r.proto <;> rfl
  rw [key l', h, ← key l]

theorem learnt_bare {l l' : List Netif} (h : l'.map bare = l.map bare) (k : Key) (t : Option Int) (r : RawMsg) (i : Option Info) :
    learnt k l' t r i = learnt k l t r i := by
  unfold learnt
  cases t with
  | none => rfl
  | some t => rw [Option.bind_some, Option.bind_some, offer_bare h]

theorem learnt_unexpired {now : Int} {i j : Option Info} (h : unexpired now i = unexpired now j) (k : Key) (l : List Netif) (t : Option Int) (r : RawMsg) :
    unexpired now (learnt k l t r i) = unexpired now (learnt k l t r j) := by
  unfold learnt
  split
  · split
    · rfl
    · exact h
  · exact h

/-- What an event adds. -/
def learntBy (k : Key) (l : List Netif) : ChildOp → Option Info → Option Info
  | .recv t r, i => learnt k l t r i
  | _, i => i

/-- One event. -/
theorem latest_step {o : Opts} {st st' : Child} {op : ChildOp} {now : Int} (hi : Inv st) (hu : Until now op) (h : childStep o st op = .ok st') (k : Key) :
    unexpired now (lookup st'.queue k) =
      unexpired now (learntBy k st.netifs op (lookup st.queue k)) := by
  cases op with
  | recv t r =>
    show _ = unexpired now (learnt k st.netifs t r (lookup st.queue k))
    rcases childQueue_frame h with ⟨rfl, hno⟩ | ⟨t, subif, m, rfl, ht, hq, -⟩
    · unfold learnt
      cases t with
      | none => rfl
      | some t =>
        rw [Option.bind_some]
        cases ho : offer st'.netifs t r with
        | none => rfl
        | some x =>
          obtain ⟨k', i'⟩ := x
          obtain ⟨subif, m, ht, -⟩ := offer_iff.mp ho
          exact absurd ht (hno t subif m rfl)
    · have hoff := offer_iff.mpr ⟨subif, m, ht, rfl, rfl⟩
      unfold learnt
      rw [Option.bind_some, hoff, hq]
      dsimp only
      have hput : Inv { st with queue := queuePut st.queue (entryOf st t r subif m), nextId := st.nextId + 1 } :=
        inv_put hi (entryOf st t r subif m) rfl rfl rfl rfl rfl
      have hkey : neighbour (entryOf st t r subif m) = (r.index, m.proto, r.msg.take 6, (r.msg.drop 6).take 6) := rfl
      split
      · next h0 =>
        rw [unexpired_keeps hput.keys hu.2, lookup_put, hkey]
        by_cases hk : k = (r.index, m.proto, r.msg.take 6, (r.msg.drop 6).take 6)
        · rw [if_pos hk, if_pos hk.symm]
          refine unexpired_ext fun x hx => ⟨fun hc => ?_, fun hc => nomatch hc⟩
          exfalso
          injection hc with hc
          rw [← hc] at hx
          have h1 : now ≤ (entryOf st t r subif m).received + (entryOf st t r subif m).ttl := hx
          have h2 : (entryOf st t r subif m).received = r.received := by
            unfold entryOf
            dsimp only
            rw [if_neg (by simp [h0])]
          have h3 : (entryOf st t r subif m).ttl = 0 := h0
          rw [h2, h3] at h1
          have := hu.1
          have := hu.2
          omega
        · rw [if_neg hk, if_neg (fun hc => hk hc.symm)]
      · next h0 =>
        rw [lookup_put, hkey]
        by_cases hk : k = (r.index, m.proto, r.msg.take 6, (r.msg.drop 6).take 6)
        · rw [if_pos hk, if_pos hk.symm]
          unfold info entryOf
          dsimp only
          rw [if_pos h0]
        · rw [if_neg hk, if_neg (fun hc => hk hc.symm)]
  | expire t =>
    rw [(childExpire_frame h).1]
    exact unexpired_keeps hi.keys hu k
  | fetch l => cases h; rfl
  | accept => cases h; rfl
  | write sid ws =>
    rw [lookup_lock (cliWrite_still h).1]
    rfl

theorem latest_run {o : Opts} {now : Int} (k : Key) {ops : List ChildOp} : ∀ {st st' : Child} {l : List Netif} {i : Option Info}, Inv st →
    st.netifs.map bare = l.map bare → unexpired now (lookup st.queue k) = unexpired now i → (∀ op ∈ ops, Until now op) → childRun o st ops = .ok st' →
    unexpired now (lookup st'.queue k) = unexpired now (latest k ops l i) := by
  induction ops with
  | nil => intro st st' l i _ _ h _ hr; cases hr; exact h
  | cons op ops ih =>
    intro st st' l i hi hl h hu hr
    rw [childRun] at hr
    cases hs : childStep o st op with
    | ok s =>
      rw [hs] at hr
      have hu1 := hu op List.mem_cons_self
      have hu2 : ∀ x ∈ ops, Until now x := fun x hx => hu x (List.mem_cons_of_mem _ hx)
      have hi' := inv_step hi hs
      have hstep := latest_step hi hu1 hs k
      cases op with
      | recv t r =>
        refine ih hi' ((childQueue_bare hs).trans hl) ?_ hu2 hr
        rw [hstep, learntBy, learnt_bare hl]
        exact learnt_unexpired h k l t r
      | expire t => exact ih hi' ((childExpire_bare hs).trans hl) (hstep.trans h) hu2 hr
      | fetch l' => refine ih hi' ?_ (hstep.trans h) hu2 hr; cases hs; rfl
      | accept => refine ih hi' ?_ (hstep.trans h) hu2 hr; cases hs; exact hl
      | write sid ws =>
        refine ih hi' ?_ (hstep.trans h) hu2 hr
        rw [(cliWrite_origin hs).1]; exact hl
    | fail => rw [hs] at hr; cases hr
    | oob => rw [hs] at hr; cases hr
    | abort => rw [hs] at hr; cases hr
    | stuck => rw [hs] at hr; cases hr

theorem latest_still (k : Key) : ∀ (ops : List ChildOp) (l : List Netif) (i : Option Info), (∀ op ∈ ops, ∀ t r, op ≠ .recv t r) → latest k ops l i = i
  | [], _, _, _ => rfl
  | .fetch l' :: ops, l, i, h => by
    rw [latest]
    exact latest_still k ops l' i (fun op hop => h op (List.mem_cons_of_mem _ hop))
  | .expire t :: ops, l, i, h => by
    rw [latest]
    · exact latest_still k ops l i (fun op hop => h op (List.mem_cons_of_mem _ hop))
    all_goals nofun
  | .accept :: ops, l, i, h => by
    rw [latest]
    · exact latest_still k ops l i (fun op hop => h op (List.mem_cons_of_mem _ hop))
    all_goals nofun
  | .write sid ws :: ops, l, i, h => by
    rw [latest]
    · exact latest_still k ops l i (fun op hop => h op (List.mem_cons_of_mem _ hop))
    all_goals nofun
  | .recv t r :: ops, l, i, h => absurd rfl (h _ List.mem_cons_self t r)

/-- **C80**: after every history, what the table says about a neighbour, as far as its lifetime has not ended, is its latest advertisement. -/
theorem C80_table (o : Opts) (l : List Netif) (ops : List ChildOp) (st : Child) (h : childRun o { netifs := l } ops = .ok st) (now : Int)
    (hu : ∀ op ∈ ops, Until now op) (k : Key) : unexpired now (lookup st.queue k) = unexpired now (latest k ops l none) :=
  latest_run k (inv_init l) rfl rfl hu h

theorem latest_concerns (k : Key) : ∀ (ops : List ChildOp) (l : List Netif) (i : Option Info),
    latest k (ops.filter (concerns k)) l i = latest k ops l i
  | [], _, _ => rfl
  | .fetch l' :: ops, l, i => by
    rw [List.filter_cons_of_pos rfl, latest, latest]
    exact latest_concerns k ops l' i
  | .expire t :: ops, l, i => by
    rw [List.filter_cons_of_neg (by intro hc; cases hc), latest]
    · exact latest_concerns k ops l i
    all_goals nofun
  | .accept :: ops, l, i => by
    rw [List.filter_cons_of_neg (by intro hc; cases hc), latest]
    · exact latest_concerns k ops l i
    all_goals nofun
  | .write sid ws :: ops, l, i => by
    rw [List.filter_cons_of_neg (by intro hc; cases hc), latest]
    · exact latest_concerns k ops l i
    all_goals nofun
  | .recv t r :: ops, l, i => by
    rw [List.filter_cons]
    split
    · rw [latest, latest]
      exact latest_concerns k ops l _
    · next hc =>
      rw [latest, latest_concerns k ops l i]
      congr 1
      unfold learnt
      cases t with
      | none => rfl
      | some t =>
        rw [Option.bind_some]
        cases ho : offer l t r with
        | none => rfl
        | some x =>
          obtain ⟨k', i'⟩ := x
          obtain ⟨subif, m, -, hk, -⟩ := (offer_iff (st := { netifs := l })).mp ho
          dsimp only
          rw [if_neg]
          intro he
          subst he
          rw [hk] at hc
          exact hc (by unfold concerns; simp)

/-- Neighbours do not influence each other: two histories with the same frames of a neighbour and the same interfaces at each of them, whatever other neighbours send
and clients do, leave the same valid information about it. -/
theorem C80_alone (o o' : Opts) (l : List Netif) (ops ops' : List ChildOp) (k : Key) (hsame : ops.filter (concerns k) = ops'.filter (concerns k)) (st st' : Child)
    (h : childRun o { netifs := l } ops = .ok st) (h' : childRun o' { netifs := l } ops' = .ok st') (now : Int) (hu : ∀ op ∈ ops, Until now op)
    (hu' : ∀ op ∈ ops', Until now op) : unexpired now (lookup st.queue k) = unexpired now (lookup st'.queue k) := by
  rw [C80_table o l ops st h now hu, C80_table o' l ops' st' h' now hu', ← latest_concerns, hsame, latest_concerns]

/-- The same for the whole process with its rounds and link events. -/
theorem C80_daemon (c : Conf) (d0 d : Daemon) (h0 : d0.child = {}) (es : List Event) (h : daemonRun c es d0 = .ok d) (now : Int)
    (hu : ∀ e ∈ es, EventUntil now e) (k : Key) : unexpired now (lookup d.child.queue k) = unexpired now (daemonLatest c k es d0 none) := by
  have key : ∀ (es : List Event) (d d' : Daemon) (i : Option Info), Inv d.child → unexpired now (lookup d.child.queue k) = unexpired now i →
      (∀ e ∈ es, EventUntil now e) → daemonRun c es d = .ok d' → unexpired now (lookup d'.child.queue k) = unexpired now (daemonLatest c k es d i) := by
    intro es
    induction es with
    | nil => intro d d' i _ h _ hr; cases hr; exact h
    | cons e es ih =>
      intro d d' i hi h hu hr
      rw [daemonRun] at hr
      cases hs : daemonStep c d e with
      | ok d1 =>
        rw [hs] at hr
        rw [daemonLatest, hs]
        dsimp only
        obtain ⟨ops, hops, hof⟩ := step_ops hs
        refine ih d1 d' _ (inv_run hi hops) ?_ (fun x hx => hu x (List.mem_cons_of_mem _ hx)) hr
        have hu1 := hu e List.mem_cons_self
        have hrest : (∀ t r, e ≠ .recv t r) → unexpired now (lookup d1.child.queue k) = unexpired now i := by
          intro hne
          have hno : ∀ op ∈ ops, ∀ t r, op ≠ .recv t r := by
            rintro op hop t r rfl
            exact hne t r (hof _ hop)
          rw [latest_run k hi rfl h ?_ hops, latest_still k ops _ _ hno]
          intro op hop
          have := hof op hop
          cases op with
          | recv t r => exact absurd rfl (hno _ hop t r)
          | expire t =>
            obtain ⟨kk, m, rfl⟩ := this
            exact hu1
          | fetch l => trivial
          | accept => trivial
          | write sid ws => trivial
        cases e with
        | recv t r =>
          obtain ⟨ch, hch, rfl⟩ := lift_ok hs
          have hu2 : Until now (.recv t r) := by
            cases t with
            | none => trivial
            | some t => exact hu1
          have := latest_step hi hu2 hch k
          show _ = unexpired now (learnt k d.child.netifs t r i)
          rw [this]
          exact learnt_unexpired h k _ t r
        | timer => exact hrest (by nofun)
        | link => exact hrest (by nofun)
        | accept => exact hrest (by nofun)
        | write => exact hrest (by nofun)
      | fail => rw [hs] at hr; cases hr
      | oob => rw [hs] at hr; cases hr
      | abort => rw [hs] at hr; cases hr
      | stuck => rw [hs] at hr; cases hr
  exact key es d0 d none (by rw [h0]; exact inv_init []) (by rw [h0]; rfl) hu h


/-- What is displayed: a client that connects and reads everything displays exactly one row for every neighbour asked for whose latest advertisement is still valid, with
the data of that advertisement and the time it has left, and no other rows.  The table must not hold expired entries asked for: `C20_bleed` shows what they do. -/
theorem C80_shown (c : Conf) (d0 d : Daemon) (h0 : d0.child = {}) (es : List Event) (hc : ∀ e ∈ es, Captured e) (h : daemonRun c es d0 = .ok d) (q : Nat)
    (hq : d.child.queue.length ≤ q) :
    ∃ d', daemonRun c [.accept, .write d.child.nextId (some (List.replicate q .ok))] d = .ok d' ∧
    ∀ (cc : CliConf) (now : Int), cc.once = false → cc.mode ≠ .print → (∀ e ∈ es, EventUntil now e) →
      (∀ x ∈ d.child.queue, asked cc x = true → now - x.received ≤ x.ttl ∧ x.received ≤ now) →
    ∃ l, clientLoop cc now {} ((delivered d'.child d.child.nextId).map CliIn.ofEntry) = .ok l ∧
    ∃ rows : List (Key × Info), l.filterMap (·.2) = rows.map (row now) ∧ (rows.map (·.1)).Nodup ∧
      ∀ k i, (k, i) ∈ rows ↔ askedFor cc k = true ∧ unexpired now (daemonLatest c k es d0 none) = some i := by
  obtain ⟨ops, ho, -⟩ := run_ops h
  rw [h0] at ho
  have hinv := inv_run (inv_init []) ho
  obtain ⟨ch, hw⟩ : ∃ ch, cliWrite d.child.nextId (some (List.replicate q .ok)) (cliAccept d.child) = .ok ch := by
    rcases write_cases d.child.nextId (some (List.replicate q .ok)) (cliAccept d.child) with h | ⟨-, -, s, hsm, hsid, id, hid, -⟩
    · exact h
    · exfalso
      rcases List.mem_append.mp hsm with hsm | hsm
      · have := hinv.sidLt s hsm; omega
      · rw [List.mem_singleton.mp hsm] at hid; cases hid
  have hdel := C33_whole c.opts [] ops d.child ch ho q hq hw
  refine ⟨{ d with child := ch }, ?_, ?_⟩
  · show (daemonStep c d .accept).bind _ = _
    rw [show daemonStep c d .accept = .ok { d with child := cliAccept d.child } from rfl, Res.bind_ok, daemonRun]
    rw [show daemonStep c { d with child := cliAccept d.child } (.write d.child.nextId (some (List.replicate q .ok))) =
      .ok { d with child := ch } by rw [daemonStep, childStep, hw]; rfl]
    rfl
  intro cc now honce hmode hu hfresh
  rw [hdel]
  have hst := (stored_run h0 hc h).1
  refine ⟨_, clientLoop_stored honce hmode _ hst hfresh, (d.child.queue.filter (asked cc)).map (fun x => (neighbour x, info x)), ?_, ?_, ?_⟩
  · generalize d.child.queue = l
    rw [List.filterMap_map, List.map_map]
    induction l with
    | nil => rfl
    | cons e l ih =>
      rw [List.filterMap_cons, List.filter_cons]
      cases ha : asked cc e with
      | true => simp only [Function.comp_apply, ha, if_true, List.map_cons]; rw [ih]; rfl
      | false => simp only [Function.comp_apply, ha, Bool.false_eq_true, if_false]; rw [ih]
  · rw [List.map_map]
    exact hinv.keys.sublist (List.filter_sublist.map _)
  · intro k i
    rw [← C80_daemon c d0 d h0 es h now hu k]
    constructor
    · intro hm
      obtain ⟨x, hx, hxe⟩ := List.mem_map.mp hm
      obtain ⟨hx, ha⟩ := List.mem_filter.mp hx
      injection hxe with h1 h2
      subst h1 h2
      refine ⟨ha, ?_⟩
      rw [show lookup d.child.queue (neighbour x) = some (info x) from (lookup_some hinv.keys _ _).mpr ⟨x, hx, rfl, rfl⟩]
      have := hfresh x hx ha
      unfold unexpired
      rw [Option.filter_some, if_pos]
      rw [decide_eq_true_iff]
      show now ≤ x.received + x.ttl
      omega
    · rintro ⟨ha, hi⟩
      have hl : lookup d.child.queue k = some i := by
        unfold unexpired at hi
        exact (Option.filter_eq_some_iff.mp hi).1
      unfold lookup at hl
      cases hf : d.child.queue.find? (fun e => neighbour e == k) with
      | none => rw [hf] at hl; cases hl
      | some x =>
        rw [hf, Option.map_some] at hl
        have hx := List.mem_of_find?_eq_some hf
        have hk : neighbour x = k := by simpa using List.find?_some hf
        injection hl with hl
        subst hk hl
        exact List.mem_map.mpr ⟨x, List.mem_filter.mpr ⟨hx, ha⟩, rfl⟩

/-! ## Cases -/

/-- Two neighbours with the same address on two protocols, one of which says goodbye, and a third one; a client is connected, and an expiry run takes place.  At 250 the third one
is gone, as its lifetime has ended. -/
def latestOps : List ChildOp :=
  [.recv (some 100) (sampleCdp 1 120), .recv (some 101) (sampleMsg 1), .accept, .recv (some 102) (sampleCdp 2 30), .write 2 (some [.again]),
    .recv (some 110) (sampleCdp 1 180), .recv (some 111) (sampleCdp 3 60), .recv (some 112) (sampleCdp 3 0), .expire 120]

def latestEnd : Child := match childRun 0 sampleState latestOps with | .ok st => st | _ => {}

theorem latestOps_until : ∀ op ∈ latestOps, Until 250 op := by
  intro op hop
  unfold latestOps at hop
  simp only [List.mem_cons, List.not_mem_nil, or_false] at hop
  rcases hop with rfl | rfl | rfl | rfl | rfl | rfl | rfl | rfl | rfl <;> first | trivial | exact ⟨by decide, by decide⟩ | (show (_ : Int) ≤ _; decide)

def cdpKey (b : UInt8) : Key := (3, 1, [0x01, 0x00, 0x0c, 0xcc, 0xcc, 0xcc], [2, 0, 0, 0, 0, b])

example : childRun 0 { netifs := sampleState.netifs } latestOps = .ok latestEnd ∧ (∀ op ∈ latestOps, Until 250 op) ∧
    (unexpired 250 (lookup latestEnd.queue (cdpKey 1))).map (fun i => (i.received, i.ttl)) = some (110, 180) ∧
    (lookup latestEnd.queue (cdpKey 2)).isSome = true ∧ unexpired 250 (lookup latestEnd.queue (cdpKey 2)) = none ∧
    (latest (cdpKey 2) latestOps sampleState.netifs none).isSome = true ∧ lookup latestEnd.queue (cdpKey 3) = none :=
  ⟨by decide +kernel, latestOps_until, by decide +kernel, by decide +kernel, by decide +kernel, by decide +kernel, by decide +kernel⟩

/-- The frames of the first neighbour alone. -/
example : latestOps.filter (concerns (cdpKey 1)) = [ChildOp.recv (some 100) (sampleCdp 1 120), .recv (some 110) (sampleCdp 1 180)].filter (concerns (cdpKey 1)) ∧
    ([ChildOp.recv (some 100) (sampleCdp 1 120), .recv (some 110) (sampleCdp 1 180)].filter (concerns (cdpKey 1))).length = 2 := by decide +kernel

/-- The process with its rounds: two stations are heard, one of them twice. -/
def latestEvents : List Event := [.timer sampleKernel {} 0, ndpEvent 5 77, ndpEvent 6 78, ndpEvent 10 77, .timer sampleKernel {} 20]

def latestDaemon : Daemon := match daemonRun cRecv latestEvents dSys with | .ok d => d | _ => dSys

theorem latestEvents_captured : ∀ e ∈ latestEvents, Captured e := by
  intro e he
  unfold latestEvents at he
  simp only [List.mem_cons, List.not_mem_nil, or_false] at he
  rcases he with rfl | rfl | rfl | rfl | rfl
  · trivial
  · exact ndp_captured _ _ (Or.inl rfl)
  · exact ndp_captured _ _ (Or.inr rfl)
  · exact ndp_captured _ _ (Or.inl rfl)
  · trivial

theorem latestEvents_until : ∀ e ∈ latestEvents, EventUntil 30 e := by
  intro e he
  unfold latestEvents at he
  simp only [List.mem_cons, List.not_mem_nil, or_false] at he
  rcases he with rfl | rfl | rfl | rfl | rfl
  · show (_ : Int) ≤ _; decide
  · exact ⟨by decide, by decide⟩
  · exact ⟨by decide, by decide⟩
  · exact ⟨by decide, by decide⟩
  · show (_ : Int) ≤ _; decide

example : dSys.child = {} ∧ daemonRun cRecv latestEvents dSys = .ok latestDaemon ∧ (∀ e ∈ latestEvents, Captured e) ∧ (∀ e ∈ latestEvents, EventUntil 30 e) ∧
    latestDaemon.child.queue.length = 2 ∧
    (∀ x ∈ latestDaemon.child.queue, asked { protos := 255 } x = true → (30 : Int) - x.received ≤ x.ttl ∧ x.received ≤ 30) ∧
    (latestDaemon.child.queue.map (fun x => (x.received, x.ttl))) = [(10, 180), (6, 180)] :=
  ⟨by decide +kernel, by decide +kernel, latestEvents_captured, latestEvents_until, by decide +kernel, by decide +kernel, by decide +kernel⟩

end Ladvd.Props
