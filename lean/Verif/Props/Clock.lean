import Verif.Spec.Clock
import Verif.Props.Latest
import Verif.Props.Timer
import Verif.Lemmas.Report
/-!
# C93: what a clock that is set does to the table
-/

namespace Ladvd.Props

open Spec

/-- What became of `L`: it is in the table, or nothing is since it had expired at a reading in `S`. -/
def Still (S : Int → Prop) (q : List Entry) (k : Key) (L : Option Info) : Prop :=
  lookup q k = L ∨ (lookup q k = none ∧ ∃ x t, L = some x ∧ S t ∧ x.received + x.ttl < t)

theorem still_keeps {S : Int → Prop} {q : List Entry} (hn : (q.map neighbour).Nodup) {t : Int} (ht : S t) (k : Key) :
    Still S (q.filter (keeps t)) k (lookup q k) := by
  cases hf : lookup (q.filter (keeps t)) k with
  | some x =>
    left
    obtain ⟨e, he, h⟩ := (lookup_some (hn.sublist (List.filter_sublist.map _)) k x).mp hf
    rw [hf, (lookup_some hn k x).mpr ⟨e, (List.mem_filter.mp he).1, h⟩]
  | none =>
    cases hl : lookup q k with
    | none => exact .inl hf
    | some x =>
      refine .inr ⟨hf, x, t, rfl, ht, ?_⟩
      obtain ⟨e, he, hk, rfl⟩ := (lookup_some hn k x).mp hl
      by_cases hke : keeps t e = true
      · have := (lookup_some (hn.sublist (List.filter_sublist.map _)) k (info e)).mpr ⟨e, List.mem_filter.mpr ⟨he, hke⟩, hk, rfl⟩
        rw [hf] at this
        cases this
      · unfold keeps at hke
        rw [Bool.or_eq_true, decide_eq_true_eq, decide_eq_true_eq] at hke
        show e.received + (e.ttl : Int) < t
        have := fun hc => hke (.inl hc)
        omega

theorem still_trans {S : Int → Prop} {q q' : List Entry} {k : Key} {L : Option Info} (h1 : Still S q k L) (h2 : Still S q' k (lookup q k)) : Still S q' k L := by
  rcases h1 with h1 | ⟨h1, x, t, h3⟩
  · rwa [h1] at h2
  · rcases h2 with h2 | ⟨h2, -⟩
    · exact .inr ⟨h2.trans h1, x, t, h3⟩
    · exact .inr ⟨h2, x, t, h3⟩

theorem captured_received {now : Option Int} {r : RawMsg} (h : Captured (.recv now r)) : r.received = 0 := by
  obtain ⟨index, wire, ms, m, -, -, -, rfl⟩ := h
  rfl

theorem put_same {q : List Entry} (hn : (q.map neighbour).Nodup) {e x : Entry} (hx : x ∈ queuePut q e) (hk : neighbour x = neighbour e) :
    x = { e with id := x.id } := by
  rcases queuePut_cases q e with ⟨l1, o, l2, h1, h2, h3, h4⟩ | ⟨hno, l1, l2, h1, h2, -⟩
  · rw [h4] at hx
    rcases List.mem_append.mp hx with hx | hx
    · exact absurd hk (h3 x hx)
    · rcases List.mem_cons.mp hx with rfl | hx
      · rfl
      · exfalso
        rw [h1, List.map_append, List.map_cons, List.nodup_append] at hn
        exact (List.nodup_cons.mp hn.2.1).1 (by rw [h2, ← hk]; exact List.mem_map_of_mem hx)
  · rw [h2] at hx
    rcases List.mem_append.mp hx with hx | hx
    · exact absurd hk (hno x (by rw [h1]; exact List.mem_append_left _ hx))
    · rcases List.mem_cons.mp hx with rfl | hx
      · rfl
      · exact absurd hk (hno x (by rw [h1]; exact List.mem_append_right _ hx))

/-- One event of the table. -/
theorem still_step {o : Opts} {S : Int → Prop} {st st' : Child} {op : ChildOp} (hi : Inv st)
    (hu : match op with | .recv (some t) r => S t ∧ r.received < t | .expire t => S t | _ => True) (h : childStep o st op = .ok st') (k : Key) :
    Still S st'.queue k (learntBy k st.netifs op (lookup st.queue k)) := by
  cases op with
  | recv t r =>
    show Still S _ k (learnt k st.netifs t r (lookup st.queue k))
    rcases childQueue_frame h with ⟨rfl, hno⟩ | ⟨t, subif, m, rfl, ht, hq, -⟩
    · left
      unfold learnt
      cases t with
      | none => rfl
      | some t =>
        rw [Option.bind_some]
        cases ho : offer st'.netifs t r with
        | none => rfl
        | some x =>
          obtain ⟨k', i'⟩ := x
          obtain ⟨subif, m, ht, -⟩ := offer_iff.mp ho
          exact absurd ht (hno t subif m rfl)
    · have hoff := offer_iff.mpr ⟨subif, m, ht, rfl, rfl⟩
      unfold learnt
      rw [Option.bind_some, hoff, hq]
      dsimp only
      have hput : Inv { st with queue := queuePut st.queue (entryOf st t r subif m), nextId := st.nextId + 1 } :=
        inv_put hi (entryOf st t r subif m) rfl rfl rfl rfl rfl
      have hkey : neighbour (entryOf st t r subif m) = (r.index, m.proto, r.msg.take 6, (r.msg.drop 6).take 6) := rfl
      split
      · next h0 =>
        have hk2 := still_keeps hput.keys hu.1 k
        by_cases hk : k = (r.index, m.proto, r.msg.take 6, (r.msg.drop 6).take 6)
        · rw [if_pos hk.symm]
          left
          cases hf : lookup ((queuePut st.queue (entryOf st t r subif m)).filter (keeps t)) k with
          | none => rfl
          | some x =>
            exfalso
            obtain ⟨e, he, hek, -⟩ := (lookup_some (hput.keys.sublist (List.filter_sublist.map _)) k x).mp hf
            obtain ⟨he, hkeep⟩ := List.mem_filter.mp he
            have hsame := put_same hi.keys he (by rw [hek, hk, hkey])
            rw [hsame] at hkeep
            unfold keeps at hkeep
            rw [Bool.or_eq_true, decide_eq_true_eq, decide_eq_true_eq] at hkeep
            have h2 : (entryOf st t r subif m).received = r.received := by
              unfold entryOf
              dsimp only
              rw [if_neg (by simp [h0])]
            have h3 : (entryOf st t r subif m).ttl = 0 := h0
            rcases hkeep with hkeep | hkeep
            · rw [h2, h3] at hkeep
              have := hu.2
              omega
            · exact hkeep rfl
        · rw [if_neg (fun hc => hk hc.symm)]
          rw [lookup_put, hkey, if_neg hk] at hk2
          exact hk2
      · next h0 =>
        left
        rw [lookup_put, hkey]
        by_cases hk : k = (r.index, m.proto, r.msg.take 6, (r.msg.drop 6).take 6)
        · rw [if_pos hk, if_pos hk.symm]
          unfold info entryOf
          dsimp only
          rw [if_pos h0]
        · rw [if_neg hk, if_neg (fun hc => hk hc.symm)]
  | expire t =>
    rw [(childExpire_frame h).1]
    exact still_keeps hi.keys hu k
  | fetch l => cases h; exact .inl rfl
  | accept => cases h; exact .inl rfl
  | write sid ws => exact .inl (lookup_lock (cliWrite_still h).1 k)

theorem heardAt_snd (k : Key) (l : List Netif) (r : Int) (e : Event) (i : Option (Int × Info)) :
    (heardAt k l r e i).map (·.2) = learntAt k l e (i.map (·.2)) := by
  cases e with
  | recv t m =>
    cases t with
    | none => rfl
    | some t =>
      show Option.map _ (match offer l t m with | some (k', x) => _ | none => i) = learnt k l (some t) m (i.map (·.2))
      unfold learnt
      rw [Option.bind_some]
      cases offer l t m with
      | none => rfl
      | some y =>
        obtain ⟨k', x⟩ := y
        dsimp only
        split
        · split <;> rfl
        · rfl
  | timer => rfl
  | link => rfl
  | accept => rfl
  | write => rfl

theorem still_learnt {S : Int → Prop} {q : List Entry} {k : Key} {L : Option Info} (h : Still S q k L) (l : List Netif) (e : Event) {q' : List Entry}
    (h' : Still S q' k (learntAt k l e (lookup q k))) : Still S q' k (learntAt k l e L) := by
  rcases h with h | ⟨h1, x, t, hL, h3⟩
  · rwa [h] at h'
  · cases e with
    | recv u m =>
      show Still S q' k (learnt k l u m L)
      have h' : Still S q' k (learnt k l u m (lookup q k)) := h'
      unfold learnt at h' ⊢
      split at h'
      · next k' x' ho =>
        split at h'
        · next hk => rw [if_pos hk]; exact h'
        · next hk => rw [if_neg hk]; exact still_trans (.inr ⟨h1, x, t, hL, h3⟩) h'
      · exact still_trans (.inr ⟨h1, x, t, hL, h3⟩) h'
    | timer => exact still_trans (.inr ⟨h1, x, t, hL, h3⟩) h'
    | link => exact still_trans (.inr ⟨h1, x, t, hL, h3⟩) h'
    | accept => exact still_trans (.inr ⟨h1, x, t, hL, h3⟩) h'
    | write => exact still_trans (.inr ⟨h1, x, t, hL, h3⟩) h'

/-- One event of the process. -/
theorem still_event {c : Conf} {S : Int → Prop} {d d' : Daemon} {e : Event} (hi : Inv d.child) (hc : Captured e)
    (hu : ∀ t, reading e = some t → 0 < t ∧ S t) (h : daemonStep c d e = .ok d') (k : Key) :
    Still S d'.child.queue k (learntAt k d.child.netifs e (lookup d.child.queue k)) := by
  have hrest : (∀ t r, e ≠ .recv t r) → Still S d'.child.queue k (lookup d.child.queue k) := by
    intro hno
    obtain ⟨ops, ho, hf⟩ := step_ops h
    have key : ∀ (ops : List ChildOp) (st st' : Child), Inv st → (∀ op ∈ ops, OpOf e op) → childRun c.opts st ops = .ok st' →
        Still S st'.queue k (lookup st.queue k) := by
      intro ops
      induction ops with
      | nil => intro st st' _ _ hr; cases hr; exact .inl rfl
      | cons op ops ih =>
        intro st st' hi hf hr
        rw [childRun] at hr
        cases hs : childStep c.opts st op with
        | ok s =>
          rw [hs] at hr
          have hop := hf op List.mem_cons_self
          have h1 := still_step (S := S) hi (by
            cases op with
            | recv t r => exact absurd hop (hno t r)
            | expire t => obtain ⟨k', m, rfl⟩ := hop; exact (hu t rfl).2
            | fetch l => trivial
            | accept => trivial
            | write sid ws => trivial) hs k
          have h2 := ih s st' (inv_step hi hs) (fun x hx => hf x (List.mem_cons_of_mem _ hx)) hr
          cases op with
          | recv t r => exact absurd hop (hno t r)
          | expire t => exact still_trans h1 h2
          | fetch l => exact still_trans h1 h2
          | accept => exact still_trans h1 h2
          | write sid ws => exact still_trans h1 h2
        | fail => rw [hs] at hr; cases hr
        | oob => rw [hs] at hr; cases hr
        | abort => rw [hs] at hr; cases hr
        | stuck => rw [hs] at hr; cases hr
    exact key ops d.child d'.child hi hf ho
  cases e with
  | recv t r =>
    obtain ⟨ch, hch, rfl⟩ := lift_ok h
    refine still_step (op := .recv t r) hi ?_ hch k
    cases t with
    | none => trivial
    | some t => exact ⟨(hu t rfl).2, by rw [captured_received hc]; exact (hu t rfl).1⟩
  | timer => exact hrest (by nofun)
  | link => exact hrest (by nofun)
  | accept => exact hrest (by nofun)
  | write => exact hrest (by nofun)

theorem still_run {c : Conf} {S : Int → Prop} (k : Key) {h : List (Int × Event)} : ∀ {d d' : Daemon} {i : Option (Int × Info)}, Inv d.child →
    Still S d.child.queue k (i.map (·.2)) → (∀ x ∈ h, Captured x.2) → (∀ x ∈ h, ∀ t, reading x.2 = some t → 0 < t ∧ S t) →
    daemonRun c (h.map (·.2)) d = .ok d' → Inv d'.child ∧ Still S d'.child.queue k ((lastHeard c k h d i).map (·.2)) := by
  induction h with
  | nil => intro d d' i hi hs _ _ hr; cases hr; exact ⟨hi, hs⟩
  | cons y h ih =>
    obtain ⟨r, e⟩ := y
    intro d d' i hi hs hc hu hr
    rw [List.map_cons, daemonRun] at hr
    cases hstep : daemonStep c d e with
    | ok d1 =>
      rw [hstep] at hr
      obtain ⟨ops, ho, -⟩ := step_ops hstep
      rw [lastHeard, hstep]
      refine ih (inv_run hi ho) ?_ (fun x hx => hc x (List.mem_cons_of_mem _ hx)) (fun x hx => hu x (List.mem_cons_of_mem _ hx)) hr
      rw [heardAt_snd]
      exact still_learnt hs _ e (still_event hi (hc _ List.mem_cons_self) (hu _ List.mem_cons_self) hstep k)
    | fail => rw [hstep] at hr; cases hr
    | oob => rw [hstep] at hr; cases hr
    | abort => rw [hstep] at hr; cases hr
    | stuck => rw [hstep] at hr; cases hr

theorem offer_received {l : List Netif} {t : Int} {m : RawMsg} {k : Key} {x : Info} (h : offer l t m = some (k, x)) : x.received = t := by
  unfold offer at h
  split at h
  · split at h
    · split at h
      · split at h
        · cases h
        · cases h; rfl
      · cases h
    · cases h
  · cases h

theorem heard_near {c : Conf} {dev : Int} (k : Key) {h : List (Int × Event)} : ∀ {d : Daemon} {i : Option (Int × Info)}, Near dev h →
    (∀ r x, i = some (r, x) → r - dev ≤ x.received ∧ x.received ≤ r + dev) → ∀ r x, lastHeard c k h d i = some (r, x) → r - dev ≤ x.received ∧ x.received ≤ r + dev := by
  induction h with
  | nil => intro d i _ hi r x h; exact hi r x h
  | cons y h ih =>
    obtain ⟨r0, e⟩ := y
    intro d i hn hi r x hx
    rw [lastHeard] at hx
    have keep := fun {d'} => ih (d := d') (i := heardAt k d.child.netifs r0 e i) (fun x hx => hn x (List.mem_cons_of_mem _ hx)) (by
      intro r x hx
      cases e with
      | recv t m =>
        cases t with
        | none => exact hi r x hx
        | some t =>
          have hx : (match offer d.child.netifs t m with
            | some (k', x) => if k' = k then if x.ttl = 0 then none else some (r0, x) else i | none => i) = some (r, x) := hx
          split at hx
          · next k' x' ho =>
            split at hx
            · split at hx
              · cases hx
              · cases hx
                rw [offer_received ho]
                exact hn _ List.mem_cons_self t rfl
            · exact hi r x hx
          · exact hi r x hx
      | timer => exact hi r x hx
      | link => exact hi r x hx
      | accept => exact hi r x hx
      | write => exact hi r x hx) r x
    split at hx
    · exact keep hx
    · exact hi r x hx

theorem heard_past {c : Conf} {now : Int} (k : Key) {h : List (Int × Event)} : ∀ {d : Daemon} {i : Option (Int × Info)}, (∀ x ∈ h, x.1 ≤ now) →
    (∀ r x, i = some (r, x) → r ≤ now) → ∀ r x, lastHeard c k h d i = some (r, x) → r ≤ now := by
  induction h with
  | nil => intro d i _ hi r x h; exact hi r x h
  | cons y h ih =>
    obtain ⟨r0, e⟩ := y
    intro d i hn hi r x hx
    rw [lastHeard] at hx
    have keep := fun {d'} => ih (d := d') (i := heardAt k d.child.netifs r0 e i) (fun x hx => hn x (List.mem_cons_of_mem _ hx)) (by
      intro r x hx
      unfold heardAt at hx
      split at hx
      · split at hx
        · split at hx
          · split at hx
            · cases hx
            · cases hx; exact hn _ List.mem_cons_self
          · exact hi r x hx
        · exact hi r x hx
      · exact hi r x hx) r x
    split at hx
    · exact keep hx
    · exact hi r x hx

theorem shown_hold {c : CliConf} {now : Int} {st st' : CliSt} {e : CliIn} {texts : List Bytes} {s : Shown}
    (h : clientMsg c now st e = .ok (st', texts, some s)) : s.hold = ((s.ttl - (now - e.received)) % 65536).toNat := by
  rcases clientMsg_cases c now st e with ⟨_, h'⟩ | ⟨p, hs, hp, h'⟩
  · rw [h'] at h; cases h
  · rw [h'] at h
    split at h
    · cases h
    · cases h
    · cases h
    · cases h
    · split at h
      · cases h
      · unfold cliShow at h
        split at h
        · cases h
        · unfold rd at h
          split at h
          · cases h; rfl
          · cases h

/-- C93: However the clock is set, what the table says about a neighbour is its latest advertisement. -/
theorem C93_latest (c : Conf) (d0 d : Daemon) (h0 : d0.child = {}) (h : List (Int × Event)) (hc : ∀ x ∈ h, Captured x.2) (he : AfterEpoch h)
    (hr : daemonRun c (h.map (·.2)) d0 = .ok d) : ∀ k i, lookup d.child.queue k = some i → ∃ r, lastHeard c k h d0 none = some (r, i) := by
  intro k i hi
  rcases (still_run (S := fun _ => True) k (i := none) (by rw [h0]; exact inv_init []) (by rw [h0]; exact .inl rfl) hc
    (fun x hx t ht => ⟨he x hx t ht, trivial⟩) hr).2 with h1 | ⟨h1, -⟩
  · rw [hi] at h1
    obtain ⟨⟨r, x⟩, h2, rfl⟩ := Option.map_eq_some_iff.mp h1.symm
    exact ⟨r, h2⟩
  · rw [hi] at h1; cases h1

/-- C93: If the clock is never more than `dev` seconds off, a neighbour stays in the table for its lifetime but for twice `dev`. -/
theorem C93_kept (c : Conf) (d0 d : Daemon) (h0 : d0.child = {}) (h : List (Int × Event)) (hc : ∀ x ∈ h, Captured x.2) (he : AfterEpoch h) (dev : Int)
    (hn : Near dev h) (hr : daemonRun c (h.map (·.2)) d0 = .ok d) (now : Int) (hnow : ∀ x ∈ h, x.1 ≤ now) (k : Key) (r : Int) (i : Info)
    (hi : lastHeard c k h d0 none = some (r, i)) (hl : now + 2 * dev ≤ r + i.ttl) : lookup d.child.queue k = some i := by
  have h1 := heard_near k hn (by intro _ _ h; cases h) r i hi
  rcases (still_run (S := fun t => t ≤ now + dev) k (i := none) (by rw [h0]; exact inv_init []) (by rw [h0]; exact .inl rfl) hc
    (fun x hx t ht => ⟨he x hx t ht, by have := (hn x hx t ht).2; have := hnow x hx; omega⟩) hr).2 with h2 | ⟨h2, x, t, h3, h4, h5⟩
  · rw [h2, hi]; rfl
  · rw [hi] at h3
    cases h3
    dsimp only at h5
    omega

/-- C93: After a round, what is in the table was heard not longer ago than its lifetime and twice `dev`, unless a client is reading it. -/
theorem C93_round (c : Conf) (hrecv : c.opts.testBit 2 = true) (d0 d d' : Daemon) (h0 : d0.child = {}) (h : List (Int × Event)) (r : Int) (k : Kernel)
    (m : Media) (t : Int) (hc : ∀ x ∈ h, Captured x.2) (he : AfterEpoch (h ++ [(r, .timer k m t)])) (dev : Int) (hn : Near dev (h ++ [(r, .timer k m t)]))
    (hr : daemonRun c (h.map (·.2)) d0 = .ok d) (hr' : daemonStep c d (.timer k m t) = .ok d') :
    ∀ e ∈ d'.child.queue, e.lock = 0 → ∃ r0, lastHeard c (neighbour e) (h ++ [(r, .timer k m t)]) d0 none = some (r0, info e) ∧ r ≤ r0 + e.ttl + 2 * dev := by
  intro e hm hlock
  have hrun : daemonRun c ((h ++ [(r, Event.timer k m t)]).map (·.2)) d0 = .ok d' := by
    rw [List.map_append, daemonRun_append, hr, Res.bind_ok]
    show (daemonStep c d (.timer k m t)).bind _ = _
    rw [hr']
    rfl
  have hcap : ∀ x ∈ h ++ [(r, Event.timer k m t)], Captured x.2 := by
    intro x hx
    rcases List.mem_append.mp hx with hx | hx
    · exact hc x hx
    · rw [List.mem_singleton.mp hx]; trivial
  have hinv := (still_run (S := fun _ => True) (neighbour e) (i := none) (by rw [h0]; exact inv_init []) (by rw [h0]; exact .inl rfl) hcap
    (fun x hx t ht => ⟨he x hx t ht, trivial⟩) hrun).1
  obtain ⟨r0, h1⟩ := C93_latest c d0 d' h0 _ hcap he hrun (neighbour e) (info e) ((lookup_some hinv.keys _ _).mpr ⟨e, hm, rfl, rfl⟩)
  refine ⟨r0, h1, ?_⟩
  have h2 : e.received ≤ r0 + dev := (heard_near _ hn (by intro _ _ h; cases h) r0 _ h1).2
  have h3 := (hn (r, .timer k m t) (List.mem_append_right _ (List.mem_singleton.mpr rfl)) t rfl).1
  rcases timer_keeps hrecv hr' e hm with h4 | h4
  · dsimp only at h3
    omega
  · exact absurd hlock h4

/-- C93: The hold time shown by a client, whatever it has shown before, is the time the neighbour has left, but for twice `dev`.  What is missing: lifetimes so
long that they leave the 16 bits of the hold time together with twice `dev` (`C93_wraps`). -/
theorem C93_shown_partial (c : Conf) (d0 d : Daemon) (h0 : d0.child = {}) (h : List (Int × Event)) (hc : ∀ x ∈ h, Captured x.2) (he : AfterEpoch h) (dev : Int)
    (hn : Near dev h) (hr : daemonRun c (h.map (·.2)) d0 = .ok d) (now t : Int) (hnow : ∀ x ∈ h, x.1 ≤ now) (ht : now - dev ≤ t ∧ t ≤ now + dev)
    (cc : CliConf) (st st' : CliSt) (texts : List Bytes) (s : Shown) (e : Entry) (hm : e ∈ d.child.queue)
    (hs : clientMsg cc t st (CliIn.ofEntry e) = .ok (st', texts, some s)) (hb : e.ttl + 2 * dev < 65536) :
    s.ttl = e.ttl ∧ ∃ r0, lastHeard c (neighbour e) h d0 none = some (r0, info e) ∧ r0 + e.ttl - now - 2 * dev ≤ s.hold ∧ s.hold ≤ r0 + e.ttl - now + 2 * dev := by
  have hinv := (still_run (S := fun _ => True) (neighbour e) (i := none) (by rw [h0]; exact inv_init []) (by rw [h0]; exact .inl rfl) hc
    (fun x hx t ht => ⟨he x hx t ht, trivial⟩) hr).1
  obtain ⟨r0, h1⟩ := C93_latest c d0 d h0 _ hc he hr (neighbour e) (info e) ((lookup_some hinv.keys _ _).mpr ⟨e, hm, rfl, rfl⟩)
  obtain ⟨h2, h3⟩ : r0 - dev ≤ e.received ∧ e.received ≤ r0 + dev := heard_near _ hn (by intro _ _ h; cases h) r0 _ h1
  have hr0 : r0 ≤ now := heard_past _ hnow (by intro _ _ h; cases h) r0 _ h1
  have hst := (stored_run h0 (es := h.map (·.2)) (by intro x hx; obtain ⟨y, hy, rfl⟩ := List.mem_map.mp hx; exact hc y hy) hr).1 e hm
  obtain ⟨hsel, ⟨p, hp, ha⟩, hle, -⟩ := C20_expired cc t st st' (CliIn.ofEntry e) texts s hst.dec.msg hs
  have hhold := shown_hold hs
  obtain ⟨p', m, n, hp', hdec, -, -, httl, -⟩ := hst.dec.dec
  have hpp : p' = p := by
    have : Proto.ofNum e.proto = some p := hp
    rw [hp'] at this
    exact Option.some.inj this
  subst hpp
  have hlen := hst.min
  have hlen2 := hst.dec.len
  have ha2 := (decode_announces (e := CliIn.ofEntry e) hst.dec.msg hsel (by simp) hdec).1
  have hu : s.ttl = m.ttl := announces_unique (by
    show 26 ≤ (e.msg.take (e.len : Int).toNat).length
    rw [List.length_take, hst.dec.msg]
    omega) ha ha2
  rw [httl] at hu
  refine ⟨hu, r0, h1, ?_⟩
  have hh : (CliIn.ofEntry e).received = e.received := rfl
  rw [hh] at hhold hle
  rw [hu] at hhold hle
  omega

/-! ## Cases -/

/-- The clock is a second fast, is set back to seven seconds slow, and is right in the end. -/
def setBack : List (Int × Event) :=
  [(1000, .timer sampleKernel {} 1001), (1005, ndpEvent 1006 77), (1007, ndpEvent 1000 78), (1010, ndpEvent 1003 77), (1030, .timer sampleKernel {} 1030)]

/-- The process after some events. -/
def daemonOf (h : List (Int × Event)) : Daemon := match daemonRun cRecv (h.map (·.2)) dSys with | .ok d => d | _ => dSys

theorem daemonOf_ok {h : List (Int × Event)} (hb : (match daemonRun cRecv (h.map (·.2)) dSys with | .ok _ => true | _ => false) = true) :
    daemonRun cRecv (h.map (·.2)) dSys = .ok (daemonOf h) := by
  unfold daemonOf
  split at hb
  · next d hd => rw [hd]
  · cases hb

theorem setBack_ok : (∀ x ∈ setBack, Captured x.2) ∧ AfterEpoch setBack ∧ Near 7 setBack ∧ ∀ x ∈ setBack, x.1 ≤ 1040 := by
  unfold setBack AfterEpoch Near
  simp only [List.forall_mem_cons, List.not_mem_nil, false_imp_iff, implies_true, and_true]
  refine ⟨⟨trivial, ndp_captured _ _ (Or.inl rfl), ndp_captured _ _ (Or.inr rfl), ndp_captured _ _ (Or.inl rfl), trivial⟩, ⟨?_, ?_, ?_, ?_, ?_⟩,
    ⟨?_, ?_, ?_, ?_, ?_⟩, by decide⟩ <;> (intro t ht; cases ht; decide)

/-- The NDP station `02:00:00:00:00:b` on interface 3. -/
def clockKey (b : UInt8) : Key := (3, 4, [0x01, 0x00, 0x81, 0x00, 0x01, 0x00], [2, 0, 0, 0, 0, b])

example : dSys.child = {} ∧ cRecv.opts.testBit 2 = true ∧ daemonRun cRecv (setBack.map (·.2)) dSys = .ok (daemonOf setBack) ∧
    (lastHeard cRecv (clockKey 77) setBack dSys none).map (fun x => (x.1, x.2.received, x.2.ttl)) = some (1010, 1003, 180) ∧
    (lastHeard cRecv (clockKey 78) setBack dSys none).map (fun x => (x.1, x.2.received, x.2.ttl)) = some (1007, 1000, 180) ∧
    (1040 + 2 * 7 ≤ (1007 : Int) + 180) ∧ (daemonOf setBack).child.queue.map (fun e => (neighbour e, e.lock)) = [(clockKey 77, 0), (clockKey 78, 0)] ∧
    (match clientMsg { protos := 255 } 1045 {} (((daemonOf setBack).child.queue.map CliIn.ofEntry).headD ⟨0, [], 0, 0, 0, []⟩) with
      | .ok (_, _, some s) => s.hold == 138 && s.ttl == 180 | _ => false) = true := by
  refine ⟨by decide +kernel, by decide +kernel, daemonOf_ok (by decide +kernel), by decide +kernel, by decide +kernel, by decide +kernel, by decide +kernel, by decide +kernel⟩

/-- Without a bound on the deviation there is none on the time in the table: a neighbour heard two seconds ago is gone after the clock was set forward. -/
theorem C93_early : ∃ (h : List (Int × Event)) (d : Daemon), dSys.child = {} ∧ (∀ x ∈ h, Captured x.2) ∧ AfterEpoch h ∧ daemonRun cRecv (h.map (·.2)) dSys = .ok d ∧
    (lastHeard cRecv (clockKey 77) h dSys none).map (fun x => (x.1, x.2.ttl)) = some (1001, 180) ∧ (∀ x ∈ h, x.1 ≤ 1003) ∧ lookup d.child.queue (clockKey 77) = none := by
  refine ⟨[(1000, .timer sampleKernel {} 1000), (1001, ndpEvent 1001 77), (1003, .timer sampleKernel {} 1200)], daemonOf [(1000, .timer sampleKernel {} 1000),
    (1001, ndpEvent 1001 77), (1003, .timer sampleKernel {} 1200)], by decide +kernel, ?_, ?_, daemonOf_ok (by decide +kernel), by decide +kernel,
    by simp, by decide +kernel⟩
  · simp only [List.forall_mem_cons, List.not_mem_nil, false_imp_iff, implies_true, and_true]
    exact ⟨trivial, ndp_captured _ _ (Or.inl rfl), trivial⟩
  · unfold AfterEpoch
    simp only [List.forall_mem_cons, List.not_mem_nil, false_imp_iff, implies_true, and_true]
    refine ⟨?_, ?_, ?_⟩ <;> (intro t ht; cases ht; decide)

/-- And one that fell silent a thousand seconds ago is there after it was set back. -/
theorem C93_late : ∃ (h : List (Int × Event)) (d : Daemon), dSys.child = {} ∧ (∀ x ∈ h, Captured x.2) ∧ AfterEpoch h ∧ daemonRun cRecv (h.map (·.2)) dSys = .ok d ∧
    (lastHeard cRecv (clockKey 77) h dSys none).map (fun x => (x.1, x.2.ttl)) = some (1001, 180) ∧ h.getLast?.map (·.1) = some 2001 ∧ (lookup d.child.queue (clockKey 77)).map (·.ttl) = some 180 := by
  refine ⟨[(1000, .timer sampleKernel {} 1000), (1001, ndpEvent 1001 77), (2001, .timer sampleKernel {} 900)], daemonOf [(1000, .timer sampleKernel {} 1000),
    (1001, ndpEvent 1001 77), (2001, .timer sampleKernel {} 900)], by decide +kernel, ?_, ?_, daemonOf_ok (by decide +kernel), by decide +kernel,
    by decide, by decide +kernel⟩
  · simp only [List.forall_mem_cons, List.not_mem_nil, false_imp_iff, implies_true, and_true]
    exact ⟨trivial, ndp_captured _ _ (Or.inl rfl), trivial⟩
  · unfold AfterEpoch
    simp only [List.forall_mem_cons, List.not_mem_nil, false_imp_iff, implies_true, and_true]
    refine ⟨?_, ?_, ?_⟩ <;> (intro t ht; cases ht; decide)

/-- A LLDP frame with the longest lifetime there is, 65535 seconds. -/
def longFrame : Bytes :=
  ([0x01, 0x80, 0xc2, 0x00, 0x00, 0x0e, 2, 0, 0, 0, 0, 9, 0x88, 0xcc] ++
    [2, 2, 7, 0x61, 4, 2, 5, 0x62, 6, 2, 0xff, 0xff, 10, 1, 0x63, 0, 0]) ++ List.replicate 31 0

/-- It arrives. -/
def longHistory : List (Int × Event) := [(1000, .timer sampleKernel {} 1000), (1001, .recv (some 1001) (rawOf ⟨3, .lldp, longFrame⟩))]

/-- The table shows the frame as expiring now to a client that has read the clock a second before it came. -/
def wrapsIn (d : Daemon) : Bool :=
  match d.child.queue with
  | [e] => e.received == 1001 && e.ttl == 65535 && (match clientMsg { protos := 255 } 1000 {} (CliIn.ofEntry e) with
    | .ok (st, [], some s) => st == {} && s.ttl == 65535 && s.hold == 0
    | _ => false)
  | _ => false

theorem wrapsIn_iff {d : Daemon} (hd : wrapsIn d = true) : ∃ (e : Entry) (s : Shown), d.child.queue = [e] ∧ e.received = 1001 ∧ e.ttl = 65535 ∧
    clientMsg { protos := 255 } 1000 {} (CliIn.ofEntry e) = .ok ({}, [], some s) ∧ s.ttl = 65535 ∧ s.hold = 0 := by
  unfold wrapsIn at hd
  split at hd
  · next e he =>
    rw [Bool.and_eq_true, Bool.and_eq_true, beq_iff_eq, beq_iff_eq] at hd
    obtain ⟨⟨h1, h2⟩, h3⟩ := hd
    split at h3
    · next st s hs =>
      rw [Bool.and_eq_true, Bool.and_eq_true, beq_iff_eq, beq_iff_eq, beq_iff_eq] at h3
      exact ⟨e, s, he, h1, h2, by rw [hs, h3.1.1], h3.1.2, h3.2⟩
    · cases h3
  · cases hd

theorem longHistory_wraps : wrapsIn (daemonOf longHistory) = true := by decide +kernel

theorem longHistory_runs : daemonRun cRecv (longHistory.map (·.2)) dSys = .ok (daemonOf longHistory) := daemonOf_ok (by decide +kernel)

theorem longHistory_ok : (∀ x ∈ longHistory, Captured x.2) ∧ AfterEpoch longHistory ∧ Near 0 longHistory := by
  unfold AfterEpoch Near longHistory
  simp only [List.forall_mem_cons, List.not_mem_nil, false_imp_iff, implies_true, and_true]
  refine ⟨⟨trivial, 3, [longFrame], [⟨3, .lldp, longFrame⟩], ⟨3, .lldp, longFrame⟩, ?_, by decide +kernel, List.mem_singleton.mpr rfl, rfl⟩, ⟨?_, ?_⟩, ?_, ?_⟩
  · intro f hf
    rw [List.mem_singleton.mp hf]
    have hb : (match bpfFilter protoFilter longFrame with | .ok n => n != 0 | _ => false) = true := by decide +kernel
    split at hb
    · next n hn => exact ⟨n, hn, by simpa using hb⟩
    · cases hb
  all_goals (intro t ht; cases ht; decide)

/-- The missing case: a frame that arrives a second after the client has read the clock, with the longest lifetime, is shown as expiring now, although the clock
is right all the time. -/
theorem C93_wraps : ∃ (h : List (Int × Event)) (d : Daemon) (e : Entry) (s : Shown), dSys.child = {} ∧ (∀ x ∈ h, Captured x.2) ∧ AfterEpoch h ∧ Near 0 h ∧
    daemonRun cRecv (h.map (·.2)) dSys = .ok d ∧ d.child.queue = [e] ∧ e.received = 1001 ∧ e.ttl = 65535 ∧
    clientMsg { protos := 255 } 1000 {} (CliIn.ofEntry e) = .ok ({}, [], some s) ∧ s.ttl = 65535 ∧ s.hold = 0 := by
  obtain ⟨e, s, h⟩ := wrapsIn_iff longHistory_wraps
  exact ⟨longHistory, daemonOf longHistory, e, s, rfl, longHistory_ok.1, longHistory_ok.2.1, longHistory_ok.2.2, longHistory_runs, h⟩

end Ladvd.Props
