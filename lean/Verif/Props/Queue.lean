import Verif.Lemmas.Lock
/-!
# C15 – C19, C33: the neighbour table and its readers
-/

namespace Ladvd.Props

open Spec

/-! ## Sample data -/

/-- A message from the privileged process with a 62 byte NDP frame from the station `02:00:00:00:00:b`, received on
interface 3. -/
def sampleMsg (b : UInt8) : RawMsg :=
  { size := 102, index := 3, proto := 4, len := 62,
    msg := [0x01, 0x00, 0x81, 0x00, 0x01, 0x00, 2, 0, 0, 0, 0, b, 0, 48, 0xaa, 0xaa, 3, 0, 0, 0x81, 0x01, 0xa2,
      10, 0, 0, 1, 0, 0, 1] ++ List.replicate 1489 0 }

/-- A message with a 62 byte CDP frame from the same station, announcing a holdtime. -/
def sampleCdp (b ttl : UInt8) : RawMsg :=
  { size := 102, index := 3, proto := 1, len := 62,
    msg := [0x01, 0x00, 0x0c, 0xcc, 0xcc, 0xcc, 2, 0, 0, 0, 0, b, 0, 48, 0xaa, 0xaa, 3, 0, 0, 0x0c, 0x20, 0x00,
      2, ttl, 0, 0, 0, 1, 0, 7, 0x73, 0x77, 0x31, 0, 3, 0, 29] ++ List.replicate 1481 0x65 }

/-- A state with one interface. -/
def sampleState : Child :=
  { netifs := [{ index := 3, name := lit "eth0", hwaddr := [2, 0, 0, 0, 0, 9] }] }

/-! ## C15 Neighbour table holds one entry per neighbour -/

/-- After every history of receptions, expiry runs, interface changes and client sessions. -/
theorem C15_unique (o : Opts) (l : List Netif) (ops : List ChildOp) (st : Child)
    (h : childRun o { netifs := l } ops = .ok st) : (st.queue.map neighbour).Nodup :=
  (inv_run (inv_init l) h).keys

example : ∃ st, childRun 0 sampleState
      [.recv (some 100) (sampleMsg 1), .recv (some 101) (sampleMsg 2), .recv (some 102) (sampleCdp 1 180),
       .recv (some 103) (sampleMsg 1)] = .ok st ∧
    st.queue.map (fun e => (neighbour e).2.2.2) = [[2, 0, 0, 0, 0, 1], [2, 0, 0, 0, 0, 1], [2, 0, 0, 0, 0, 2]] ∧
    st.queue.map (·.received) = [103, 102, 101] := by
  refine ⟨(match childRun 0 sampleState
      [.recv (some 100) (sampleMsg 1), .recv (some 101) (sampleMsg 2), .recv (some 102) (sampleCdp 1 180),
       .recv (some 103) (sampleMsg 1)] with | .ok st => st | _ => {}), ?_⟩
  decide +kernel

/-! ## C16 Neighbour table reflects the latest advertisement -/

theorem lookup_put (q : List Entry) (e : Entry) (k : Nat × Nat × Bytes × Bytes) :
    lookup (queuePut q e) k = if k = neighbour e then some (info e) else lookup q k := by
  unfold lookup
  have hno : ∀ l : List Entry, (∀ x ∈ l, neighbour x ≠ neighbour e) → l.find? (fun x => neighbour x == neighbour e) = none := by
    intro l hl
    rw [List.find?_eq_none]
    intro x hx
    simpa using hl x hx
  rcases queuePut_cases q e with ⟨l1, o, l2, h1, h2, h3, h4⟩ | ⟨hn, l1, l2, h1, h2, _, _⟩
  · rw [h4, h1, List.find?_append, List.find?_append, List.find?_cons, List.find?_cons]
    have he : neighbour { e with id := o.id } = neighbour e := rfl
    rw [he, h2]
    by_cases hk : k = neighbour e
    · subst hk
      rw [if_pos rfl, hno l1 h3]
      simp [info]
    · rw [if_neg hk]
      have : (neighbour e == k) = false := by simpa using fun h => hk h.symm
      rw [this]
  · rw [h2, h1, List.find?_append, List.find?_append, List.find?_cons]
    by_cases hk : k = neighbour e
    · subst hk
      rw [if_pos rfl, hno l1 (fun x hx => hn x (by rw [h1]; simp [hx]))]
      simp
    · rw [if_neg hk]
      have : (neighbour e == k) = false := by simpa using fun h => hk h.symm
      rw [this]

theorem others_put (q : List Entry) (e : Entry) :
    (queuePut q e).filter (fun x => neighbour x != neighbour e) = q.filter (fun x => neighbour x != neighbour e) := by
  rcases queuePut_cases q e with ⟨l1, o, l2, h1, h2, _, h4⟩ | ⟨hn, l1, l2, h1, h2, _, _⟩
  · rw [h4, h1, List.filter_append, List.filter_append, List.filter_cons, List.filter_cons]
    have he : neighbour { e with id := o.id } = neighbour e := rfl
    rw [he, h2]
    simp
  · rw [h2, h1, List.filter_append, List.filter_append, List.filter_cons]
    simp

/-- A valid advertisement with a nonzero lifetime: it arrives on a known interface, does not come from one of our own
addresses, and its decoder accepts it.  Then the table has exactly this frame, with its own data and lifetime and the
time of reception, for that neighbour, and all other entries are unchanged and in the same order. -/
theorem C16_latest (o : Opts) (t : Int) (r : RawMsg) (st st' : Child) (h : childQueue o (some t) r st = .ok st')
    (p : Proto) (subif : Netif) (m : Msg) (n : Nat)
    (hsize : (r.size : Int) = 40 + r.len) (hlen : 0 ≤ r.len)
    (hif : st.netifs.find? (fun x => x.index == r.index) = some subif)
    (hsrc : ∀ x ∈ st.netifs, x.hwaddr ≠ (r.msg.drop 6).take 6)
    (hp : Proto.ofNum r.proto = some p)
    (hd : p.decode false (r.msg ++ [1, 0]) r.len.toNat { proto := r.proto } = .ok (m, n)) (hn : n ≠ 0)
    (httl : m.ttl ≠ 0) :
    let k := (r.index, m.proto, r.msg.take 6, (r.msg.drop 6).take 6)
    lookup st'.queue k = some ⟨subif.name, t, m.ttl, r.msg.take r.len.toNat, m.peer⟩ ∧
    (∀ k', k' ≠ k → lookup st'.queue k' = lookup st.queue k') ∧
    st'.queue.filter (fun x => neighbour x != k) = st.queue.filter (fun x => neighbour x != k) := by
  intro k
  rcases childQueue_frame h with ⟨_, hno⟩ | ⟨t', subif', m', ht, htk, hq, _⟩
  · exfalso
    by_cases h1518 : r.len ≤ ETHER_MAX_LEN
    · exact hno t subif m rfl ⟨⟨by simp only [PARENT_MSG_MIN]; omega, by simp only [PARENT_MSG_MIN]; omega⟩,
        ⟨p, n, hp, hd, hn⟩, h1518, hif, hsrc⟩
    · unfold childQueue at h
      rw [if_neg (by simp only [PARENT_MSG_MIN]; omega)] at h
      simp only [hp] at h
      rw [if_pos (by omega)] at h
      cases h
  · cases ht
    have e1 : subif' = subif := by
      have := htk.known; unfold netifByIndex at this; rw [hif] at this; exact (Option.some.inj this).symm
    have e2 : m' = m := by
      obtain ⟨p', n', a, b, _⟩ := htk.proto
      rw [hp] at a; cases a
      rw [hd] at b; cases b; rfl
    subst e1 e2
    rw [if_neg httl] at hq
    have hk : k = neighbour (entryOf st t r subif' m') := rfl
    refine ⟨?_, ?_, ?_⟩
    · rw [hq, lookup_put, if_pos hk]
      simp [info, entryOf, httl]
    · intro k' hne
      rw [hq, lookup_put, if_neg (hk ▸ hne)]
    · rw [hq, hk]
      exact others_put _ _

/-- Messages of a wrong size, on unknown interfaces, from our own addresses, or rejected by the decoder change nothing
at all. -/
theorem C16_ignored (o : Opts) (now : Option Int) (r : RawMsg) (st st' : Child) (h : childQueue o now r st = .ok st')
    (hbad : (r.size : Int) ≠ 40 + r.len ∨ st.netifs.find? (fun x => x.index == r.index) = none ∨
      (∃ x ∈ st.netifs, x.hwaddr = (r.msg.drop 6).take 6) ∨
      ∀ p m n, Proto.ofNum r.proto = some p →
        p.decode false (r.msg ++ [1, 0]) r.len.toNat { proto := r.proto } = .ok (m, n) → n = 0) : st' = st := by
  rcases childQueue_frame h with ⟨h, _⟩ | ⟨t, subif, m, _, htk, _⟩
  · exact h
  · exfalso
    rcases hbad with hb | hb | ⟨x, hx, hb⟩ | hb
    · exact hb htk.size.2
    · have := htk.known; unfold netifByIndex at this; rw [hb] at this; cases this
    · exact htk.foreign x hx hb
    · obtain ⟨p, n, a, b, c⟩ := htk.proto
      exact c (hb p m n a b)

/-- The sample advertisement replaces the older one of the same station. -/
example : ∃ st, childRun 0 sampleState [.recv (some 100) (sampleCdp 1 90), .recv (some 101) (sampleMsg 1)] = .ok st ∧
    ∃ st', childQueue 0 (some 150) (sampleCdp 1 60) st = .ok st' ∧
    (lookup st'.queue (3, 1, [0x01, 0x00, 0x0c, 0xcc, 0xcc, 0xcc], [2, 0, 0, 0, 0, 1])).map (fun i => (i.received, i.ttl)) =
      some (150, 60) ∧ st'.queue.length = 2 := by
  refine ⟨(match childRun 0 sampleState [.recv (some 100) (sampleCdp 1 90), .recv (some 101) (sampleMsg 1)] with
    | .ok st => st | _ => {}), by decide +kernel, ?_⟩
  refine ⟨(match childRun 0 sampleState [.recv (some 100) (sampleCdp 1 90), .recv (some 101) (sampleMsg 1),
    .recv (some 150) (sampleCdp 1 60)] with
    | .ok st => st | _ => {}), by decide +kernel⟩

/-- A frame on an unknown interface and a truncated message. -/
example : childQueue 0 (some 1) { sampleMsg 1 with index := 4 } sampleState = .ok sampleState ∧
    childQueue 0 (some 1) { sampleMsg 1 with size := 101 } sampleState = .ok sampleState ∧
    childQueue 0 (some 1) (sampleMsg 9) sampleState = .ok sampleState := by decide +kernel

/-! ## C17 Entries expire exactly when their lifetime has elapsed -/

/-- The periodic run removes exactly the unlocked entries whose reception time plus lifetime lies in the past, and
keeps the others in order. -/
theorem C17_exact (o : Opts) (now : Int) (st st' : Child) (h : childExpire o now st = .ok st') :
    st'.queue.Sublist st.queue ∧
    ∀ e ∈ st.queue, e ∈ st'.queue ↔ ¬ (e.received + e.ttl < now ∧ e.lock = 0) := by
  obtain ⟨hq, _⟩ := childExpire_frame h
  rw [hq]
  refine ⟨List.filter_sublist, ?_⟩
  intro e he
  rw [List.mem_filter]
  unfold keeps
  rw [Bool.or_eq_true, decide_eq_true_iff, decide_eq_true_iff]
  constructor
  · rintro ⟨_, h | h⟩ ⟨h1, h2⟩
    · omega
    · exact h h2
  · intro h1
    refine ⟨he, ?_⟩
    by_cases h2 : e.lock = 0
    · left
      have : ¬ (e.received + e.ttl < now) := fun h3 => h1 ⟨h3, h2⟩
      omega
    · right; exact h2

/-- The table has this information about this neighbour. -/
def Knows (q : List Entry) (k : Nat × Nat × Bytes × Bytes) (i : Info) : Prop := ∃ e ∈ q, neighbour e = k ∧ info e = i

theorem knows_iff {q : List Entry} (hn : (q.map neighbour).Nodup) (k : Nat × Nat × Bytes × Bytes) (i : Info) :
    Knows q k i ↔ lookup q k = some i := by
  unfold lookup Knows
  induction q with
  | nil => simp
  | cons x q ih =>
    rw [List.map_cons, List.nodup_cons] at hn
    rw [List.find?_cons]
    by_cases hx : neighbour x = k
    · subst hx
      simp only [beq_self_eq_true, Option.map_some, Option.some.injEq]
      constructor
      · rintro ⟨e, he, h1, h2⟩
        rcases List.mem_cons.mp he with rfl | he
        · exact h2
        · exact absurd (List.mem_map.mpr ⟨e, he, h1⟩) hn.1
      · intro h; exact ⟨x, by simp, rfl, h⟩
    · have : (neighbour x == k) = false := by simpa using hx
      rw [this]
      simp only
      rw [← ih hn.2]
      constructor
      · rintro ⟨e, he, h1, h2⟩
        rcases List.mem_cons.mp he with rfl | he
        · exact absurd h1 hx
        · exact ⟨e, he, h1, h2⟩
      · rintro ⟨e, he, h⟩; exact ⟨e, by simp [he], h⟩

/-- The event is not a frame of neighbour `k`, and its clock does not exceed `limit`. -/
def Quiet (k : Nat × Nat × Bytes × Bytes) (limit : Int) : ChildOp → Prop
  | .recv now r => (∀ pr, (r.index, pr, r.msg.take 6, (r.msg.drop 6).take 6) ≠ k) ∧ ∀ t, now = some t → t ≤ limit
  | .expire now => now ≤ limit
  | _ => True

theorem setLock_knows {q : List Entry} {k : Nat × Nat × Bytes × Bytes} {i : Info} (c : Nat) (f : Nat → Nat)
    (h : Knows q k i) : Knows (setLock q c f) k i := by
  obtain ⟨e, he, h1, h2⟩ := h
  refine ⟨if e.id = c then { e with lock := f e.lock % 256 } else e, List.mem_map.mpr ⟨e, he, rfl⟩, ?_, ?_⟩
  · split <;> exact h1
  · split <;> exact h2

theorem put_knows {q : List Entry} {k : Nat × Nat × Bytes × Bytes} {i : Info} (e : Entry) (hk : neighbour e ≠ k)
    (h : Knows q k i) : Knows (queuePut q e) k i := by
  obtain ⟨x, hx, h1, h2⟩ := h
  have : x ∈ q.filter (fun x => neighbour x != neighbour e) := by
    rw [List.mem_filter]
    refine ⟨hx, ?_⟩
    simp only [bne_iff_ne, ne_eq, h1]
    exact fun hc => hk hc.symm
  rw [← others_put] at this
  exact ⟨x, (List.mem_filter.mp this).1, h1, h2⟩

theorem filter_knows {q : List Entry} {k : Nat × Nat × Bytes × Bytes} {i : Info} {now : Int}
    (hl : now ≤ i.received + i.ttl) (h : Knows q k i) : Knows (q.filter (keeps now)) k i := by
  obtain ⟨x, hx, h1, h2⟩ := h
  refine ⟨x, ?_, h1, h2⟩
  rw [List.mem_filter]
  refine ⟨hx, ?_⟩
  unfold keeps
  rw [Bool.or_eq_true]
  left
  rw [decide_eq_true_iff]
  rw [← h2] at hl
  exact hl

theorem quiet_knows {o : Opts} {ops : List ChildOp} {k : Nat × Nat × Bytes × Bytes} {i : Info} :
    ∀ {st st' : Child}, childRun o st ops = .ok st' → (∀ op ∈ ops, Quiet k (i.received + i.ttl) op) →
      Knows st.queue k i → Knows st'.queue k i := by
  induction ops with
  | nil => intro st st' h _ hk; cases h; exact hk
  | cons op ops ih =>
    intro st st' h hq hk
    rw [childRun] at h
    cases hs : childStep o st op with
    | fail => rw [hs] at h; cases h
    | oob => rw [hs] at h; cases h
    | abort => rw [hs] at h; cases h
    | stuck => rw [hs] at h; cases h
    | ok s =>
      rw [hs] at h
      refine ih h (fun op hop => hq op (by simp [hop])) ?_
      have hq0 := hq op (by simp)
      cases op with
      | recv now r =>
        rcases childQueue_frame hs with ⟨rfl, _⟩ | ⟨t, subif, m, ht, _, hqq, _⟩
        · exact hk
        · have hput := put_knows (entryOf st t r subif m) (hq0.1 m.proto) hk
          rw [hqq]
          split
          · exact filter_knows (hq0.2 t ht) hput
          · exact hput
      | expire now =>
        rw [(childExpire_frame hs).1]
        exact filter_knows hq0 hk
      | fetch l => cases hs; exact hk
      | accept => cases hs; exact hk
      | write sid ws =>
        rcases cliWrite_frame hs with ⟨rfl, _⟩ | ⟨sess, hsess, hsid, hh⟩
        · exact hk
        rcases hh with ⟨rfl, rfl⟩ | ⟨wl, queue, suffix, rfl, hst, hh⟩
        · exact hk
        have hkq : Knows queue k i := by
          rcases cliStart_spec hst with ⟨_, rfl, _⟩ | ⟨id, pre, _, rfl, _⟩
          · exact hk
          · exact setLock_knows _ _ hk
        rcases hh with ⟨c, _, rfl⟩ | ⟨_, rfl⟩
        · exact setLock_knows _ _ hkq
        · exact hkq

/-- A neighbour never disappears, and its data never change, as long as no frame of it arrives and no clock value seen
exceeds its reception time plus its lifetime; in between anything else may happen. -/
theorem C17_not_earlier (o : Opts) (l : List Netif) (before ops : List ChildOp) (st st' : Child)
    (h1 : childRun o { netifs := l } before = .ok st) (h2 : childRun o st ops = .ok st')
    (k : Nat × Nat × Bytes × Bytes) (i : Info) (hk : lookup st.queue k = some i)
    (hq : ∀ op ∈ ops, Quiet k (i.received + i.ttl) op) : lookup st'.queue k = some i := by
  have hi := inv_run (inv_init l) h1
  have hi' := inv_run hi h2
  rw [← knows_iff hi'.keys]
  rw [← knows_iff hi.keys] at hk
  exact quiet_knows h2 hq hk

/-- The first expiry run after the lifetime removes a neighbour, unless a client session is just sending it. -/
theorem C17_gone (o : Opts) (l : List Netif) (ops : List ChildOp) (now : Int) (st st' : Child)
    (h1 : childRun o { netifs := l } ops = .ok st) (h2 : childExpire o now st = .ok st')
    (k : Nat × Nat × Bytes × Bytes) (i : Info) (hk : lookup st.queue k = some i)
    (hnow : i.received + i.ttl < now) (hlock : ∀ e ∈ st.queue, neighbour e = k → e.lock = 0) :
    lookup st'.queue k = none := by
  have hi := inv_run (inv_init l) h1
  obtain ⟨hq, _⟩ := childExpire_frame h2
  unfold lookup
  rw [Option.map_eq_none_iff, List.find?_eq_none]
  intro e he
  rw [hq, List.mem_filter] at he
  simp only [beq_iff_eq]
  intro hek
  have hl := hlock e he.1 hek
  have hinfo : info e = i := by
    have : lookup st.queue k = some (info e) := (knows_iff hi.keys _ _).mp ⟨e, he.1, hek, rfl⟩
    rw [hk] at this
    exact (Option.some.inj this).symm
  have hkeep := he.2
  unfold keeps at hkeep
  rw [Bool.or_eq_true, decide_eq_true_iff, decide_eq_true_iff] at hkeep
  rw [← hinfo] at hnow
  simp only [info] at hnow
  rcases hkeep with hkeep | hkeep
  · omega
  · exact hkeep hl

/-- A valid shutdown announcement (lifetime zero) removes the neighbour at once. -/
theorem C17_shutdown (o : Opts) (l : List Netif) (ops : List ChildOp) (t : Int) (r : RawMsg) (st st' : Child)
    (h1 : childRun o { netifs := l } ops = .ok st) (h : childQueue o (some t) r st = .ok st')
    (p : Proto) (m : Msg) (n : Nat)
    (hsize : (r.size : Int) = 40 + r.len) (hlen : 0 ≤ r.len) (hlen' : r.len ≤ 1518)
    (hif : (st.netifs.find? (fun x => x.index == r.index)).isSome)
    (hsrc : ∀ x ∈ st.netifs, x.hwaddr ≠ (r.msg.drop 6).take 6)
    (hp : Proto.ofNum r.proto = some p)
    (hd : p.decode false (r.msg ++ [1, 0]) r.len.toNat { proto := r.proto } = .ok (m, n)) (hn : n ≠ 0)
    (httl : m.ttl = 0) (hrec : r.received = 0) (ht : 0 < t) :
    lookup st'.queue (r.index, m.proto, r.msg.take 6, (r.msg.drop 6).take 6) = none := by
  have hi := inv_run (inv_init l) h1
  obtain ⟨subif, hif⟩ := Option.isSome_iff_exists.mp hif
  rcases childQueue_frame h with ⟨_, hno⟩ | ⟨t', subif', m', ht', htk, hq, _⟩
  · exact absurd ⟨⟨by simp only [PARENT_MSG_MIN]; omega, by simp only [PARENT_MSG_MIN]; omega⟩,
        ⟨p, n, hp, hd, hn⟩, hlen', hif, hsrc⟩ (hno t subif m rfl)
  · cases ht'
    have e2 : m' = m := by
      obtain ⟨p', n', a, b, _⟩ := htk.proto
      rw [hp] at a; cases a
      rw [hd] at b; cases b; rfl
    subst e2
    rw [if_pos httl] at hq
    unfold lookup
    rw [Option.map_eq_none_iff, List.find?_eq_none]
    intro e he
    rw [hq, List.mem_filter] at he
    simp only [beq_iff_eq]
    intro hek
    have hnd := queuePut_nodup st.queue (entryOf st t r subif' m') hi.keys
    have hinfo : info e = info (entryOf st t r subif' m') := by
      have h1 := (knows_iff hnd _ _).mp ⟨e, he.1, hek, rfl⟩
      rw [lookup_put, if_pos (by rfl)] at h1
      exact (Option.some.inj h1).symm
    have hlock : e.lock = 0 := by
      rcases queuePut_cases st.queue (entryOf st t r subif' m') with ⟨l1, x, l2, g1, g2, g3, g4⟩ | ⟨g1, l1, l2, g2, g3, _, _⟩
      · have hmem := he.1
        rw [g4] at hmem hnd
        rw [List.map_append, List.map_cons, List.nodup_append, List.nodup_cons] at hnd
        rcases List.mem_append.mp hmem with hm | hm
        · exact absurd hek (g3 e hm)
        · rcases List.mem_cons.mp hm with rfl | hm
          · rfl
          · exact absurd (List.mem_map.mpr ⟨e, hm, hek⟩) hnd.2.1.1
      · have hmem := he.1
        rw [g3] at hmem
        rcases List.mem_append.mp hmem with hm | hm
        · exact absurd hek (g1 e (by rw [g2]; simp [hm]))
        · rcases List.mem_cons.mp hm with rfl | hm
          · rfl
          · exact absurd hek (g1 e (by rw [g2]; simp [hm]))
    have hrt : e.received = 0 ∧ e.ttl = 0 := by
      have a := congrArg Info.received hinfo
      have b := congrArg Info.ttl hinfo
      simp only [info, entryOf, httl] at a b
      refine ⟨?_, b⟩
      rw [a]
      simpa using hrec
    have hkeep := he.2
    unfold keeps at hkeep
    rw [Bool.or_eq_true, decide_eq_true_iff, decide_eq_true_iff, hrt.1, hrt.2] at hkeep
    rcases hkeep with hkeep | hkeep
    · omega
    · exact hkeep hlock

/-- An advertisement of 90 seconds received at 100 survives 190 and is gone at 191; a shutdown works at once. -/
example : ∃ st st1 st2 st3, childRun 0 sampleState [.recv (some 100) (sampleCdp 1 90)] = .ok st ∧
    childExpire 0 190 st = .ok st1 ∧ st1.queue = st.queue ∧ childExpire 0 191 st = .ok st2 ∧ st2.queue = [] ∧
    childQueue 0 (some 110) (sampleCdp 1 0) st = .ok st3 ∧ st3.queue = [] ∧ st.queue.length = 1 := by
  refine ⟨(match childRun 0 sampleState [.recv (some 100) (sampleCdp 1 90)] with | .ok st => st | _ => {}),
    (match childRun 0 sampleState [.recv (some 100) (sampleCdp 1 90), .expire 190] with | .ok st => st | _ => {}),
    (match childRun 0 sampleState [.recv (some 100) (sampleCdp 1 90), .expire 191] with | .ok st => st | _ => {}),
    (match childRun 0 sampleState [.recv (some 100) (sampleCdp 1 90), .recv (some 110) (sampleCdp 1 0)] with
      | .ok st => st | _ => {}), ?_⟩
  decide +kernel

/-! ## C18 Entries of one neighbour stay adjacent -/

/-- After every history. -/
theorem C18_grouped (o : Opts) (l : List Netif) (ops : List ChildOp) (st : Child)
    (h : childRun o { netifs := l } ops = .ok st) : Grouped st.queue :=
  (inv_run (inv_init l) h).grouped

/-- The second protocol of station 1 is stored next to its first although station 2 was heard in between. -/
example : ∃ st, childRun 0 sampleState
      [.recv (some 100) (sampleMsg 1), .recv (some 101) (sampleMsg 2), .recv (some 102) (sampleCdp 1 180)] = .ok st ∧
    st.queue.map (fun e => (system e).2) = [[2, 0, 0, 0, 0, 1], [2, 0, 0, 0, 0, 1], [2, 0, 0, 0, 0, 2]] := by
  refine ⟨(match childRun 0 sampleState
      [.recv (some 100) (sampleMsg 1), .recv (some 101) (sampleMsg 2), .recv (some 102) (sampleCdp 1 180)] with
    | .ok st => st | _ => {}), ?_⟩
  decide +kernel

/-! ## C19 Client sessions never touch freed entries -/

/-- The entry a blocked session will continue with has been freed: a client is reading, its entry is received again,
which resets the lock count, and expires. -/
theorem C19_use_after_free : childRun 0 sampleState
    [.recv (some 100) (sampleMsg 1), .accept, .write 1 (some [.again]), .recv (some 101) (sampleMsg 1), .expire 1000,
     .write 1 (some [.ok])] = .oob := by decide +kernel

/-- A client that stops reading: its session ends by timeout, the entry stays locked and never expires. -/
theorem C19_lock_leaked : ∃ st, childRun 0 sampleState
    [.recv (some 100) (sampleMsg 1), .accept, .write 1 (some [.again]), .write 1 none, .expire 1000000] = .ok st ∧
    st.sessions = [] ∧ st.queue.map (fun e => (e.received, e.ttl, e.lock)) = [(100, 180, 1)] := by
  refine ⟨(match childRun 0 sampleState
    [.recv (some 100) (sampleMsg 1), .accept, .write 1 (some [.again]), .write 1 none, .expire 1000000] with
    | .ok st => st | _ => {}), ?_⟩
  decide +kernel

/-- What must not happen: a frame of a neighbour whose entry is held by a session, a timeout of a session holding an
entry, more than 255 sessions at once. -/
def Calm (st : Child) : ChildOp → Prop
  | .recv _ r => ∀ s ∈ st.sessions, ∀ e ∈ st.queue, s.msg = some e.id →
      (e.index, e.msg.take 12) ≠ (r.index, r.msg.take 12)
  | .write sid none => ∀ s ∈ st.sessions, s.sid = sid → s.msg = none
  | .accept => st.sessions.length < 255
  | _ => True

/-- A history of such events. -/
def CalmRun (o : Opts) : Child → List ChildOp → Prop
  | _, [] => True
  | st, op :: ops => Calm st op ∧ ∀ st', childStep o st op = .ok st' → CalmRun o st' ops

theorem calm_inv {o : Opts} {ops : List ChildOp} : ∀ {st st' : Child}, Inv st → LockInv st → CalmRun o st ops →
    childRun o st ops = .ok st' → LockInv st' := by
  induction ops with
  | nil => intro st st' _ h _ hr; cases hr; exact h
  | cons op ops ih =>
    intro st st' hi h hc hr
    rw [childRun] at hr
    cases hs : childStep o st op with
    | fail => rw [hs] at hr; cases hr
    | oob => rw [hs] at hr; cases hr
    | abort => rw [hs] at hr; cases hr
    | stuck => rw [hs] at hr; cases hr
    | ok s =>
      rw [hs] at hr
      refine ih (inv_step hi hs) ?_ (hc.2 s hs) hr
      have hcalm := hc.1
      cases op with
      | recv now r =>
        rcases childQueue_frame hs with ⟨rfl, _⟩ | ⟨t, subif, m, _, _, hq, h1, h2, h3⟩
        · exact h
        · have hput : LockInv { st with queue := queuePut st.queue (entryOf st t r subif m), nextId := st.nextId + 1 } := by
            refine lock_put (st := st) hi h (entryOf st t r subif m) rfl rfl ?_ rfl rfl
            intro e he hne s' hs' hm
            have := (neighbour_eq_iff _ _).mp hne
            apply hcalm s' hs' e he hm
            rw [this.1, this.2.2]
            rfl
          split at hq
          · exact lock_filter hput t hq h1
          · exact ⟨by rw [hq, h1]; exact hput.held, by rw [hq, h1]; exact hput.count, by rw [h1]; exact hput.few⟩
      | expire now =>
        obtain ⟨hq, h1, _⟩ := childExpire_frame hs
        exact lock_filter h now hq h1
      | fetch l => cases hs; exact ⟨h.held, h.count, h.few⟩
      | accept => cases hs; exact lock_accept h hcalm
      | write sid ws =>
        apply lock_write hi h _ hs
        rintro rfl
        exact hcalm

/-- In a calm history no session ever uses a freed entry, an entry held by a session is never removed, and an entry
not held by any session is not locked, so that it expires normally.  The full claim has no calmness hypothesis; it is
false (`C19_use_after_free`, `C19_lock_leaked`). -/
theorem C19_partial (o : Opts) (l : List Netif) (ops : List ChildOp) (st : Child)
    (hc : CalmRun o { netifs := l } ops) (h : childRun o { netifs := l } ops = .ok st) :
    (∀ sid ws, ∃ st', cliWrite sid ws st = .ok st') ∧
    (∀ s ∈ st.sessions, ∀ id, s.msg = some id → ∃ e ∈ st.queue, e.id = id ∧ e.lock ≠ 0) ∧
    (∀ e ∈ st.queue, (∀ s ∈ st.sessions, s.msg ≠ some e.id) → e.lock = 0) := by
  have hl := calm_inv (inv_init l) ⟨by simp, by simp, by simp⟩ hc h
  refine ⟨lock_no_oob hl, ?_, ?_⟩
  · intro s hs id hm
    obtain ⟨e, he, hid⟩ := List.mem_map.mp (hl.held s hs id hm)
    refine ⟨e, he, hid, ?_⟩
    have h1 := hl.count e he
    rw [hid] at h1
    have := holders_pos hs hm
    omega
  · intro e he hno
    rw [hl.count e he]
    exact holders_zero hno

theorem recv_sessions {o : Opts} {now : Option Int} {r : RawMsg} {st st' : Child}
    (h : childStep o st (.recv now r) = .ok st') : st'.sessions = st.sessions := by
  change childQueue o now r st = .ok st' at h
  rcases childQueue_frame h with ⟨rfl, _⟩ | ⟨_, _, _, _, _, _, hs, _⟩
  · rfl
  · exact hs

/-- A calm history with two interleaved clients. -/
example : let ops := [ChildOp.recv (some 100) (sampleMsg 1), .recv (some 100) (sampleMsg 2), .accept, .accept,
      .write 2 (some [.again]), .write 3 (some [.ok, .again]), .expire 5000]
    CalmRun 0 sampleState ops ∧ ∃ st, childRun 0 sampleState ops = .ok st ∧ st.queue.map (·.lock) = [1, 1] := by
  refine ⟨?_, (match childRun 0 sampleState [ChildOp.recv (some 100) (sampleMsg 1), .recv (some 100) (sampleMsg 2),
      .accept, .accept, .write 2 (some [.again]), .write 3 (some [.ok, .again]), .expire 5000] with
    | .ok st => st | _ => {}), by decide +kernel⟩
  refine ⟨by simp [Calm, sampleState], fun st1 h1 => ⟨?_, fun st2 h2 => ⟨?_, fun st3 h3 => ⟨?_, fun st4 h4 => ⟨trivial,
    fun st5 h5 => ⟨trivial, fun st6 h6 => ⟨trivial, fun _ _ => trivial⟩⟩⟩⟩⟩⟩⟩
  · simp [Calm, recv_sessions h1, sampleState]
  · simp [Calm, recv_sessions h2, recv_sessions h1, sampleState]
  · cases h3
    simp [Calm, cliAccept, recv_sessions h2, recv_sessions h1, sampleState]

/-! ## C33 A client gets the table -/

/-- The entries written to a client. -/
def delivered (st : Child) (sid : Nat) : List Entry := (st.sent.filter (fun p => p.1 == sid)).map (·.2)

/-- Whatever happens in between, no table entry is written twice to the same client, and the entries still in the table
were written in table order. -/
theorem C33_once_in_order (o : Opts) (l : List Netif) (ops : List ChildOp) (st : Child)
    (h : childRun o { netifs := l } ops = .ok st) (sid : Nat) :
    ((delivered st sid).map (·.id)).Nodup ∧
    (((delivered st sid).map (·.id)).filter (fun i => decide (i ∈ st.queue.map (·.id)))).Sublist (st.queue.map (·.id)) := by
  have hi := inv_run (inv_init l) h
  have he : (delivered st sid).map (·.id) = sentIds st.sent sid := by
    unfold delivered sentIds
    rw [List.map_map]; rfl
  rw [he]
  exact ⟨hi.sentNodup sid, hi.sentOrder sid⟩

theorem nextId_mono {o : Opts} {ops : List ChildOp} : ∀ {st st' : Child}, childRun o st ops = .ok st' →
    st.nextId ≤ st'.nextId := by
  induction ops with
  | nil => intro st st' h; cases h; exact Nat.le_refl _
  | cons op ops ih =>
    intro st st' hr
    rw [childRun] at hr
    cases hs : childStep o st op with
    | fail => rw [hs] at hr; cases hr
    | oob => rw [hs] at hr; cases hr
    | abort => rw [hs] at hr; cases hr
    | stuck => rw [hs] at hr; cases hr
    | ok s =>
      rw [hs] at hr
      have h1 := ih hr
      have h2 : st.nextId ≤ s.nextId := by
        cases op with
        | recv now r =>
          rcases childQueue_frame hs with ⟨rfl, _⟩ | ⟨_, _, _, _, _, _, _, hn, _⟩ <;> omega
        | expire now => rw [(childExpire_frame hs).2.2.1]; omega
        | fetch l => cases hs; exact Nat.le_refl _
        | accept => cases hs; simp [cliAccept]
        | write sid ws =>
          rcases cliWrite_frame hs with ⟨rfl, _⟩ | ⟨_, _, _, ⟨_, rfl⟩ | ⟨_, _, _, _, _, ⟨_, _, rfl⟩ | ⟨_, rfl⟩⟩⟩ <;>
            exact Nat.le_refl _
      omega

/-- A session that ends without a write error has delivered every entry which was in the table when the client
connected and still is. -/
theorem C33_complete (o : Opts) (l : List Netif) (before ops : List ChildOp) (st0 st st' : Child)
    (h0 : childRun o { netifs := l } before = .ok st0) (h1 : childRun o (cliAccept st0) ops = .ok st)
    (ws : List WriteRes) (hws : WriteRes.err ∉ ws) (h2 : cliWrite st0.nextId (some ws) st = .ok st')
    (hin : ∃ s ∈ st.sessions, s.sid = st0.nextId) (hout : ∀ s ∈ st'.sessions, s.sid ≠ st0.nextId)
    (e0 e : Entry) (he0 : e0 ∈ st0.queue) (he : e ∈ st'.queue) (hid : e0.id = e.id) :
    ∃ d ∈ delivered st' st0.nextId, d.id = e.id := by
  have hi0 := inv_run (inv_init l) h0
  have hi := inv_run (inv_accept hi0) h1
  rcases cliWrite_frame h2 with ⟨_, hno⟩ | ⟨sess, hsess, hsid, hh⟩
  · obtain ⟨s, hs, hsi⟩ := hin
    exact absurd hsi (hno s hs)
  rcases hh with ⟨hc, _⟩ | ⟨wl, queue, suffix, hwl, hst, hh⟩
  · cases hc
  cases hwl
  obtain ⟨pre, hpre, hprog⟩ := cliStart_progress hi hsess hst
  have hids := (cliStart_ids hst).1
  rcases hh with ⟨c, hc, rfl⟩ | ⟨hc, rfl⟩
  · exfalso
    apply hout { sess with msg := some c }
    · simp only
      refine List.mem_map.mpr ⟨sess, hsess, ?_⟩
      rw [if_pos hsid]
    · exact hsid
  · have hls := cliLoop_spec suffix ws
    generalize hcs : cliLoop suffix ws = cs at *
    obtain ⟨c, s⟩ := cs
    simp only at hc hls he ⊢
    have hdone : s = suffix := by
      cases c with
      | done => exact hls.2
      | failed => exact absurd hls.2 hws
      | blocked c => exact absurd rfl (hc c)
    subst hdone
    have hmem : e.id ∈ idsOf st.queue := by
      rw [← hids]
      exact List.mem_map.mpr ⟨e, he, rfl⟩
    have hlt : e.id < sess.sid := by
      rw [hsid, ← hid]
      exact hi0.idLt _ (List.mem_map.mpr ⟨e0, he0, rfl⟩)
    have hin' : e.id ∈ sentIds (st.sent ++ s.map (fun e => (st0.nextId, e))) st0.nextId := by
      rw [sentIds_append, if_pos rfl]
      rw [hpre] at hmem
      rcases List.mem_append.mp hmem with hm | hm
      · apply List.mem_append_left
        rw [← hsid]
        exact hprog.all _ hm hlt
      · exact List.mem_append_right _ hm
    obtain ⟨d, hd, hde⟩ := List.mem_map.mp hin'
    exact ⟨d.2, List.mem_map.mpr ⟨d, hd, rfl⟩, hde⟩

/-- Every entry written is a table entry of that moment (up to the lock count, which is not sent). -/
theorem C33_current (sid : Nat) (ws : Option (List WriteRes)) (st st' : Child) (h : cliWrite sid ws st = .ok st')
    (p : Nat × Entry) (hp : p ∈ st'.sent) : p ∈ st.sent ∨ ∃ e ∈ st.queue, ∃ n, p = (sid, { e with lock := n }) := by
  rcases cliWrite_frame h with ⟨rfl, _⟩ | ⟨sess, hsess, hsid, hh⟩
  · exact Or.inl hp
  rcases hh with ⟨rfl, rfl⟩ | ⟨wl, queue, suffix, rfl, hst, hh⟩
  · exact Or.inl hp
  have hsuf : ∀ x ∈ suffix, ∃ e ∈ st.queue, ∃ n, x = { e with lock := n } := by
    intro x hx
    rcases cliStart_spec hst with ⟨_, _, rfl⟩ | ⟨id, pre, _, rfl, hs, _⟩
    · exact ⟨x, hx, x.lock, rfl⟩
    · have : x ∈ setLock st.queue id (fun n => n + 255) := by rw [hs]; exact List.mem_append_right _ hx
      obtain ⟨e, he, rfl⟩ := List.mem_map.mp this
      refine ⟨e, he, ?_⟩
      split
      · exact ⟨_, rfl⟩
      · exact ⟨e.lock, rfl⟩
  have hsent : p ∈ st.sent ++ (cliLoop suffix wl).2.map (fun e => (sid, e)) := by
    rcases hh with ⟨_, _, rfl⟩ | ⟨_, rfl⟩ <;> exact hp
  rcases List.mem_append.mp hsent with hp | hp
  · exact Or.inl hp
  · right
    obtain ⟨x, hx, rfl⟩ := List.mem_map.mp hp
    rw [(cliLoop_spec suffix wl).1] at hx
    obtain ⟨e, he, n, rfl⟩ := hsuf x (List.mem_of_mem_take hx)
    exact ⟨e, he, n, rfl⟩

/-- A client that reads without blocking gets the whole table. -/
theorem C33_whole (o : Opts) (l : List Netif) (ops : List ChildOp) (st st' : Child)
    (h : childRun o { netifs := l } ops = .ok st) (n : Nat) (hn : st.queue.length ≤ n)
    (hw : cliWrite st.nextId (some (List.replicate n .ok)) (cliAccept st) = .ok st') :
    delivered st' st.nextId = st.queue := by
  have hi := inv_accept (inv_run (inv_init l) h)
  rcases cliWrite_frame hw with ⟨_, hno⟩ | ⟨sess, hsess, hsid, hh⟩
  · exact absurd rfl (hno { sid := st.nextId } (by simp [cliAccept]))
  rcases hh with ⟨hc, _⟩ | ⟨wl, queue, suffix, hwl, hst, hh⟩
  · cases hc
  cases hwl
  have hnone : sess.msg = none := by
    have hsi := inv_run (inv_init l) h
    rcases List.mem_append.mp hsess with hs | hs
    · have := hsi.sidLt sess hs; omega
    · simp only [List.mem_singleton] at hs; rw [hs]
  have hloop : ∀ (q : List Entry) (n : Nat), q.length ≤ n → cliLoop q (List.replicate n .ok) = (.done, q) := by
    intro q
    induction q with
    | nil => intro n _; cases n <;> rfl
    | cons e q ih =>
      intro n hn
      cases n with
      | zero => simp at hn
      | succ n =>
        rw [List.replicate_succ, cliLoop]
        simp only
        rw [ih n (by simpa using hn)]
  rcases cliStart_spec hst with ⟨_, rfl, rfl⟩ | ⟨id, pre, hm, _⟩
  · rw [hloop (cliAccept st).queue n hn] at hh
    rcases hh with ⟨c, hc, _⟩ | ⟨_, rfl⟩
    · cases hc
    · have hold : st.sent.filter (fun p => p.1 == st.nextId) = [] := by
        rw [List.filter_eq_nil_iff]
        intro p hp
        have := ((inv_run (inv_init l) h).sentLt p hp).1
        simp only [beq_iff_eq]
        omega
      unfold delivered
      simp only [cliAccept]
      rw [List.filter_append, hold, List.nil_append, List.filter_eq_self.mpr (by simp), List.map_map]
      exact List.map_id _
  · rw [hnone] at hm; cases hm

/-- A client blocked after the first entry; meanwhile a neighbour is added. -/
example : let ops := [ChildOp.recv (some 100) (sampleMsg 1), .recv (some 100) (sampleMsg 2), .accept,
      .write 2 (some [.ok, .again]), .recv (some 101) (sampleCdp 1 180), .write 2 (some [.ok, .ok, .ok])]
    ∃ st, childRun 0 sampleState ops = .ok st ∧ (delivered st 2).map (·.id) = [0, 1] ∧
      st.queue.map (·.id) = [0, 3, 1] ∧ st.sessions = [] := by
  refine ⟨(match childRun 0 sampleState [ChildOp.recv (some 100) (sampleMsg 1), .recv (some 100) (sampleMsg 2), .accept,
      .write 2 (some [.ok, .again]), .recv (some 101) (sampleCdp 1 180), .write 2 (some [.ok, .ok, .ok])] with
    | .ok st => st | _ => {}), ?_⟩
  decide +kernel

end Ladvd.Props
