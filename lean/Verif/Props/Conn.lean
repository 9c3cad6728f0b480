import Verif.Lemmas.Conn
import Verif.Props.Cli
/-!
# C77 What the daemon knows reaches its client
-/

namespace Ladvd.Props
open Spec

theorem conn_delivered {s : Server} (h : ConnCarries s) (sid : Nat) : s.conn sid = (delivered s.child sid).map entryBytes := by
  unfold Server.conn delivered
  rw [show s.data = _ from h, List.filter_map, List.map_map, List.map_map]
  rfl

theorem typed_init {l : List Netif} (h : ∀ n ∈ l, IfName n.name) : Typed { netifs := l } :=
  ⟨h, fun _ h => (nomatch h), fun _ h => (nomatch h)⟩

/-- Where local sockets keep message boundaries: whatever has happened since the daemon started, reading its connection tells a client every entry
recorded as sent to it, in order and unchanged, and nothing else. -/
theorem C77_packets (o : Opts) (pipe : Bool) (l : List Netif) (ops : List ServOp) (s : Server) (hl : ∀ n ∈ l, IfName n.name)
    (hp : ∀ op ∈ ops, Possible op.seen) (h : servRun o .packets pipe { child := { netifs := l } } ops = .on s) (sid : Nat)
    (avail : Nat → Nat) : AllTold (delivered s.child sid) (connRead .packets avail (s.conn sid)) := by
  obtain ⟨-, ht, hc⟩ := servRun_carries (s := { child := { netifs := l } }) (typed_init hl) rfl hp (Or.inl rfl) h
  rw [conn_delivered hc, connRead_entries (Or.inl rfl) (fun e he => ?_)]
  · exact allTold_map _
  · unfold delivered at he
    obtain ⟨x, hx, rfl⟩ := List.mem_map.mp he
    exact ht.sent x (List.mem_filter.mp hx).1

/-- The full statement, that the type of the socket does not matter, is false (`C77_short_write`, `C77_short_read`).  It holds for a byte stream
if the system never splits a message, neither when writing nor when reading. -/
theorem C77_stream_partial (o : Opts) (pipe : Bool) (l : List Netif) (ops : List ServOp) (s : Server) (hl : ∀ n ∈ l, IfName n.name)
    (hp : ∀ op ∈ ops, Possible op.seen) (hw : ∀ op ∈ ops, WholeOp op)
    (h : servRun o .stream pipe { child := { netifs := l } } ops = .on s) (sid : Nat)
    (avail : Nat → Nat) (ha : ∀ i, 1558 ≤ avail i) : AllTold (delivered s.child sid) (connRead .stream avail (s.conn sid)) := by
  obtain ⟨-, ht, hc⟩ := servRun_carries (s := { child := { netifs := l } }) (typed_init hl) rfl hp (Or.inr hw) h
  rw [conn_delivered hc, connRead_entries (Or.inr ha) (fun e he => ?_)]
  · exact allTold_map _
  · unfold delivered at he
    obtain ⟨x, hx, rfl⟩ := List.mem_map.mp he
    exact ht.sent x (List.mem_filter.mp hx).1

/-- From the bytes of the connection to the display: over packets, the client shows the entries of the table as long as none has expired. -/
theorem C77_shown (o : Opts) (pipe : Bool) (l : List Netif) (ops : List ServOp) (s : Server) (hl : ∀ n ∈ l, IfName n.name)
    (hp : ∀ op ∈ ops, Possible op.seen) (h : servRun o .packets pipe { child := { netifs := l } } ops = .on s) (sid : Nat)
    (avail : Nat → Nat) (c : CliConf) (now : Int) (ho : c.once = false) (hc : c.mode ≠ .print)
    (hsel : ∀ e ∈ delivered s.child sid, Selected c (CliIn.ofEntry e))
    (hnow : ∀ e ∈ delivered s.child sid, now - e.received ≤ e.ttl ∧ e.received ≤ now) :
    clientLoop c now {} (connRead .packets avail (s.conn sid)) = .ok ((delivered s.child sid).map (fun e => ([], some
      { index := e.index, name := e.name, proto := e.proto, ttl := e.ttl, hold := (e.ttl - (now - e.received)).toNat,
        peer := e.peer, frame := e.msg.take e.len }))) := by
  obtain ⟨hr, ht, hcc⟩ := servRun_carries (s := { child := { netifs := l } }) (typed_init hl) rfl hp (Or.inl rfl) h
  rw [conn_delivered hcc, connRead_entries (Or.inl rfl) (fun e he => ?_)]
  · refine C20_daemon o l (ops.map ServOp.seen) s.child hr (fun t r hm => ?_) sid c now ho hc hsel hnow
    obtain ⟨op, ho, he⟩ := List.mem_map.mp hm
    have := hp op ho
    rw [he] at this
    exact ⟨this.2.2.2.1, this.2.2.2.2⟩
  · unfold delivered at he
    obtain ⟨x, hx, rfl⟩ := List.mem_map.mp he
    exact ht.sent x (List.mem_filter.mp hx).1

/-! ## Departing clients -/

theorem connLoop_quiet {k : ConnKind} : ∀ (es : List Entry) (ws : List ConnRes), (connLoop k false es ws).1 = false := by
  intro es
  induction es with
  | nil => intro ws; cases ws <;> rfl
  | cons e es ih =>
    intro ws
    cases ws with
    | nil => rfl
    | cons w ws =>
      cases w with
      | wrote n => exact ih ws
      | again => rfl
      | gone => rfl
      | err => rfl

theorem connPlan_quiet (k : ConnKind) (sid : Nat) (ws : Option (List ConnRes)) (c : Child) : (connPlan k false sid ws c).1 = false := by
  unfold connPlan
  split
  · split
    · exact connLoop_quiet _ _
    · rfl
  · rfl

/-- Clients may come and go: where writing to a departed client is only an error, no history of connections ends the daemon. -/
theorem C77_survives_partial (o : Opts) (k : ConnKind) (ops : List ServOp) : ∀ (s : Server), servRun o k false s ops ≠ .killed := by
  have hof : ∀ s d r, Served.of s d r ≠ .killed := by
    intro s d r h
    cases r <;> cases h
  induction ops with
  | nil => intro s h; cases h
  | cons op ops ih =>
    intro s h
    rw [servRun] at h
    split at h
    · exact ih _ h
    · next r hr =>
      have hk : servStep o k false s op ≠ .killed := by
        cases op with
        | write sid ws =>
          show connWrite k false sid ws s ≠ .killed
          unfold connWrite
          rw [connPlan_quiet, if_neg (by decide)]
          exact hof _ _ _
        | recv now r => exact hof _ _ _
        | expire now => exact hof _ _ _
        | fetch l => exact nofun
        | accept => exact nofun
      exact hk h

/-- An entry apart from the number of sessions waiting at it. -/
def unlocked (e : Entry) : Entry := { e with lock := 0 }

theorem setLock_unlocked (q : List Entry) (id : Nat) (f : Nat → Nat) : (setLock q id f).map unlocked = q.map unlocked := by
  unfold setLock
  rw [List.map_map]
  refine List.map_congr_left (fun e _ => ?_)
  simp only [Function.comp]
  split <;> rfl

/-- Whatever the results of writing to a client are, its departure included, the table keeps its entries and the other clients' sessions stay as
they are. -/
theorem C77_others (k : ConnKind) (pipe : Bool) (sid : Nat) (ws : Option (List ConnRes)) (s s' : Server)
    (h : connWrite k pipe sid ws s = .on s') :
    s'.child.sessions.filter (fun t => t.sid != sid) = s.child.sessions.filter (fun t => t.sid != sid) ∧
    s'.child.queue.map unlocked = s.child.queue.map unlocked ∧ ∀ i, i ≠ sid → s'.conn i = s.conn i := by
  obtain ⟨hc, hd⟩ := connWrite_on h
  refine ⟨?_, ?_, fun i hi => ?_⟩
  · rcases cliWrite_frame hc with ⟨e, -⟩ | ⟨sess, -, -, ⟨-, e⟩ | ⟨wl, queue, suffix, -, hst, ⟨c, -, e⟩ | ⟨-, e⟩⟩⟩
    · rw [e]
    · rw [e]; simp
    · rw [e]
      dsimp only
      generalize s.child.sessions = l
      induction l with
      | nil => rfl
      | cons t l ih =>
        simp only [List.map_cons, List.filter_cons, ih]
        by_cases ht : t.sid = sid
        · simp [ht]
        · simp [ht]
    · rw [e]; simp
  · rcases cliWrite_frame hc with ⟨e, -⟩ | ⟨sess, -, -, ⟨-, e⟩ | ⟨wl, queue, suffix, -, hst, hh⟩⟩
    · rw [e]
    · rw [e]
    · have hq : queue.map unlocked = s.child.queue.map unlocked := by
        rcases cliStart_spec hst with ⟨_, e1, _⟩ | ⟨id, pre, _, e1, _, _⟩
        · rw [e1]
        · rw [e1]; exact setLock_unlocked _ _ _
      rcases hh with ⟨c, -, e⟩ | ⟨-, e⟩
      · rw [e]; dsimp only; rw [setLock_unlocked, hq]
      · rw [e]; exact hq
  · unfold Server.conn
    rw [hd, List.filter_append, List.map_append]
    have : (List.map (fun b => (sid, b)) (connPlan k pipe sid ws s.child).2).filter (fun p => p.1 == i) = [] := by
      rw [List.filter_eq_nil_iff]
      intro p hp
      obtain ⟨b, -, rfl⟩ := List.mem_map.mp hp
      simpa using fun e : sid = i => hi e.symm
    rw [this]
    simp

/-- Two neighbours are heard, two clients connect; the second one leaves, the first one reads. -/
def departOps : List ServOp :=
  [.recv (some 100) (sampleCdp 7 180), .recv (some 101) (sampleMsg 8), .accept, .accept, .write 3 (some [.gone]),
   .write 2 (some [.wrote 1558, .wrote 1558])]

/-- The state after a history. -/
def servedState (k : ConnKind) (ops : List ServOp) : Server := match servRun 0 k false { child := sampleState } ops with
  | .on s => s
  | _ => {}

theorem sample_possible : ∀ op ∈ departOps, Possible op.seen := by
  intro op h
  simp only [departOps, List.mem_cons, List.not_mem_nil, or_false] at h
  rcases h with rfl | rfl | rfl | rfl | rfl | rfl
  · exact ⟨by rintro _ ⟨rfl⟩; decide, by decide +kernel, by decide, by decide +kernel, by decide⟩
  · exact ⟨by rintro _ ⟨rfl⟩; decide, by decide +kernel, by decide, by decide +kernel, by decide⟩
  all_goals trivial

/-- The departure does not harm the other client, which is told both neighbours. -/
example : (∀ n ∈ sampleState.netifs, IfName n.name) ∧ (∀ op ∈ departOps, Possible op.seen) ∧
    servRun 0 .packets false { child := sampleState } departOps = .on (servedState .packets departOps) ∧
    (delivered (servedState .packets departOps).child 2).map (·.proto) = [1, 4] ∧
    (connRead .packets (fun _ => 0) ((servedState .packets departOps).conn 2)).map (fun c => (c.name, c.proto, c.received)) =
      [(lit "eth0", 1, 100), (lit "eth0", 4, 101)] ∧ (servedState .packets departOps).child.sessions = [] :=
  ⟨by decide +kernel, sample_possible, by decide +kernel, by decide +kernel, by decide +kernel, by decide +kernel⟩

/-- The same over a byte stream that is not split. -/
example : (∀ op ∈ departOps, WholeOp op) ∧
    servRun 0 .stream false { child := sampleState } departOps = .on (servedState .stream departOps) ∧
    (connRead .stream (fun _ => 1558) ((servedState .stream departOps).conn 2)).map (fun c => (c.name, c.proto, c.received)) =
      [(lit "eth0", 1, 100), (lit "eth0", 4, 101)] := by
  refine ⟨fun op h => ?_, by decide +kernel, by decide +kernel⟩
  simp only [departOps, List.mem_cons, List.not_mem_nil, or_false] at h
  rcases h with rfl | rfl | rfl | rfl | rfl | rfl
  case inr.inr.inr.inr.inl => intro n h; simp at h
  case inr.inr.inr.inr.inr => intro n h; simp at h; subst h; decide
  all_goals trivial

/-- Where writing to a departed client raises a signal (every stream, and all local sockets of the BSD systems), a client that leaves before it
was served kills the daemon. -/
theorem C77_killed (k : ConnKind) : servRun 0 k true { child := sampleState } departOps = .killed := by
  cases k <;> decide +kernel

/-! ## Byte streams -/

theorem allTold_length : ∀ {es : List Entry} {cs : List CliIn}, AllTold es cs → cs.length = es.length
  | [], [], _ => rfl
  | _ :: _, _ :: _, h => congrArg (· + 1) (allTold_length h.2)
  | [], _ :: _, h => nomatch h
  | _ :: _, [], h => nomatch h

theorem not_allTold {es : List Entry} {cs : List CliIn} (h : cs.length ≠ es.length) : ¬ AllTold es cs := fun ha => h (allTold_length ha)

/-- Two neighbours and a client; the first `write` takes only 50 bytes. -/
def shortOps : List ServOp :=
  [.recv (some 100) (sampleCdp 7 180), .recv (some 101) (sampleMsg 8), .accept, .write 2 (some [.wrote 50, .wrote 1558])]

/-- Over a byte stream a short `write` counts as success: the rest of the message is never sent.  Both entries are taken as delivered, but the client
gets one message, whose frame continues with the header of the next entry. -/
theorem C77_short_write : servRun 0 .stream false { child := sampleState } shortOps = .on (servedState .stream shortOps) ∧
    (delivered (servedState .stream shortOps).child 2).length = 2 ∧
    ¬ AllTold (delivered (servedState .stream shortOps).child 2) (connRead .stream (fun _ => 1558) ((servedState .stream shortOps).conn 2)) ∧
    (connRead .stream (fun _ => 1558) ((servedState .stream shortOps).conn 2)).map (fun c => (c.len, c.msg.take 20)) =
      [(62, (sampleCdp 7 180).msg.take 10 ++ [3, 0, 0, 0] ++ lit "eth0" ++ [0, 0])] := by
  have hl : (connRead .stream (fun _ => 1558) ((servedState .stream shortOps).conn 2)).length ≠
      (delivered (servedState .stream shortOps).child 2).length := by decide +kernel
  exact ⟨by decide +kernel, by decide +kernel, not_allTold hl, by decide +kernel⟩

/-- And a `read` that returns less than a message ends the client's loop: everything was sent, but nothing is shown. -/
theorem C77_short_read : (delivered (servedState .stream departOps).child 2).length = 2 ∧
    connRead .stream (fun _ => 1000) ((servedState .stream departOps).conn 2) = [] := by
  decide +kernel

end Ladvd.Props
