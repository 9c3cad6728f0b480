import Verif.Lemmas.Auto
/-!
# Histories of the whole process
-/

namespace Ladvd

open Spec

theorem daemonRun_append (c : Conf) (a b : List Event) (d : Daemon) :
    daemonRun c (a ++ b) d = (daemonRun c a d).bind (daemonRun c b) := by
  induction a generalizing d with
  | nil => rfl
  | cons e a ih =>
    rw [List.cons_append, daemonRun, daemonRun]
    cases h : daemonStep c d e with
    | ok d1 => simp only [Res.bind_ok]; exact ih d1
    | fail => rfl
    | oob => rfl
    | abort => rfl
    | stuck => rfl

theorem daemonRun_snoc {c : Conf} {es : List Event} {e : Event} {d d1 d2 : Daemon} (h : daemonRun c es d = .ok d1)
    (he : daemonStep c d1 e = .ok d2) : daemonRun c (es ++ [e]) d = .ok d2 := by
  rw [daemonRun_append, h]
  simp only [Res.bind_ok, daemonRun, he]

/-- Induction along a history. -/
theorem run_induction {c : Conf} {d0 : Daemon} {P : List Event → Daemon → Prop} (h0 : P [] d0)
    (hs : ∀ es e d d', daemonRun c es d0 = .ok d → P es d → daemonStep c d e = .ok d' → P (es ++ [e]) d') :
    ∀ es d, daemonRun c es d0 = .ok d → P es d := by
  have aux : ∀ (es pre : List Event) (dm d : Daemon), daemonRun c pre d0 = .ok dm → P pre dm →
      daemonRun c es dm = .ok d → P (pre ++ es) d := by
    intro es
    induction es with
    | nil => intro pre dm d _ hp h; cases h; rw [List.append_nil]; exact hp
    | cons e es ih =>
      intro pre dm d hpre hp h
      rw [daemonRun] at h
      cases he : daemonStep c dm e with
      | ok d1 =>
        rw [he] at h
        have := ih (pre ++ [e]) d1 d (daemonRun_snoc hpre he) (hs pre e dm d1 hpre hp he) h
        rwa [List.append_assoc] at this
      | fail => rw [he] at h; cases h
      | oob => rw [he] at h; cases h
      | abort => rw [he] at h; cases h
      | stuck => rw [he] at h; cases h
  intro es d h
  exact aux es [] d0 d rfl h0 h

/-- One round of `child_send`: the list is the old one or the refreshed one, and messages are sent for it. -/
theorem sendRound_sent {c : Conf} {k : Kernel} {m : Media} {link : Option Nat} {d d' : Daemon}
    (h : sendRound c k m link d = .ok d') :
    ∃ d1 new, (d1 = d ∨ d1 = (daemonFetch c k d).1) ∧ Sent d1 d' new ∧ (∀ t ∈ new, Origin c d1 t) := by
  rcases sendRound_ok h with ⟨h, -⟩ | ⟨h, -⟩ | ⟨-, -, -, h⟩
  · exact ⟨d, [], Or.inl rfl, h ▸ Sent.refl _, fun _ ht => nomatch ht⟩
  · exact ⟨_, [], Or.inr rfl, h ▸ Sent.refl _, fun _ ht => nomatch ht⟩
  · obtain ⟨new, hs, -, ho, -⟩ := sendNetifs_ok (mediaFun _) _ h
    exact ⟨_, new, Or.inr rfl, hs, ho⟩

theorem Sent.child {d d' : Daemon} {new : List Tx} (h : Sent d d' new) :
    d'.child = { d.child with netifs := d'.child.netifs } := by
  have h1 := congrArg Prod.fst h.rest
  have : d'.child = { ({ d'.child with netifs := [] } : Child) with netifs := d'.child.netifs } := rfl
  rw [this]
  change ({ d'.child with netifs := [] } : Child) = { d.child with netifs := [] } at h1
  rw [h1]

theorem daemonFetch_child (c : Conf) (k : Kernel) (d : Daemon) :
    (daemonFetch c k d).1.child = { d.child with netifs := (daemonFetch c k d).1.child.netifs } := rfl

theorem daemonFetch_tx (c : Conf) (k : Kernel) (d : Daemon) : (daemonFetch c k d).1.tx = d.tx := rfl

theorem sendRound_child {c : Conf} {k : Kernel} {m : Media} {link : Option Nat} {d d' : Daemon}
    (h : sendRound c k m link d = .ok d') :
    d'.child = { d.child with netifs := d'.child.netifs } := by
  obtain ⟨d1, new, hd, hs, -⟩ := sendRound_sent h
  rw [hs.child]
  rcases hd with rfl | rfl <;> rfl

theorem sendRound_protos {c : Conf} {k : Kernel} {m : Media} {link : Option Nat} {d d' : Daemon}
    (h : sendRound c k m link d = .ok d') {p : Nat} : ∀ n ∈ d'.child.netifs, n.protos.testBit p = true →
      ∃ x ∈ d.child.netifs, x.index = n.index ∧ x.protos.testBit p = true := by
  intro n hn hp
  obtain ⟨d1, new, hd, hs, -⟩ := sendRound_sent h
  have hmem : static n ∈ d'.child.netifs.map static := List.mem_map_of_mem hn
  rw [hs.same] at hmem
  obtain ⟨y, hy, he⟩ := List.mem_map.mp hmem
  have hyi : y.index = n.index := show (static y).index = (static n).index by rw [he]
  have hyp : y.protos = n.protos := show (static y).protos = (static n).protos by rw [he]
  rcases hd with rfl | rfl
  · exact ⟨y, hy, hyi, hyp ▸ hp⟩
  · obtain ⟨x, hx, hxi, hxp⟩ := fetch_protos c.opts c.names c.mgmt k _ p y hy (hyp ▸ hp)
    exact ⟨x, hx, hxi.trans hyi, hxp⟩

/-- The process is a history of table operations. -/
theorem step_child {c : Conf} {d d' : Daemon} {e : Event} (h : daemonStep c d e = .ok d') :
    ∃ ops, childRun c.opts d.child ops = .ok d'.child := by
  have hlift : ∀ {d d' : Daemon} {r : Res Child}, d.lift r = .ok d' → r = .ok d'.child := by
    intro d d' r h
    unfold Daemon.lift at h
    cases r with
    | ok ch => injection h with h; subst h; rfl
    | fail => cases h
    | oob => cases h
    | abort => cases h
    | stuck => cases h
  have hone : ∀ op, childStep c.opts d.child op = .ok d'.child → childRun c.opts d.child [op] = .ok d'.child := by
    intro op h
    simp only [childRun, h, Res.bind_ok]
  cases e with
  | timer k m now =>
    rw [daemonStep] at h
    cases hr : sendRound c k m none d with
    | ok d1 =>
      rw [hr] at h
      simp only [Res.bind_ok] at h
      have hc := sendRound_child hr
      have hf : childStep c.opts d.child (.fetch d1.child.netifs) = .ok d1.child := by
        rw [childStep]; exact congrArg Res.ok hc.symm
      split at h
      · have := hlift h
        refine ⟨[.fetch d1.child.netifs, .expire now], ?_⟩
        simp only [childRun, hf, Res.bind_ok]
        simp only [childStep, this, Res.bind_ok]
      · injection h with h
        subst h
        refine ⟨[.fetch d1.child.netifs], ?_⟩
        simp only [childRun, hf, Res.bind_ok]
    | fail => rw [hr] at h; cases h
    | oob => rw [hr] at h; cases h
    | abort => rw [hr] at h; cases h
    | stuck => rw [hr] at h; cases h
  | link k m a b i =>
    rw [daemonStep] at h
    split at h
    · refine ⟨[.fetch d'.child.netifs], hone _ ?_⟩
      rw [childStep]; exact congrArg Res.ok (sendRound_child h).symm
    · injection h with h
      subst h
      exact ⟨[], rfl⟩
  | recv now r => exact ⟨[.recv now r], hone _ (hlift h)⟩
  | accept => exact ⟨[.accept], hone _ (hlift h)⟩
  | write sid ws => exact ⟨[.write sid ws], hone _ (hlift h)⟩

theorem run_child {c : Conf} {es : List Event} {d d' : Daemon} (h : daemonRun c es d = .ok d') :
    ∃ ops, childRun c.opts d.child ops = .ok d'.child := by
  refine run_induction (P := fun _ d' => ∃ ops, childRun c.opts d.child ops = .ok d'.child) ⟨[], rfl⟩ ?_ es d' h
  intro es e d1 d2 _ ⟨ops, ho⟩ he
  obtain ⟨ops', ho'⟩ := step_child he
  refine ⟨ops ++ ops', ?_⟩
  rw [childRun_append, ho]
  exact ho'

/-! ## Where protocol bits come from -/

/-- What every moment of a history satisfies. -/
structure AutoInv (c : Conf) (d0 : Daemon) (es : List Event) (d : Daemon) : Prop where
  queue : ∀ q ∈ d.child.queue, ∀ p : Proto, q.proto = p.num → Heard es q.index p
  bits : ∀ n ∈ d.child.netifs, ∀ p : Proto, n.protos.testBit p.num = true →
    c.opts.has OPT_AUTO = true ∧ ∃ j, AttachedDuring c es d0 n.index j ∧ Heard es j p

theorem heard_snoc {es : List Event} {e : Event} {j : Nat} {p : Proto} (h : Heard es j p) : Heard (es ++ [e]) j p := by
  obtain ⟨now, r, hm, h⟩ := h
  exact ⟨now, r, List.mem_append_left _ hm, h⟩

theorem attachedDuring_snoc {c : Conf} {es : List Event} {e : Event} {d : Daemon} {i j : Nat}
    (h : AttachedDuring c es d i j) : AttachedDuring c (es ++ [e]) d i j := by
  obtain ⟨pre, post, dm, rfl, h⟩ := h
  exact ⟨pre, post ++ [e], dm, by rw [List.append_assoc], h⟩

theorem queue_of_put {q : List Entry} {e x : Entry} (hx : x ∈ queuePut q e) :
    (x.index = e.index ∧ x.proto = e.proto) ∨ x ∈ q := by
  rcases queuePut_cases q e with ⟨l1, o, l2, h1, h2, _, h4⟩ | ⟨hn, l1, l2, h1, h2, _, _⟩
  · rw [h4] at hx
    rw [h1]
    rcases List.mem_append.mp hx with hx | hx
    · exact Or.inr (List.mem_append_left _ hx)
    · rcases List.mem_cons.mp hx with rfl | hx
      · exact Or.inl ⟨rfl, rfl⟩
      · exact Or.inr (List.mem_append_right _ (List.mem_cons_of_mem _ hx))
  · rw [h2] at hx
    rw [h1]
    rcases List.mem_append.mp hx with hx | hx
    · exact Or.inr (List.mem_append_left _ hx)
    · rcases List.mem_cons.mp hx with rfl | hx
      · exact Or.inl ⟨rfl, rfl⟩
      · exact Or.inr (List.mem_append_right _ hx)

/-- Interface and protocol of an entry. -/
def origin (e : Entry) : Nat × Nat := (e.index, e.proto)

theorem cliWrite_origin {sid : Nat} {ws : Option (List WriteRes)} {st st' : Child} (h : cliWrite sid ws st = .ok st') :
    st'.netifs = st.netifs ∧ st'.queue.map origin = st.queue.map origin := by
  have hlock : ∀ q id f, (setLock q id f).map origin = q.map origin := fun q id f => setLock_map q id f origin (fun _ _ => rfl)
  rcases cliWrite_frame h with ⟨rfl, -⟩ | ⟨sess, hs, -, ⟨-, rfl⟩ | ⟨wl, queue, suffix, -, hst, h⟩⟩
  · exact ⟨rfl, rfl⟩
  · exact ⟨rfl, rfl⟩
  · have hq : queue.map origin = st.queue.map origin := by
      unfold cliStart at hst
      split at hst
      · injection hst with hst; injection hst with h1 h2; rw [h1]
      · dsimp only at hst
        split at hst
        · cases hst
        · injection hst with hst; injection hst with h1 h2; rw [← h1, hlock]
    rcases h with ⟨x, -, rfl⟩ | ⟨-, rfl⟩
    · exact ⟨rfl, (hlock _ _ _).trans hq⟩
    · exact ⟨rfl, hq⟩

theorem autoInv_step {c : Conf} {d0 : Daemon} {es : List Event} {e : Event} {d d' : Daemon}
    (hrun : daemonRun c es d0 = .ok d) (h : AutoInv c d0 es d) (hs : daemonStep c d e = .ok d') :
    AutoInv c d0 (es ++ [e]) d' := by
  have hrun' := daemonRun_snoc hrun hs
  have hatt : ∀ {i j : Nat}, Attached d'.child.netifs i j → AttachedDuring c (es ++ [e]) d0 i j :=
    fun ha => ⟨es ++ [e], [], d', by rw [List.append_nil], hrun', ha⟩
  -- a round of `child_send`
  have hround : ∀ {k m link d1}, sendRound c k m link d = .ok d1 → AutoInv c d0 es { d1 with tx := d1.tx } := by
    intro k m link d1 hr
    refine ⟨?_, ?_⟩
    · intro q hq
      rw [sendRound_child hr] at hq
      exact h.queue q hq
    · intro n hn p hp
      obtain ⟨x, hx, hxi, hxp⟩ := sendRound_protos hr n hn hp
      have := h.bits x hx p hxp
      rwa [hxi] at this
  -- an operation on the table starting from `d1`
  have hop : ∀ (d1 : Daemon) (Q : List Entry), AutoInv c d0 es d1 →
      d'.child.netifs.map shape = d1.child.netifs.map shape →
      BitFrom c.opts d1.child.netifs Q d'.child.netifs →
      (∀ q ∈ d'.child.queue, q ∈ Q) →
      (∀ q ∈ Q, ∀ p : Proto, q.proto = p.num → Heard (es ++ [e]) q.index p) → AutoInv c d0 (es ++ [e]) d' := by
    intro d1 Q h1 hsh hb hsub hQ
    refine ⟨fun q hq p hp => hQ q (hsub q hq) p hp, ?_⟩
    intro n hn p hp
    rcases hb n hn p.num hp with ⟨x, hx, hxi, hxp⟩ | ⟨ha, q, hq, hqp, hat⟩
    · obtain ⟨ha, j, hj, hh⟩ := h1.bits x hx p hxp
      rw [hxi] at hj
      exact ⟨ha, j, attachedDuring_snoc hj, heard_snoc hh⟩
    · exact ⟨ha, q.index, hatt (attached_shape hsh.symm hat), hQ q hq p hqp⟩
  have hweak : AutoInv c d0 es d' → AutoInv c d0 (es ++ [e]) d' := by
    intro h1
    refine ⟨fun q hq p hp => heard_snoc (h1.queue q hq p hp), ?_⟩
    intro n hn p hp
    obtain ⟨ha, j, hj, hh⟩ := h1.bits n hn p hp
    exact ⟨ha, j, attachedDuring_snoc hj, heard_snoc hh⟩
  have hlift : ∀ {d1 : Daemon} {r : Res Child}, d1.lift r = .ok d' → ∃ ch, r = .ok ch ∧ d' = { d1 with child := ch } := by
    intro d1 r h
    unfold Daemon.lift at h
    cases r with
    | ok ch => injection h with h; exact ⟨ch, rfl, h.symm⟩
    | fail => cases h
    | oob => cases h
    | abort => cases h
    | stuck => cases h
  cases e with
  | timer k m now =>
    rw [daemonStep] at hs
    cases hr : sendRound c k m none d with
    | ok d1 =>
      rw [hr] at hs
      simp only [Res.bind_ok] at hs
      have h1 := hround hr
      split at hs
      · obtain ⟨ch, hc, rfl⟩ := hlift hs
        obtain ⟨a, b⟩ := childExpire_bits hc
        have hq := (childExpire_frame hc).1
        refine hop d1 d1.child.queue h1 a b ?_ ?_
        · intro q hq'
          dsimp only at hq'
          rw [hq] at hq'
          exact (List.mem_filter.mp hq').1
        · intro q hq' p hp
          exact heard_snoc (h1.queue q hq' p hp)
      · injection hs with hs
        subst hs
        exact hweak h1
    | fail => rw [hr] at hs; cases hs
    | oob => rw [hr] at hs; cases hs
    | abort => rw [hr] at hs; cases hs
    | stuck => rw [hr] at hs; cases hs
  | link k m a b i =>
    rw [daemonStep] at hs
    split at hs
    · exact hweak (hround hs)
    · injection hs with hs
      subst hs
      exact hweak h
  | recv now r =>
    obtain ⟨ch, hc, rfl⟩ := hlift hs
    rw [childStep] at hc
    rcases childQueue_bits hc with rfl | ⟨x, hxi, hxa, hsh, hb, hq⟩
    · exact hweak h
    · refine hop d (x :: queuePut d.child.queue x) h hsh hb (fun q hq' => List.mem_cons_of_mem _ (hq q hq')) ?_
      have hx : ∀ p : Proto, x.proto = p.num → Heard (es ++ [.recv now r]) x.index p := fun p hp =>
        ⟨now, r, List.mem_append_right _ (List.mem_singleton.mpr rfl), hxi.symm, hxa p hp⟩
      intro q hq' p hp
      rcases List.mem_cons.mp hq' with rfl | hq'
      · exact hx p hp
      · rcases queue_of_put hq' with ⟨hi, hpr⟩ | hq'
        · rw [hi]; exact hx p (hpr ▸ hp)
        · exact heard_snoc (h.queue q hq' p hp)
  | accept =>
    obtain ⟨ch, hc, rfl⟩ := hlift hs
    rw [childStep] at hc
    injection hc with hc
    subst hc
    exact hweak ⟨h.queue, h.bits⟩
  | write sid ws =>
    obtain ⟨ch, hc, rfl⟩ := hlift hs
    rw [childStep] at hc
    obtain ⟨hn, hq⟩ := cliWrite_origin hc
    refine hweak ⟨?_, ?_⟩
    · intro q hq' p hp
      have hm : origin q ∈ ch.queue.map origin := List.mem_map_of_mem hq'
      rw [hq] at hm
      obtain ⟨y, hy, he⟩ := List.mem_map.mp hm
      have h1 : y.index = q.index := congrArg Prod.fst he
      have h2 : y.proto = q.proto := congrArg Prod.snd he
      rw [← h1]
      exact h.queue y hy p (h2.trans hp)
    · intro n hn' p hp
      dsimp only at hn'
      rw [hn] at hn'
      exact h.bits n hn' p hp

/-- Every history from the start. -/
theorem autoInv_run {c : Conf} {d0 : Daemon} (h0 : d0.child.netifs = []) (hq : d0.child.queue = []) {es : List Event}
    {d : Daemon} (h : daemonRun c es d0 = .ok d) : AutoInv c d0 es d := by
  refine run_induction (P := AutoInv c d0) ⟨?_, ?_⟩ (fun es e d d' hr hp hs => autoInv_step hr hp hs) es d h
  · rw [hq]; intro q hq; cases hq
  · rw [h0]; intro n hn; cases hn

end Ladvd
