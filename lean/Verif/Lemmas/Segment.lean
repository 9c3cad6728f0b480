import Verif.Spec.Segment
import Verif.Props.Network
import Verif.Props.Timer
import Verif.Props.Latest
/-!
# Systems on a segment, whatever they run on
-/

namespace Ladvd.Props

open Spec

theorem run_cons {c : Conf} {e : Event} {es : List Event} {d d' : Daemon} (h : daemonRun c (e :: es) d = .ok d') :
    ∃ d1, daemonStep c d e = .ok d1 ∧ daemonRun c es d1 = .ok d' := by
  rw [daemonRun] at h
  cases hs : daemonStep c d e with
  | ok d1 => rw [hs] at h; exact ⟨d1, rfl, h⟩
  | fail => rw [hs] at h; cases h
  | oob => rw [hs] at h; cases h
  | abort => rw [hs] at h; cases h
  | stuck => rw [hs] at h; cases h

/-- A system that announces itself, by its host name and what it transmits when its interfaces are the given ones. -/
structure Speaker where
  host : Bytes
  sends : List Netif → Tx → Prop

/-- What it transmits is learned by another ladvd if it passes the filter, which it does unless the protocol is EDP. -/
def Speaker.Sound (s : Speaker) : Prop :=
  ∀ l t, s.sends l t → ((∃ n, bpfFilter protoFilter (Tx.frame t) = .ok n ∧ n ≠ 0) → t.proto ≠ .edp) ∧ (t.proto ≠ .edp →
    ∃ n ∈ l, n.index = t.index ∧ (sourceOf (Tx.frame t) = n.hwaddr ∨ sourceOf (Tx.frame t) = [0, 0, 0, 0, 0, 0]) ∧ Accepts protoFilter (Tx.frame t) ∧
      ∀ (j : Nat) (o : Opts) (now : Int) (st : Child) (subif : Netif), Ends st.netifs →
        st.netifs.find? (fun x => x.index == j) = some subif → (∀ x ∈ st.netifs, x.hwaddr ≠ sourceOf (Tx.frame t)) →
        ∃ fwd st', parentRecv j [Tx.frame t] = .ok [fwd] ∧ childQueue o (some now) (rawOf fwd) st = .ok st' ∧
          ∃ peer, lookup st'.queue (j, t.proto.num, t.proto.dst, sourceOf (Tx.frame t)) = some ⟨subif.name, now, 180, Tx.frame t, peer⟩ ∧
            (t.proto ≠ .ndp → Recovers peer.hostname s.host ∧ Recovers peer.portname n.name) ∧
            ∀ k', k' ≠ (j, t.proto.num, t.proto.dst, sourceOf (Tx.frame t)) → lookup st'.queue k' = lookup st.queue k')

/-- If the event is a reception then of a frame of one of the systems. -/
def SpokenBy (net : Speaker → Prop) : Event → Prop
  | .recv now r => ∃ s l t j fwd time, net s ∧ s.sends l t ∧ (∃ n, bpfFilter protoFilter (Tx.frame t) = .ok n ∧ n ≠ 0) ∧
      parentRecv j [Tx.frame t] = .ok [fwd] ∧ r = rawOf fwd ∧ now = some time
  | _ => True

/-- The neighbour is one of the systems. -/
def RealOf (net : Speaker → Prop) (es : List Event) (k : Key) (i : Info) : Prop :=
  ∃ s l t n, net s ∧ s.sends l t ∧ n ∈ l ∧ n.index = t.index ∧ i.frame = Tx.frame t ∧ i.ttl = 180 ∧
    k = (k.1, t.proto.num, t.proto.dst, sourceOf (Tx.frame t)) ∧ (sourceOf (Tx.frame t) = n.hwaddr ∨ sourceOf (Tx.frame t) = [0, 0, 0, 0, 0, 0]) ∧
    (∃ fwd, parentRecv k.1 [Tx.frame t] = .ok [fwd] ∧ .recv (some i.received) (rawOf fwd) ∈ es) ∧
    (t.proto ≠ .ndp → Recovers i.peer.hostname s.host ∧ Recovers i.peer.portname n.name)

theorem RealOf.more {net : Speaker → Prop} {es : List Event} {k : Key} {i : Info} (h : RealOf net es k i) (e : Event) :
    RealOf net (es ++ [e]) k i := by
  obtain ⟨s, l, t, n, a, b, c, d, e, f, g, h, ⟨fwd, i, j⟩, m⟩ := h
  exact ⟨s, l, t, n, a, b, c, d, e, f, g, h, ⟨fwd, i, List.mem_append_left _ j⟩, m⟩

theorem fwd_fields {j : Nat} {f : Bytes} {fwd : Fwd} (h : parentRecv j [f] = .ok [fwd]) :
    (rawOf fwd).index = j ∧ ((rawOf fwd).msg.drop 6).take 6 = sourceOf f ∧ (rawOf fwd).msg.take 6 = f.take 6 := by
  obtain ⟨d, hd, h60, hf, hi, -⟩ := C28_forward j [f] [fwd] h fwd (List.mem_singleton.mpr rfl)
  rw [List.mem_singleton.mp hd] at h60 hf
  have h6 : ∀ n, n ≤ 60 → ((rawOf fwd).msg).take n = f.take n := by
    intro n hn
    unfold rawOf; dsimp only
    rw [hf, List.take_append_of_le_length (by rw [List.length_take]; omega), List.take_take, Nat.min_eq_left (by omega)]
  refine ⟨hi, ?_, h6 6 (by omega)⟩
  have := congrArg (List.drop 6) (h6 12 (by omega))
  rw [List.drop_take, List.drop_take] at this
  exact this

theorem real_core (net : Speaker → Prop) (hnet : ∀ s, net s → s.Sound) (c : Conf) (d0 : Daemon) (hst : Started d0) (hch : d0.child = {}) (es : List Event)
    (hes : ∀ e ∈ es, SaneEvent e) (hh : ∀ e ∈ es, SpokenBy net e) (d : Daemon) (hr : daemonRun c es d0 = .ok d) :
    (d.child.queue.map neighbour).Nodup ∧ ∀ k i, lookup d.child.queue k = some i → RealOf net es k i := by
  have hinv : ∀ {es d}, daemonRun c es d0 = .ok d → (d.child.queue.map neighbour).Nodup := by
    intro es d hr
    obtain ⟨ops, ho, -⟩ := run_ops hr
    rw [hch] at ho
    exact (inv_run (inv_init []) ho).keys
  refine ⟨hinv hr, ?_⟩
  have key := run_induction (c := c) (d0 := d0)
    (P := fun es d => (∀ e ∈ es, SaneEvent e) → (∀ e ∈ es, SpokenBy net e) → ∀ x ∈ d.child.queue, RealOf net es (neighbour x) (info x)) ?_ ?_ es d hr hes hh
  · intro k i hk
    rw [← knows_iff (hinv hr)] at hk
    obtain ⟨x, hx, rfl, rfl⟩ := hk
    exact key x hx
  · intro _ _ x hx
    rw [hch] at hx
    cases hx
  · intro es e d d' hrun ih hstep hsane hheard
    have hold := ih (fun x hx => hsane x (List.mem_append_left _ hx)) (fun x hx => hheard x (List.mem_append_left _ hx))
    have hgood := good_run hst (fun x hx => hsane x (List.mem_append_left _ hx)) hrun
    have he := hheard e (List.mem_append_right _ (List.mem_singleton.mpr rfl))
    by_cases hrecv : ∃ now r, e = .recv now r
    · obtain ⟨now, r, rfl⟩ := hrecv
      obtain ⟨s, l, t, j, fwd, time, hs, ht, hacc, hfwd, rfl, rfl⟩ := he
      have hedp := (hnet s hs l t ht).1 hacc
      obtain ⟨n, hn, hni, hsrc, -, hlearn⟩ := (hnet s hs l t ht).2 hedp
      obtain ⟨f1, f2, f3⟩ := fwd_fields hfwd
      rw [daemonStep, childStep] at hstep
      have hq : childQueue c.opts (some time) (rawOf fwd) d.child = .ok d'.child := by
        obtain ⟨ch, h1, h2⟩ := lift_ok hstep
        rw [h1, h2]
      by_cases hign : d.child.netifs.find? (fun x => x.index == j) = none ∨ ∃ x ∈ d.child.netifs, x.hwaddr = sourceOf (Tx.frame t)
      · have : d'.child = d.child := by
          refine C16_ignored c.opts (some time) (rawOf fwd) d.child d'.child hq ?_
          rcases hign with h | ⟨x, hx, h⟩
          · exact .inr (.inl (by rw [f1]; exact h))
          · exact .inr (.inr (.inl ⟨x, hx, by rw [f2]; exact h⟩))
        rw [this]
        exact fun x hx => (hold x hx).more _
      · rw [not_or] at hign
        obtain ⟨h1, h2⟩ := hign
        obtain ⟨subif, hsub⟩ := Option.ne_none_iff_exists'.mp h1
        obtain ⟨fwd', st', hfwd', hq', peer, hlook, hnames, hothers⟩ := hlearn j c.opts time d.child subif hgood.ends hsub
          (fun x hx h => h2 ⟨x, hx, h⟩)
        rw [hfwd] at hfwd'
        injection hfwd' with hfwd'
        injection hfwd' with hfwd'
        subst hfwd'
        rw [hq] at hq'
        injection hq' with hq'
        subst hq'
        have hnew : (d'.child.queue.map neighbour).Nodup := by
          refine hinv (es := es ++ [.recv (some time) (rawOf fwd)]) ?_
          rw [daemonRun_append, hrun]
          show daemonRun c [_] d = _
          rw [daemonRun, daemonStep, childStep, hstep]; rfl
        intro x hx
        by_cases hk : neighbour x = (j, t.proto.num, t.proto.dst, sourceOf (Tx.frame t))
        · have hi : lookup d'.child.queue (neighbour x) = some (info x) := (knows_iff hnew _ _).mp ⟨x, hx, rfl, rfl⟩
          rw [hk, hlook] at hi
          injection hi with hi
          rw [← hi, hk]
          exact ⟨s, l, t, n, hs, ht, hn, hni, rfl, rfl, rfl, hsrc, ⟨fwd, hfwd, List.mem_append_right _ (List.mem_singleton.mpr rfl)⟩, hnames⟩
        · have hi : lookup d'.child.queue (neighbour x) = some (info x) := (knows_iff hnew _ _).mp ⟨x, hx, rfl, rfl⟩
          rw [hothers _ hk, ← knows_iff (hinv hrun)] at hi
          obtain ⟨y, hy, h3, h4⟩ := hi
          rw [← h3, ← h4]
          exact (hold y hy).more _
    · exact alive_step (P := fun x => RealOf net (es ++ [e]) (neighbour x) (info x)) (fun _ _ _ h => h)
        (fun _ t r _ _ h => absurd ⟨_, _, h⟩ hrecv) (fun t r h => absurd ⟨_, _, h⟩ hrecv) (fun x hx => (hold x hx).more e) hstep

/-- An advertisement of the system for a protocol from an interface of the given name. -/
def Speaker.Advert (s : Speaker) (p : Proto) (port f : Bytes) : Prop :=
  ∃ l t, s.sends l t ∧ t.proto = p ∧ Tx.frame t = f ∧ ∀ n ∈ l, n.index = t.index → n.name = port

/-- The interface with index `j` exists, is called `name`, and no interface has the address `src`. -/
def Listens (j : Nat) (name src : Bytes) (d : Daemon) : Prop :=
  (∃ n, d.child.netifs.find? (fun x => x.index == j) = some n ∧ n.name = name) ∧ ∀ x ∈ d.child.netifs, x.hwaddr ≠ src

theorem hears {s : Speaker} (hs : s.Sound) {p : Proto} (hedp : p ≠ .edp) {port f : Bytes} (hf : s.Advert p port f) {c : Conf} {d0 : Daemon}
    (h0 : Started d0) {es : List Event} (hes : ∀ e ∈ es, SaneEvent e) {d : Daemon} (hr : daemonRun c es d0 = .ok d) {j : Nat} {name : Bytes}
    (hready : Listens j name (sourceOf f) d) {fwd : Fwd} (hfwd : parentRecv j [f] = .ok [fwd]) (t : Int) {d' : Daemon}
    (hst : daemonStep c d (.recv (some t) (rawOf fwd)) = .ok d') :
    ∃ peer, lookup d'.child.queue (j, p.num, p.dst, sourceOf f) = some ⟨name, t, 180, f, peer⟩ ∧
      (p ≠ .ndp → Recovers peer.hostname s.host ∧ Recovers peer.portname port) := by
  obtain ⟨l, x, ht, rfl, rfl, hname⟩ := hf
  obtain ⟨n, hn, hni, -, -, hlearn⟩ := (hs l x ht).2 hedp
  obtain ⟨⟨subif, hsub, rfl⟩, hown⟩ := hready
  obtain ⟨fwd', st', hfwd', hq', peer, hlook, hnames, -⟩ := hlearn j c.opts t d.child subif (good_run h0 hes hr).ends hsub hown
  rw [hfwd] at hfwd'
  injection hfwd' with hfwd'
  injection hfwd' with hfwd'
  subst hfwd'
  rw [daemonStep, childStep, hq'] at hst
  obtain ⟨ch, h1, h2⟩ := lift_ok hst
  cases h1
  rw [h2, ← hname n hn hni]
  exact ⟨peer, hlook, hnames⟩

theorem kept_core (s : Speaker) (hs : s.Sound) (p : Proto) (hedp : p ≠ .edp) (port : Bytes) (c : Conf) (d0 : Daemon) (h0 : Started d0) (hch : d0.child = {})
    (j : Nat) (name src : Bytes)
    (es1 : List Event) (hes1 : ∀ e ∈ es1, SaneEvent e) (f : Bytes) (hf : s.Advert p port f) (hsrc : sourceOf f = src) (fwd : Fwd)
    (hfwd : parentRecv j [f] = .ok [fwd]) (t0 final : Int) (es2 : List Event) (hes2 : ∀ e ∈ es2, SaneEvent e)
    (hren : Renewed (j, p.num, p.dst, src) 180 (s.Advert p port) t0 es2 final)
    (hready : ∀ pre d, pre <+: .recv (some t0) (rawOf fwd) :: es2 → daemonRun c (es1 ++ pre) d0 = .ok d → Listens j name src d)
    (d : Daemon) (hr : daemonRun c (es1 ++ .recv (some t0) (rawOf fwd) :: es2) d0 = .ok d) :
    ∃ frame peer, s.Advert p port frame ∧ lookup d.child.queue (j, p.num, p.dst, src) = some ⟨name, final, 180, frame, peer⟩ ∧
      (p ≠ .ndp → Recovers peer.hostname s.host ∧ Recovers peer.portname port) := by
  have hinv : ∀ {es d}, daemonRun c es d0 = .ok d → Inv d.child := by
    intro es d hr
    obtain ⟨ops, ho, -⟩ := run_ops hr
    rw [hch] at ho
    exact inv_run (inv_init []) ho
  have key : ∀ (last : Int) (es : List Event) (fin : Int), Renewed (j, p.num, p.dst, src) 180 (s.Advert p port) last es fin →
      ∀ (hist : List Event) (d d' : Daemon) (frame : Bytes) (peer : Peer), (∀ e ∈ hist, SaneEvent e) → (∀ e ∈ es, SaneEvent e) →
      (∀ pre d, pre <+: es → daemonRun c (hist ++ pre) d0 = .ok d → Listens j name src d) →
      daemonRun c hist d0 = .ok d → daemonRun c es d = .ok d' →
      s.Advert p port frame → lookup d.child.queue (j, p.num, p.dst, src) = some ⟨name, last, 180, frame, peer⟩ →
      (p ≠ .ndp → Recovers peer.hostname s.host ∧ Recovers peer.portname port) →
      ∃ frame peer, s.Advert p port frame ∧ lookup d'.child.queue (j, p.num, p.dst, src) = some ⟨name, fin, 180, frame, peer⟩ ∧
        (p ≠ .ndp → Recovers peer.hostname s.host ∧ Recovers peer.portname port) := by
    -- an event that leaves the neighbour alone
    have quiet : ∀ (last fin : Int) (e : Event) (es : List Event), Undisturbed (j, p.num, p.dst, src) (last + 180) e →
        (∀ (hist : List Event) (d d' : Daemon) (frame : Bytes) (peer : Peer), (∀ e ∈ hist, SaneEvent e) → (∀ e ∈ es, SaneEvent e) →
          (∀ pre d, pre <+: es → daemonRun c (hist ++ pre) d0 = .ok d → Listens j name src d) →
          daemonRun c hist d0 = .ok d → daemonRun c es d = .ok d' →
          s.Advert p port frame → lookup d.child.queue (j, p.num, p.dst, src) = some ⟨name, last, 180, frame, peer⟩ →
          (p ≠ .ndp → Recovers peer.hostname s.host ∧ Recovers peer.portname port) →
          ∃ frame peer, s.Advert p port frame ∧ lookup d'.child.queue (j, p.num, p.dst, src) = some ⟨name, fin, 180, frame, peer⟩ ∧
            (p ≠ .ndp → Recovers peer.hostname s.host ∧ Recovers peer.portname port)) →
        ∀ (hist : List Event) (d d' : Daemon) (frame : Bytes) (peer : Peer), (∀ e ∈ hist, SaneEvent e) → (∀ x ∈ e :: es, SaneEvent x) →
          (∀ pre d, pre <+: e :: es → daemonRun c (hist ++ pre) d0 = .ok d → Listens j name src d) →
          daemonRun c hist d0 = .ok d → daemonRun c (e :: es) d = .ok d' →
          s.Advert p port frame → lookup d.child.queue (j, p.num, p.dst, src) = some ⟨name, last, 180, frame, peer⟩ →
          (p ≠ .ndp → Recovers peer.hostname s.host ∧ Recovers peer.portname port) →
          ∃ frame peer, s.Advert p port frame ∧ lookup d'.child.queue (j, p.num, p.dst, src) = some ⟨name, fin, 180, frame, peer⟩ ∧
            (p ≠ .ndp → Recovers peer.hostname s.host ∧ Recovers peer.portname port) := by
      intro last fin e es hu ih hist d d' frame peer hsane hsane' hready hrun hrun' hadv hlook hnames
      obtain ⟨d1, h1, h2⟩ := run_cons hrun'
      have hrun1 : daemonRun c (hist ++ [e]) d0 = .ok d1 := by
        rw [daemonRun_append, hrun]
        show daemonRun c [e] d = _
        rw [daemonRun, h1]; rfl
      obtain ⟨ops, ho, hof⟩ := step_ops h1
      refine ih (hist ++ [e]) d1 d' frame peer ?_ (fun x hx => hsane' x (List.mem_cons_of_mem _ hx)) ?_ hrun1 h2 hadv ?_ hnames
      · intro x hx
        rcases List.mem_append.mp hx with hx | hx
        · exact hsane x hx
        · rw [List.mem_singleton.mp hx]; exact hsane' e List.mem_cons_self
      · intro pre d2 hpre hr2
        refine hready (e :: pre) d2 (List.cons_prefix_cons.mpr ⟨rfl, hpre⟩) ?_
        rw [List.append_assoc] at hr2
        exact hr2
      · rw [← knows_iff (hinv hrun1).keys]
        rw [← knows_iff (hinv hrun).keys] at hlook
        exact quiet_knows ho (fun op hop => undisturbed_quiet hu (hof op hop)) hlook
    intro last es fin h
    induction h with
    | done last =>
      intro hist d d' frame peer _ _ _ _ hrun' hadv hlook hnames
      cases hrun'
      exact ⟨frame, peer, hadv, hlook, hnames⟩
    | again last t final f fwd es hP hfwd hsrc hrest ih =>
      intro hist d d' frame peer hsane hsane' hready hrun hrun' hadv hlook hnames
      obtain ⟨d1, h1, h2⟩ := run_cons hrun'
      have hrun1 : daemonRun c (hist ++ [.recv (some t) (rawOf fwd)]) d0 = .ok d1 := by
        rw [daemonRun_append, hrun]
        show daemonRun c [_] d = _
        rw [daemonRun, h1]; rfl
      have hrd : Listens j name (sourceOf f) d := by
        rw [hsrc]
        exact hready [] d (List.nil_prefix) (by rw [List.append_nil]; exact hrun)
      obtain ⟨peer', hl', hn'⟩ := hears hs hedp hP h0 hsane hrun hrd hfwd t h1
      rw [hsrc] at hl'
      refine ih (hist ++ [.recv (some t) (rawOf fwd)]) d1 d' f peer' ?_ (fun x hx => hsane' x (List.mem_cons_of_mem _ hx)) ?_ hrun1 h2 hP hl' hn'
      · intro x hx
        rcases List.mem_append.mp hx with hx | hx
        · exact hsane x hx
        · rw [List.mem_singleton.mp hx]; trivial
      · intro pre d2 hpre hr2
        refine hready (_ :: pre) d2 (List.cons_prefix_cons.mpr ⟨rfl, hpre⟩) ?_
        rw [List.append_assoc] at hr2
        exact hr2
    | other last final now r es h1 h2 _ ih => exact quiet last final _ es ⟨h1, h2⟩ ih
    | timer last final kr m now es h1 _ ih => exact quiet last final _ es h1 ih
    | link last final kr m a b i es _ ih => exact quiet last final _ es trivial ih
    | accept last final es _ ih => exact quiet last final _ es trivial ih
    | write last final sid ws es _ ih => exact quiet last final _ es trivial ih
  rw [daemonRun_append] at hr
  cases hr1 : daemonRun c es1 d0 with
  | ok dm =>
    rw [hr1] at hr
    obtain ⟨d1, h1, h2⟩ := run_cons (show daemonRun c (_ :: es2) dm = .ok d from hr)
    have hrun1 : daemonRun c (es1 ++ [.recv (some t0) (rawOf fwd)]) d0 = .ok d1 := by
      rw [daemonRun_append, hr1]
      show daemonRun c [_] dm = _
      rw [daemonRun, h1]; rfl
    have hrd : Listens j name (sourceOf f) dm := by
      rw [hsrc]
      exact hready [] dm (List.nil_prefix) (by rw [List.append_nil]; exact hr1)
    obtain ⟨peer', hl', hn'⟩ := hears hs hedp hf h0 hes1 hr1 hrd hfwd t0 h1
    rw [hsrc] at hl'
    refine key t0 es2 final hren (es1 ++ [.recv (some t0) (rawOf fwd)]) d1 d f peer' ?_ hes2 ?_ hrun1 h2 hf hl' hn'
    · intro x hx
      rcases List.mem_append.mp hx with hx | hx
      · exact hes1 x hx
      · rw [List.mem_singleton.mp hx]; trivial
    · intro pre d2 hpre hr2
      refine hready (_ :: pre) d2 (List.cons_prefix_cons.mpr ⟨rfl, hpre⟩) ?_
      rw [List.append_assoc] at hr2
      exact hr2
  | fail => rw [hr1] at hr; cases hr
  | oob => rw [hr1] at hr; cases hr
  | abort => rw [hr1] at hr; cases hr
  | stuck => rw [hr1] at hr; cases hr

end Ladvd.Props
