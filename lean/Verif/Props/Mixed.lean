import Verif.Spec.Mixed
import Verif.Props.Segment
import Verif.Props.BsdTable
/-!
# C91: systems with Linux and systems with FreeBSD on a segment know each other
-/

namespace Ladvd.Props

open Spec

/-- The neighbour `k` in the table is one of the systems: the frame is one it transmitted from an interface it had at that time, and was heard at the
time in the table, on the interface in the table; its lifetime is 180 seconds; and unless the protocol is NDP the names read back as the host
name of the system and the name of that interface.  `heard` are the messages read, with their times. -/
def MixedNeighbour (net : AnyStation → Prop) (heard : Int → RawMsg → Prop) (k : Key) (i : Info) : Prop :=
  ∃ s l t n, net s ∧ s.Transmits l t ∧ n ∈ l ∧ n.index = t.index ∧ i.frame = Tx.frame t ∧ i.ttl = 180 ∧
    k = (k.1, t.proto.num, t.proto.dst, sourceOf (Tx.frame t)) ∧ (sourceOf (Tx.frame t) = n.hwaddr ∨ sourceOf (Tx.frame t) = [0, 0, 0, 0, 0, 0]) ∧
    (∃ fwd, parentRecv k.1 [Tx.frame t] = .ok [fwd] ∧ heard i.received (rawOf fwd)) ∧
    (t.proto ≠ .ndp → Recovers i.peer.hostname s.hostname ∧ Recovers i.peer.portname n.name)

theorem bsd_sound {s : BsdStation} (hs : s.Runs) : (Speaker.mk s.start.sys.hostname (BsdTransmits s)).Sound := by
  intro l t ⟨es, d, k, m, ev, d', new, r, hes, hr, hk, hev, hst, hn, htn, hf, hl⟩
  subst hl
  refine ⟨fun ha hedp => ?_, fun hedp => ?_⟩
  · obtain ⟨new', hn', hf⟩ := C88_edp_unheard s.host s.env hs.env hs.name s.opts hs.opts s.args s.conf s.pwd s.start hs.start es hes d hr k hk m ev hev d' hst
    obtain rfl : new' = new := List.append_cancel_left (hn'.symm.trans hn)
    have := hf t htn hedp
    obtain ⟨n, h1, h2⟩ := ha
    rw [show bpfFilter protoFilter (Tx.frame t) = .ok 0 from this] at h1
    cases h1
    exact h2 rfl
  · obtain ⟨new', r', hn', hf', h⟩ := C88_learned_partial s.host s.env hs.env hs.name s.opts hs.opts s.args s.conf s.pwd s.start hs.start es hes d hr k hk m ev hev
      d' hst
    obtain rfl : new' = new := List.append_cancel_left (hn'.symm.trans hn)
    rw [hf] at hf'
    injection hf' with hf'
    subst hf'
    obtain ⟨n, hnm, hi, src, hsrc, hse, hacc, hl⟩ := h t htn hedp
    have hse : sourceOf (Tx.frame t) = src := hse
    refine ⟨n, hnm, hi, by rw [hse]; exact hsrc, hacc, ?_⟩
    rw [hse]
    exact hl

/-- The system as one that announces itself. -/
def anySpeaker (s : AnyStation) : Speaker := ⟨s.hostname, s.Transmits⟩

theorem any_sound {s : AnyStation} (hs : s.Runs) : (anySpeaker s).Sound := by
  cases s with
  | linux s => exact speaker_sound hs
  | bsd s => exact bsd_sound hs

theorem mixed_core {net : AnyStation → Prop} (hnet : ∀ s, net s → s.Runs) {c : Conf} {d0 : Daemon} (hst : Started d0) (hch : d0.child = {}) {es : List Event}
    (hes : ∀ e ∈ es, SaneEvent e) (hh : ∀ now r, .recv now r ∈ es → MixedFrom net now r) {d : Daemon} (hr : daemonRun c es d0 = .ok d) :
    (d.child.queue.map neighbour).Nodup ∧ ∀ k i, lookup d.child.queue k = some i → MixedNeighbour net (fun t r => .recv (some t) r ∈ es) k i := by
  obtain ⟨h1, h2⟩ := real_core (fun x => ∃ s, net s ∧ x = anySpeaker s) (by rintro _ ⟨s, hs, rfl⟩; exact any_sound (hnet s hs)) c d0 hst hch es hes (by
      intro e he
      cases e with
      | recv now r =>
        obtain ⟨s, l, t, j, fwd, time, hs, ht, h⟩ := hh now r he
        exact ⟨anySpeaker s, l, t, j, fwd, time, ⟨s, hs, rfl⟩, ht, h⟩
      | _ => trivial) d hr
  refine ⟨h1, fun k i hk => ?_⟩
  obtain ⟨_, l, t, n, ⟨s, hs, rfl⟩, ht, h⟩ := h2 k i hk
  exact ⟨s, l, t, n, hs, ht, h⟩

/-- On a segment of systems with Linux and with FreeBSD that run ladvd, every neighbour in the table of a Linux system, after any history in which it has
heard nothing but frames of these systems, is one of them. -/
theorem C91_linux_real (net : AnyStation → Prop) (hnet : ∀ s, net s → s.Runs) (b : Station) (hb : b.Runs) (es : List Event) (hes : ∀ e ∈ es, SaneEvent e)
    (hh : ∀ now r, .recv now r ∈ es → MixedFrom net now r) (d : Daemon) (hr : daemonRun b.conf es b.start = .ok d) :
    (d.child.queue.map neighbour).Nodup ∧ ∀ k i, lookup d.child.queue k = some i → MixedNeighbour net (fun t r => .recv (some t) r ∈ es) k i :=
  mixed_core hnet (C49_started b.host b.env hb.env b.opts hb.opts b.args b.conf b.pwd b.start hb.start).1 (startUp_child hb.start) hes hh hr

theorem bsdStartUp_child {h : Host} {e : BsdSysEnv} {os : List Opt} {args : List Bytes} {c : Conf} {pwd : Option (Nat × Nat)} {d : Daemon}
    (hs : bsdStartUp h e os args = .ok (c, pwd, d)) : d.child = {} := by
  unfold bsdStartUp at hs
  cases hm : mainStart h os args with
  | ok r =>
    rw [hm] at hs
    obtain ⟨s, p⟩ := r
    dsimp only [Res.bind_eq, Res.bind_ok] at hs
    cases hb : bsdSysinfo e s.sys with
    | ok sys =>
      rw [hb] at hs
      simp only [Res.bind_ok, Res.pure_eq, Res.ok.injEq, Prod.mk.injEq] at hs
      rw [← hs.2.2]
    | fail => rw [hb] at hs; cases hs
    | oob => rw [hb] at hs; cases hs
    | abort => rw [hb] at hs; cases hs
    | stuck => rw [hb] at hs; cases hs
  | fail => rw [hm] at hs; cases hs
  | oob => rw [hm] at hs; cases hs
  | abort => rw [hm] at hs; cases hs
  | stuck => rw [hm] at hs; cases hs

theorem bsd_started {s : BsdStation} (hs : s.Runs) : Started s.start ∧ s.start.child = {} :=
  ⟨(C88_started s.host s.env hs.env hs.name s.opts hs.opts s.args s.conf s.pwd s.start hs.start).1, bsdStartUp_child hs.start⟩

theorem recv_asEvent {now : Option Int} {r : RawMsg} {es : List BsdEvent} : Event.recv now r ∈ es.map asEvent ↔ .recv now r ∈ es := by
  rw [List.mem_map]
  constructor
  · rintro ⟨e, he, h⟩
    cases e with
    | recv now' r' => cases h; exact he
    | route k m got =>
      unfold asEvent at h
      dsimp only at h
      cases hl : routeLink got <;> rw [hl] at h <;> cases h
    | timer => cases h
    | accept => cases h
    | write => cases h
  · exact fun h => ⟨_, h, rfl⟩

/-- The same for the table of a FreeBSD system. -/
theorem C91_bsd_real (net : AnyStation → Prop) (hnet : ∀ s, net s → s.Runs) (b : BsdStation) (hb : b.Runs) (es : List BsdEvent)
    (hes : ∀ e ∈ es, BsdSaneEvent e) (hh : ∀ now r, .recv now r ∈ es → MixedFrom net now r) (d : Daemon) (hr : bsdDaemonRun b.conf es b.start = .ok d) :
    (d.child.queue.map neighbour).Nodup ∧ ∀ k i, lookup d.child.queue k = some i → MixedNeighbour net (fun t r => .recv (some t) r ∈ es) k i := by
  obtain ⟨h0, hch⟩ := bsd_started hb
  rw [bsdRun_eq _ es (good_started h0) hes] at hr
  have h := mixed_core hnet h0 hch (bsd_map_sane hes) (fun now r h => hh now r (recv_asEvent.mp h)) hr
  refine ⟨h.1, fun k i hk => ?_⟩
  obtain ⟨s, l, t, n, a, b, c, e, f, g, i, j, ⟨fwd, x, y⟩, z⟩ := h.2 k i hk
  exact ⟨s, l, t, n, a, b, c, e, f, g, i, j, ⟨fwd, x, recv_asEvent.mp y⟩, z⟩

/-- A system of either kind that is heard stays in the table of a Linux system for as long as it keeps announcing itself at intervals of at most 180 seconds,
whatever else happens and whoever else is heard.  Missing for the full statement: other stations that send from the same address (`C87_standby`), and EDP. -/
theorem C91_linux_kept_partial (s : AnyStation) (hs : s.Runs) (p : Proto) (hedp : p ≠ .edp) (port : Bytes) (b : Station) (hb : b.Runs) (j : Nat)
    (name src : Bytes) (es1 : List Event) (hes1 : ∀ e ∈ es1, SaneEvent e) (f : Bytes) (hf : MixedAdvert s p port f) (hsrc : sourceOf f = src) (fwd : Fwd)
    (hfwd : parentRecv j [f] = .ok [fwd]) (t0 final : Int) (es2 : List Event) (hes2 : ∀ e ∈ es2, SaneEvent e)
    (hren : Renewed (j, p.num, p.dst, src) 180 (MixedAdvert s p port) t0 es2 final)
    (hready : ∀ pre d, pre <+: .recv (some t0) (rawOf fwd) :: es2 → daemonRun b.conf (es1 ++ pre) b.start = .ok d → Listens j name src d)
    (d : Daemon) (hr : daemonRun b.conf (es1 ++ .recv (some t0) (rawOf fwd) :: es2) b.start = .ok d) :
    ∃ frame peer, MixedAdvert s p port frame ∧ lookup d.child.queue (j, p.num, p.dst, src) = some ⟨name, final, 180, frame, peer⟩ ∧
      (p ≠ .ndp → Recovers peer.hostname s.hostname ∧ Recovers peer.portname port) :=
  kept_core (anySpeaker s) (any_sound hs) p hedp port b.conf b.start
    (C49_started b.host b.env hb.env b.opts hb.opts b.args b.conf b.pwd b.start hb.start).1 (startUp_child hb.start) j name src es1 hes1 f hf hsrc fwd hfwd t0 final
    es2 hes2 hren hready d hr

theorem renewed_asEvent {k : Key} {life : Int} {P : Bytes → Prop} {last final : Int} {es : List BsdEvent} (h : BsdRenewed k life P last es final) :
    Renewed k life P last (es.map asEvent) final := by
  induction h with
  | done last => exact .done last
  | again last t final f fwd es hP hfwd hsrc _ ih => exact .again last t final f fwd _ hP hfwd hsrc ih
  | other last final now r es h1 h2 _ ih => exact .other last final now r _ h1 h2 ih
  | timer last final kr m now es h1 _ ih => exact .timer last final _ _ now _ h1 ih
  | route last final kr m got es _ ih =>
    rw [List.map_cons, asEvent]
    cases routeLink got with
    | some i => exact .link _ _ _ _ _ _ _ _ ih
    | none => exact .link _ _ _ _ _ _ _ _ ih
  | accept last final es _ ih => exact .accept _ _ _ ih
  | write last final sid ws es _ ih => exact .write _ _ _ _ _ ih

/-- The same for the table of a FreeBSD system, with the same cases missing. -/
theorem C91_bsd_kept_partial (s : AnyStation) (hs : s.Runs) (p : Proto) (hedp : p ≠ .edp) (port : Bytes) (b : BsdStation) (hb : b.Runs) (j : Nat)
    (name src : Bytes) (es1 : List BsdEvent) (hes1 : ∀ e ∈ es1, BsdSaneEvent e) (f : Bytes) (hf : MixedAdvert s p port f) (hsrc : sourceOf f = src)
    (fwd : Fwd) (hfwd : parentRecv j [f] = .ok [fwd]) (t0 final : Int) (es2 : List BsdEvent) (hes2 : ∀ e ∈ es2, BsdSaneEvent e)
    (hren : BsdRenewed (j, p.num, p.dst, src) 180 (MixedAdvert s p port) t0 es2 final)
    (hready : ∀ pre d, pre <+: .recv (some t0) (rawOf fwd) :: es2 → bsdDaemonRun b.conf (es1 ++ pre) b.start = .ok d → Listens j name src d)
    (d : Daemon) (hr : bsdDaemonRun b.conf (es1 ++ .recv (some t0) (rawOf fwd) :: es2) b.start = .ok d) :
    ∃ frame peer, MixedAdvert s p port frame ∧ lookup d.child.queue (j, p.num, p.dst, src) = some ⟨name, final, 180, frame, peer⟩ ∧
      (p ≠ .ndp → Recovers peer.hostname s.hostname ∧ Recovers peer.portname port) := by
  obtain ⟨h0, hch⟩ := bsd_started hb
  have hsane : ∀ pre, pre <+: .recv (some t0) (rawOf fwd) :: es2 → ∀ e ∈ es1 ++ pre, BsdSaneEvent e := by
    intro pre hpre e he
    rcases List.mem_append.mp he with he | he
    · exact hes1 e he
    · rcases List.mem_cons.mp (hpre.subset he) with rfl | he
      · trivial
      · exact hes2 e he
  rw [bsdRun_eq _ _ (good_started h0) (hsane _ (List.prefix_refl _)), List.map_append] at hr
  refine kept_core (anySpeaker s) (any_sound hs) p hedp port b.conf b.start h0 hch j name src (es1.map asEvent) (bsd_map_sane hes1) f hf hsrc fwd hfwd t0 final
    (es2.map asEvent) (bsd_map_sane hes2) (renewed_asEvent hren) ?_ d hr
  intro pre d' hpre hr'
  have : pre = ((BsdEvent.recv (some t0) (rawOf fwd) :: es2).take pre.length).map asEvent := by
    rw [List.map_take]
    exact List.prefix_iff_eq_take.mp hpre
  refine hready _ d' (List.take_prefix pre.length _) ?_
  rw [bsdRun_eq _ _ (good_started h0) (hsane _ (List.take_prefix _ _)), List.map_append, ← this]
  exact hr'

/-! ### Cases -/

/-- A FreeBSD system started with `-a -L`. -/
def box : BsdStation :=
  match bsdStartUp { user := fun _ => some (1, 1) } bsdEnv optsL [] with
  | .ok (c, pwd, d) => ⟨{ user := fun _ => some (1, 1) }, bsdEnv, optsL, [], c, pwd, d⟩
  | _ => ⟨{ user := fun _ => some (1, 1) }, bsdEnv, optsL, [], { opts := 0 }, none, {}⟩

theorem box_starts : (match bsdStartUp { user := fun _ => some (1, 1) } bsdEnv optsL [] with | .ok _ => true | _ => false) = true := by decide +kernel

theorem box_runs : box.Runs := by
  have h0 := box_starts
  cases hu : bsdStartUp { user := fun _ => some (1, 1) } bsdEnv optsL [] with
  | ok r =>
    obtain ⟨c, pwd, d⟩ := r
    have : box = ⟨{ user := fun _ => some (1, 1) }, bsdEnv, optsL, [], c, pwd, d⟩ := by unfold box; rw [hu]
    rw [this]
    refine ⟨bsdEnv_ok, ?_, optsL_ok, hu⟩
    intro u h
    obtain rfl := Option.some.inj h
    rfl
  | fail => rw [hu] at h0; cases h0
  | oob => rw [hu] at h0; cases h0
  | abort => rw [hu] at h0; cases h0
  | stuck => rw [hu] at h0; cases h0

/-- Its kernel lists a single interface. -/
def boxAddrs : List BIfAddr := [⟨lit "em2", .link 6 3 [2, 0, 0, 0, 1, 3]⟩]
def boxKernel : BsdKernel := { bsdSample with ifaddrs := some boxAddrs }

theorem boxKernel_sane : BsdSane boxKernel := by
  intro addrs ha
  obtain rfl := List.mem_singleton.mp (show addrs ∈ [boxAddrs] from ha)
  refine ⟨?_, by decide +kernel⟩
  exact ⟨by decide +kernel, by decide +kernel, by decide +kernel, by decide +kernel, by decide +kernel, bsdSample_ok.device, by decide +kernel,
    by decide +kernel, fun _ => rfl, by decide +kernel⟩

/-- What it sends on `em2` in its first round. -/
def boxTx : Tx := match bsdDaemonStep box.conf box.start (.timer boxKernel bsdNoMedia 0) with
  | .ok d => (d.tx[0]?).getD ⟨0, .lldp, 0, []⟩
  | _ => ⟨0, .lldp, 0, []⟩

theorem boxTx_is : boxTx.index = 3 ∧ boxTx.proto = .lldp ∧ sourceOf (Tx.frame boxTx) = [2, 0, 0, 0, 1, 3] ∧
    (match bsdDaemonStep box.conf box.start (.timer boxKernel bsdNoMedia 0) with | .ok d => decide (boxTx ∈ d.tx) && d.tx.length == 1 | _ => false) = true ∧
    (match bsdFetch box.conf.opts box.conf.names box.conf.mgmt boxKernel ⟨box.start.child.netifs, box.start.sys, box.start.mnetif, box.start.closed⟩ with
      | .ok r => r.1.netifs.all (fun n => n.index != 3 || n.name == lit "em2") | _ => false) = true := by decide +kernel

theorem box_advert : MixedAdvert (.bsd box) .lldp (lit "em2") (Tx.frame boxTx) := by
  obtain ⟨h1, h2, -, h3, h4⟩ := boxTx_is
  cases hd : bsdDaemonStep box.conf box.start (.timer boxKernel bsdNoMedia 0) with
  | ok d =>
    rw [hd] at h3
    simp only [Bool.and_eq_true, decide_eq_true_eq] at h3
    cases hf : bsdFetch box.conf.opts box.conf.names box.conf.mgmt boxKernel ⟨box.start.child.netifs, box.start.sys, box.start.mnetif, box.start.closed⟩ with
    | ok r =>
      rw [hf] at h4
      have htx := (C88_started box.host box.env box_runs.env box_runs.name box.opts box_runs.opts box.args box.conf box.pwd box.start box_runs.start).2.2.1
      refine ⟨_, boxTx, ⟨[], box.start, boxKernel, bsdNoMedia, _, d, d.tx, r, (by intro e he; cases he), rfl, boxKernel_sane, .inl ⟨0, rfl⟩, hd,
        (by rw [htx]; rfl), h3.1, hf, rfl⟩, h2, rfl, ?_⟩
      intro n hn hi
      have := List.all_eq_true.mp h4 n hn
      rw [hi, h1] at this
      simpa using this
    | fail => rw [hf] at h4; cases h4
    | oob => rw [hf] at h4; cases h4
    | abort => rw [hf] at h4; cases h4
    | stuck => rw [hf] at h4; cases h4
  | fail => rw [hd] at h3; cases h3
  | oob => rw [hd] at h3; cases h3
  | abort => rw [hd] at h3; cases h3
  | stuck => rw [hd] at h3; cases h3

/-- The Linux system and the FreeBSD system are both in the table of a third. -/
example : tableAfter [(1000, Tx.frame (nth sw 2)), (1001, Tx.frame boxTx)] 1020 =
    some [(some (lit "sw.example.org"), some (lit "eth2")), (some (lit "box.example.org"), some (lit "em2"))] := by decide +kernel

/-- The hypotheses of `C91_linux_real` for the reception of the frame of the FreeBSD system. -/
example : MixedFrom (fun s => s = .bsd box ∨ s = .linux sw) (some 1001) (rawOf (passed (Tx.frame boxTx))) := by
  obtain ⟨l, t, ht, hp, hf, -⟩ := box_advert
  obtain ⟨_, -, -, -, hacc, -⟩ := (any_sound (s := .bsd box) box_runs l t ht).2 (by rw [hp]; decide)
  exact ⟨.bsd box, l, t, 9, passed (Tx.frame boxTx), 1001, .inl rfl, ht, hacc, by rw [hf]; decide +kernel, rfl, rfl⟩

/-- The FreeBSD system hears the Linux system on `em2` and again half a minute later. -/
def boxHears (f : Bytes) : Fwd := match parentRecv 3 [f] with | .ok [w] => w | _ => ⟨0, .lldp, []⟩

def boxEvents : List BsdEvent :=
  [.timer boxKernel bsdNoMedia 1020, .recv (some 1030) (rawOf (boxHears (Tx.frame (nth sw 2)))), .route boxKernel bsdNoMedia (some (rtReport 3 2)),
    .timer boxKernel bsdNoMedia 1200]

theorem box_renewed : BsdRenewed (3, Proto.num .lldp, Proto.dst .lldp, [2, 0, 0, 0, 0, 3]) 180 (MixedAdvert (.linux sw) .lldp (lit "eth2")) 1000
    boxEvents 1030 :=
  .timer _ _ _ _ _ _ (by decide) (.again _ _ _ (Tx.frame (nth sw 2)) _ _ sw_single (by decide +kernel) (by decide +kernel)
    (.route _ _ _ _ _ _ (.timer _ _ _ _ _ _ (by decide) (.done _))))

/-- It has the interface 3 throughout, and none with the address of the Linux system. -/
def boxListens (es : List BsdEvent) : Bool := match bsdDaemonRun box.conf es box.start with
  | .ok d => (d.child.netifs.find? (fun x => x.index == 3)).any (fun n => n.name == lit "em2") && d.child.netifs.all (fun x => x.hwaddr != [2, 0, 0, 0, 0, 3])
  | _ => true

theorem boxListens_of {es : List BsdEvent} (h : boxListens es = true) {d : Daemon} (hr : bsdDaemonRun box.conf es box.start = .ok d) :
    Listens 3 (lit "em2") [2, 0, 0, 0, 0, 3] d := by
  unfold boxListens at h
  rw [hr] at h
  simp only [Bool.and_eq_true, Option.any_eq_true, beq_iff_eq, List.all_eq_true, bne_iff_ne] at h
  obtain ⟨⟨n, h1, h2⟩, h3⟩ := h
  exact ⟨⟨n, h1, h2⟩, h3⟩

theorem boxListens_always : ∀ n ∈ List.range 6,
    boxListens ([.timer boxKernel bsdNoMedia 990] ++ (BsdEvent.recv (some 1000) (rawOf (boxHears (Tx.frame (nth sw 2)))) :: boxEvents).take n) = true := by
  decide +kernel

example (d : Daemon)
    (hr : bsdDaemonRun box.conf ([.timer boxKernel bsdNoMedia 990] ++ .recv (some 1000) (rawOf (boxHears (Tx.frame (nth sw 2)))) :: boxEvents) box.start = .ok d) :
    ∃ frame peer, lookup d.child.queue (3, Proto.num .lldp, Proto.dst .lldp, [2, 0, 0, 0, 0, 3]) = some ⟨lit "em2", 1030, 180, frame, peer⟩ ∧
      Recovers peer.hostname (lit "sw.example.org") ∧ Recovers peer.portname (lit "eth2") := by
  obtain ⟨frame, peer, -, h1, h2⟩ := C91_bsd_kept_partial (.linux sw) sw_runs .lldp (by decide) (lit "eth2") box box_runs 3 (lit "em2") [2, 0, 0, 0, 0, 3]
    [.timer boxKernel bsdNoMedia 990] (by intro e he; rw [List.mem_singleton.mp he]; exact boxKernel_sane) _ sw_single (by decide +kernel)
    (boxHears (Tx.frame (nth sw 2))) (by decide +kernel) 1000 1030 boxEvents
    (by
      intro e he; simp only [boxEvents, List.mem_cons, List.not_mem_nil, or_false] at he
      rcases he with rfl | rfl | rfl | rfl
      · exact boxKernel_sane
      · trivial
      · exact boxKernel_sane
      · exact boxKernel_sane)
    box_renewed
    (by
      intro pre d hpre hr
      have hk : pre.length ∈ List.range 6 := by
        have := hpre.length_le
        simp only [boxEvents, List.length_cons, List.length_nil] at this
        exact List.mem_range.mpr (by omega)
      have := boxListens_always pre.length hk
      rw [← List.prefix_iff_eq_take.mp hpre] at this
      exact boxListens_of this hr) d hr
  have h3 := h2 (by decide)
  have e : AnyStation.hostname (.linux sw) = sw.start.sys.hostname := rfl
  rw [e, sw_core_names.1] at h3
  exact ⟨frame, peer, h1, h3⟩

end Ladvd.Props
