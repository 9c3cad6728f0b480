import Verif.Lemmas.Segment
/-!
# C87: systems on a segment know each other, and nobody else
-/

namespace Ladvd.Props

open Spec

/-- The system as one that announces itself. -/
def Station.speaker (s : Station) : Speaker := ⟨s.start.sys.hostname, Transmits s⟩

/-- `C53_learned_partial` for a system. -/
theorem transmitted {s : Station} (hs : s.Runs) {l : List Netif} {t : Tx} (ht : Transmits s l t) (hedp : t.proto ≠ .edp) :
    ∃ n ∈ l, n.index = t.index ∧ (sourceOf (Tx.frame t) = n.hwaddr ∨ sourceOf (Tx.frame t) = [0, 0, 0, 0, 0, 0]) ∧ Accepts protoFilter (Tx.frame t) ∧
      ∀ (j : Nat) (o : Opts) (now : Int) (st : Child) (subif : Netif), Ends st.netifs →
        st.netifs.find? (fun x => x.index == j) = some subif → (∀ x ∈ st.netifs, x.hwaddr ≠ sourceOf (Tx.frame t)) →
        ∃ fwd st', parentRecv j [Tx.frame t] = .ok [fwd] ∧ childQueue o (some now) (rawOf fwd) st = .ok st' ∧
          ∃ peer, lookup st'.queue (j, t.proto.num, t.proto.dst, sourceOf (Tx.frame t)) = some ⟨subif.name, now, 180, Tx.frame t, peer⟩ ∧
            (t.proto ≠ .ndp → Recovers peer.hostname s.start.sys.hostname ∧ Recovers peer.portname n.name) ∧
            ∀ k', k' ≠ (j, t.proto.num, t.proto.dst, sourceOf (Tx.frame t)) → lookup st'.queue k' = lookup st.queue k' := by
  obtain ⟨es, d, k, m, ev, d', new, hes, hr, hk, hev, hst, hn, htn, rfl⟩ := ht
  obtain ⟨new', hn', hf⟩ := C53_learned_partial s.host s.env hs.env s.opts hs.opts s.args s.conf s.pwd s.start hs.start es hes d hr k hk m ev hev d' hst
  obtain rfl : new' = new := List.append_cancel_left (hn'.symm.trans hn)
  obtain ⟨n, hnm, hi, src, hsrc, hse, hacc, hl⟩ := hf t htn hedp
  have hse : sourceOf (Tx.frame t) = src := hse
  refine ⟨n, hnm, hi, by rw [hse]; exact hsrc, hacc, ?_⟩
  rw [hse]
  exact hl

theorem not_edp {s : Station} (hs : s.Runs) {l : List Netif} {t : Tx} (ht : Transmits s l t) (ha : ∃ n, bpfFilter protoFilter (Tx.frame t) = .ok n ∧ n ≠ 0) :
    t.proto ≠ .edp := by
  intro hedp
  obtain ⟨es, d, k, m, ev, d', new, hes, hr, hk, hev, hst, hn, htn, rfl⟩ := ht
  obtain ⟨new', hn', hf⟩ := C53_edp_unheard s.host s.env hs.env s.opts hs.opts s.args s.conf s.pwd s.start hs.start es hes d hr k hk m ev hev d' hst
  obtain rfl : new' = new := List.append_cancel_left (hn'.symm.trans hn)
  have := hf t htn hedp
  obtain ⟨n, h1, h2⟩ := ha
  rw [show bpfFilter protoFilter (Tx.frame t) = .ok 0 from this] at h1
  cases h1
  exact h2 rfl

theorem speaker_sound {s : Station} (hs : s.Runs) : (Station.speaker s).Sound := fun _ _ ht => ⟨fun h => not_edp hs ht h, fun h => transmitted hs ht h⟩

/-- The neighbour `k` in the table is one of the systems: the frame is one it transmitted from an interface it had at that time and was heard at the time
in the table, on the interface in the table; its lifetime is 180 seconds; and unless the protocol is NDP the names read back as the host
name of the system and the name of that interface. -/
def RealNeighbour (net : Station → Prop) (es : List Event) (k : Key) (i : Info) : Prop :=
  ∃ s l t n, net s ∧ Transmits s l t ∧ n ∈ l ∧ n.index = t.index ∧ i.frame = Tx.frame t ∧ i.ttl = 180 ∧
    k = (k.1, t.proto.num, t.proto.dst, sourceOf (Tx.frame t)) ∧ (sourceOf (Tx.frame t) = n.hwaddr ∨ sourceOf (Tx.frame t) = [0, 0, 0, 0, 0, 0]) ∧
    (∃ fwd, parentRecv k.1 [Tx.frame t] = .ok [fwd] ∧ .recv (some i.received) (rawOf fwd) ∈ es) ∧
    (t.proto ≠ .ndp → Recovers i.peer.hostname s.start.sys.hostname ∧ Recovers i.peer.portname n.name)

/-- In a network of systems that all run ladvd, every neighbour in the table of one of them, after any history in which it has heard nothing but frames
of these systems, is one of them. -/
theorem C87_real (net : Station → Prop) (hnet : ∀ s, net s → s.Runs) (b : Station) (hb : b.Runs) (es : List Event) (hes : ∀ e ∈ es, SaneEvent e)
    (hh : ∀ e ∈ es, HeardFrom net e) (d : Daemon) (hr : daemonRun b.conf es b.start = .ok d) :
    (d.child.queue.map neighbour).Nodup ∧ ∀ k i, lookup d.child.queue k = some i → RealNeighbour net es k i := by
  obtain ⟨h1, h2⟩ := real_core (fun x => ∃ s, net s ∧ x = Station.speaker s) (by rintro _ ⟨s, hs, rfl⟩; exact speaker_sound (hnet s hs)) b.conf b.start
    (C49_started b.host b.env hb.env b.opts hb.opts b.args b.conf b.pwd b.start hb.start).1 (startUp_child hb.start) es hes (by
      intro e he
      have := hh e he
      cases e with
      | recv now r =>
        obtain ⟨s, l, t, j, fwd, time, hs, ht, h⟩ := this
        exact ⟨Station.speaker s, l, t, j, fwd, time, ⟨s, hs, rfl⟩, ht, h⟩
      | _ => trivial) d hr
  refine ⟨h1, fun k i hk => ?_⟩
  obtain ⟨_, l, t, n, ⟨s, hs, rfl⟩, ht, h⟩ := h2 k i hk
  exact ⟨s, l, t, n, hs, ht, h⟩

/-- An advertisement of the system for a protocol from an interface of the given name. -/
def AdvertOf (s : Station) (p : Proto) (port f : Bytes) : Prop :=
  ∃ l t, Transmits s l t ∧ t.proto = p ∧ Tx.frame t = f ∧ ∀ n ∈ l, n.index = t.index → n.name = port

/-- A system that is heard stays in the table for as long as it keeps announcing itself at intervals of at most 180 seconds, whatever else happens and whoever
else is heard: with the time and the frame of its last advertisement and names that read back as its host name and the name of its interface.
Missing for the full statement: other stations that send from the same address, such as standby ports (`C87_standby`), and EDP. -/
theorem C87_kept_partial (s : Station) (hs : s.Runs) (p : Proto) (hedp : p ≠ .edp) (port : Bytes) (b : Station) (hb : b.Runs) (j : Nat) (name src : Bytes)
    (es1 : List Event) (hes1 : ∀ e ∈ es1, SaneEvent e) (f : Bytes) (hf : AdvertOf s p port f) (hsrc : sourceOf f = src) (fwd : Fwd)
    (hfwd : parentRecv j [f] = .ok [fwd]) (t0 final : Int) (es2 : List Event) (hes2 : ∀ e ∈ es2, SaneEvent e)
    (hren : Renewed (j, p.num, p.dst, src) 180 (AdvertOf s p port) t0 es2 final)
    (hready : ∀ pre d, pre <+: .recv (some t0) (rawOf fwd) :: es2 → daemonRun b.conf (es1 ++ pre) b.start = .ok d → Listens j name src d)
    (d : Daemon) (hr : daemonRun b.conf (es1 ++ .recv (some t0) (rawOf fwd) :: es2) b.start = .ok d) :
    ∃ frame peer, AdvertOf s p port frame ∧ lookup d.child.queue (j, p.num, p.dst, src) = some ⟨name, final, 180, frame, peer⟩ ∧
      (p ≠ .ndp → Recovers peer.hostname s.start.sys.hostname ∧ Recovers peer.portname port) :=
  kept_core (Station.speaker s) (speaker_sound hs) p hedp port b.conf b.start
    (C49_started b.host b.env hb.env b.opts hb.opts b.args b.conf b.pwd b.start hb.start).1 (startUp_child hb.start) j name src es1 hes1 f hf hsrc fwd hfwd t0 final
    es2 hes2 hren hready d hr

/-! ### Examples -/

/-- A system started with the given options. -/
def systemOf (e : SysEnv) (os : List Opt) : Station :=
  match startUp { user := fun _ => some (1, 1) } e os [] with
  | .ok (c, pwd, d) => ⟨{ user := fun _ => some (1, 1) }, e, os, [], c, pwd, d⟩
  | _ => ⟨{ user := fun _ => some (1, 1) }, e, os, [], { opts := 0 }, none, {}⟩

def startsUp (e : SysEnv) (os : List Opt) : Bool := match startUp { user := fun _ => some (1, 1) } e os [] with | .ok _ => true | _ => false

theorem systemOf_runs {e : SysEnv} {os : List Opt} (he : SysEnvOk e) (ho : OptsOk os) (h : startsUp e os = true) : (systemOf e os).Runs := by
  unfold startsUp at h
  cases hu : startUp { user := fun _ => some (1, 1) } e os [] with
  | ok r =>
    obtain ⟨c, pwd, d⟩ := r
    have : systemOf e os = ⟨{ user := fun _ => some (1, 1) }, e, os, [], c, pwd, d⟩ := by unfold systemOf; rw [hu]
    rw [this]
    exact ⟨he, ho, hu⟩
  | fail => rw [hu] at h; cases h
  | oob => rw [hu] at h; cases h
  | abort => rw [hu] at h; cases h
  | stuck => rw [hu] at h; cases h

/-- Another system, with the same hardware. -/
def sysCore : SysEnv :=
  { sysSample with
    uname := some { sysname := lit "Linux", nodename := lit "core", release := lit "6.1.0-13-amd64", version := lit "#1 SMP", machine := lit "x86_64" }
    hostByName := fun _ => some (lit "core.example.org") }

theorem sysCore_ok : SysEnvOk sysCore := by
  refine ⟨?_, ?_⟩
  · intro u hu
    simp only [sysCore, Option.mem_def, Option.some.injEq] at hu
    subst hu
    decide +kernel
  · intro n h hh
    simp only [sysCore, Option.some.injEq] at hh
    subst hh
    decide +kernel

def optsL : List Opt := [⟨'a', []⟩, ⟨'L', []⟩]

/-- The first, the second and the third system. -/
def sw : Station := systemOf sysSample optsL
def coreSt : Station := systemOf sysCore optsL
def third : Station := systemOf sysSample [⟨'a', []⟩, ⟨'F', []⟩]

theorem optsL_ok : OptsOk optsL := by unfold OptsOk; decide

theorem sw_runs : sw.Runs := systemOf_runs sysSample_ok optsL_ok (by decide +kernel)
theorem core_runs : coreSt.Runs := systemOf_runs sysCore_ok optsL_ok (by decide +kernel)
theorem third_runs : third.Runs := systemOf_runs sysSample_ok (by unfold OptsOk; decide) (by decide +kernel)

/-- What a system transmits in its first round. -/
def firstRound (s : Station) (k : Kernel) : List Tx := match daemonStep s.conf s.start (.timer k {} 0) with | .ok d => d.tx | _ => []

theorem firstRound_advert {s : Station} (hs : s.Runs) {k : Kernel} (hk : Sane k) {t : Tx} (ht : t ∈ firstRound s k) (port : Bytes)
    (hp : ∀ n ∈ (netifFetch s.conf.opts s.conf.names s.conf.mgmt k ⟨[], s.start.sys, s.start.mnetif, s.start.closed⟩).1.netifs, n.index = t.index → n.name = port) :
    AdvertOf s t.proto port (Tx.frame t) := by
  have h0 := startUp_child hs.start
  unfold firstRound at ht
  split at ht
  · next d hd =>
    have htx := (C49_started s.host s.env hs.env s.opts hs.opts s.args s.conf s.pwd s.start hs.start).2.2.1
    refine ⟨_, t, ⟨[], s.start, k, {}, .timer k {} 0, d, d.tx, (by intro e he; cases he), rfl, hk, .inl ⟨0, rfl⟩, hd, (by rw [htx]; rfl), ht, rfl⟩, rfl, rfl, ?_⟩
    rw [h0]
    exact hp
  · cases ht

/-- The frame number `i` of the first round, and what a neighbour's privileged process makes of it. -/
def nth (s : Station) (i : Nat) : Tx := ((firstRound s sampleKernel)[i]?).getD ⟨0, .lldp, 0, []⟩
def passed (f : Bytes) : Fwd := match parentRecv 9 [f] with | .ok [w] => w | _ => ⟨0, .lldp, []⟩

/-- The names in the table of the third system after it has heard the frames. -/
def tableAfter (fs : List (Int × Bytes)) (now : Int) : Option (List (Option Bytes × Option Bytes)) :=
  match daemonRun third.conf ([.timer otherKernel {} 990] ++ fs.map (fun x => .recv (some x.1) (rawOf (passed x.2))) ++ [.timer otherKernel {} now]) third.start with
  | .ok d => some (d.child.queue.map (fun e => (e.peer.hostname, e.peer.portname)))
  | _ => none

/-- The frame of the active port of an aggregate, of a standby port, and of a single port of `sampleKernel`, with the interfaces they leave from. -/
theorem nth_advert {s : Station} (hs : s.Runs) (i : Nat) (port : Bytes) (h : i < (firstRound s sampleKernel).length)
    (hp : ∀ n ∈ (netifFetch s.conf.opts s.conf.names s.conf.mgmt sampleKernel ⟨[], s.start.sys, s.start.mnetif, s.start.closed⟩).1.netifs,
      n.index = (nth s i).index → n.name = port) (hl : (nth s i).proto = .lldp) : AdvertOf s .lldp port (Tx.frame (nth s i)) := by
  rw [← hl]
  refine firstRound_advert hs (by decide +kernel) ?_ port hp
  unfold nth
  rw [List.getElem?_eq_getElem h]
  exact List.getElem_mem h

theorem sw_single : AdvertOf sw .lldp (lit "eth2") (Tx.frame (nth sw 2)) :=
  nth_advert sw_runs 2 _ (by decide +kernel) (by decide +kernel) (by decide +kernel)

theorem core_single : AdvertOf coreSt .lldp (lit "eth2") (Tx.frame (nth coreSt 2)) :=
  nth_advert core_runs 2 _ (by decide +kernel) (by decide +kernel) (by decide +kernel)

/-- Two systems are in the table of the third. -/
example : tableAfter [(1000, Tx.frame (nth sw 2)), (1001, Tx.frame (nth coreSt 1))] 1020 =
    some [(some (lit "sw.example.org"), some (lit "eth2")), (some (lit "core.example.org"), some (lit "eth0"))] := by decide +kernel

def heardEvents : List Event :=
  [.recv (some 1001) (rawOf (passed (Tx.frame (nth coreSt 1)))), .timer otherKernel {} 1020, .recv (some 1030) (rawOf (passed (Tx.frame (nth sw 2)))),
    .timer otherKernel {} 1200]

/-- The first system announces itself at 1000 and again at 1030; in between and afterwards the rounds of the third system come and it hears the second one. -/
theorem sw_renewed : Renewed (9, Proto.num .lldp, Proto.dst .lldp, [2, 0, 0, 0, 0, 3]) 180 (AdvertOf sw .lldp (lit "eth2")) 1000
    heardEvents 1030 := by
  refine .other _ _ _ _ _ (by decide +kernel) (by intro t ht; injection ht with ht; omega) (.timer _ _ _ _ _ _ (by decide) (.again _ _ _ (Tx.frame (nth sw 2)) _ _
    sw_single (by decide +kernel) (by decide +kernel) (.timer _ _ _ _ _ _ (by decide) (.done _))))

/-- The third system has the interface 9 throughout, and none with the address of the first system. -/
def listensAfter (es : List Event) : Bool := match daemonRun third.conf es third.start with
  | .ok d => (d.child.netifs.find? (fun x => x.index == 9)).any (fun n => n.name == lit "em0") && d.child.netifs.all (fun x => x.hwaddr != [2, 0, 0, 0, 0, 3])
  | _ => true

theorem listens_of {es : List Event} (h : listensAfter es = true) {d : Daemon} (hr : daemonRun third.conf es third.start = .ok d) :
    Listens 9 (lit "em0") [2, 0, 0, 0, 0, 3] d := by
  unfold listensAfter at h
  rw [hr] at h
  simp only [Bool.and_eq_true, Option.any_eq_true, beq_iff_eq, List.all_eq_true, bne_iff_ne] at h
  obtain ⟨⟨n, h1, h2⟩, h3⟩ := h
  exact ⟨⟨n, h1, h2⟩, h3⟩

theorem listens_always : ∀ n ∈ List.range 6,
    listensAfter ([.timer otherKernel {} 990] ++ (Event.recv (some 1000) (rawOf (passed (Tx.frame (nth sw 2)))) :: heardEvents).take n) = true := by decide +kernel

example (d : Daemon) (hr : daemonRun third.conf ([.timer otherKernel {} 990] ++ .recv (some 1000) (rawOf (passed (Tx.frame (nth sw 2)))) :: heardEvents) third.start = .ok d) :
    ∃ frame peer, lookup d.child.queue (9, Proto.num .lldp, Proto.dst .lldp, [2, 0, 0, 0, 0, 3]) = some ⟨lit "em0", 1030, 180, frame, peer⟩ ∧
      Recovers peer.hostname sw.start.sys.hostname ∧ Recovers peer.portname (lit "eth2") := by
  have hsane : SaneEvent (.timer otherKernel {} 990) := by decide +kernel
  obtain ⟨frame, peer, -, h1, h2⟩ := C87_kept_partial sw sw_runs .lldp (by decide) (lit "eth2") third third_runs 9 (lit "em0") [2, 0, 0, 0, 0, 3]
    [.timer otherKernel {} 990] (by intro e he; rw [List.mem_singleton.mp he]; exact hsane) _ sw_single (by decide +kernel) (passed (Tx.frame (nth sw 2)))
    (by decide +kernel) 1000 1030 heardEvents
    (by intro e he; simp only [heardEvents, List.mem_cons, List.not_mem_nil, or_false] at he; rcases he with rfl | rfl | rfl | rfl <;> first | trivial | exact hsane)
    sw_renewed
    (by
      intro pre d hpre hr
      have hk : pre.length ∈ List.range 6 := by
        have := hpre.length_le
        simp only [heardEvents, List.length_cons, List.length_nil] at this
        exact List.mem_range.mpr (by omega)
      have := listens_always pre.length hk
      rw [← List.prefix_iff_eq_take.mp hpre] at this
      exact listens_of this hr) d hr
  exact ⟨frame, peer, h1, h2 (by decide)⟩

/-! ### Where the claim fails -/

theorem sw_standby : AdvertOf sw .lldp (lit "eth0") (Tx.frame (nth sw 1)) :=
  nth_advert sw_runs 1 _ (by decide +kernel) (by decide +kernel) (by decide +kernel)

theorem core_standby : AdvertOf coreSt .lldp (lit "eth0") (Tx.frame (nth coreSt 1)) :=
  nth_advert core_runs 1 _ (by decide +kernel) (by decide +kernel) (by decide +kernel)

theorem standby_table : tableAfter [(1000, Tx.frame (nth sw 1)), (1001, Tx.frame (nth coreSt 1))] 1020 = some [(some (lit "core.example.org"), some (lit "eth0"))] := by
  decide +kernel

theorem sw_core_names : sw.start.sys.hostname = lit "sw.example.org" ∧ coreSt.start.sys.hostname = lit "core.example.org" := by decide +kernel

/-- Standby ports of aggregates send from the address zero: of two systems with such ports on one segment, both of which announce themselves, a third one has only
the one it heard last in its table. -/
theorem C87_standby : AdvertOf sw .lldp (lit "eth0") (Tx.frame (nth sw 1)) ∧ AdvertOf coreSt .lldp (lit "eth0") (Tx.frame (nth coreSt 1)) ∧
    (sw.start.sys.hostname = lit "sw.example.org" ∧ coreSt.start.sys.hostname = lit "core.example.org") ∧
    tableAfter [(1000, Tx.frame (nth sw 1)), (1001, Tx.frame (nth coreSt 1))] 1020 = some [(some (lit "core.example.org"), some (lit "eth0"))] :=
  And.intro sw_standby (And.intro core_standby (And.intro sw_core_names standby_table))

end Ladvd.Props
