import Verif.Lemmas.Path
import Verif.Lemmas.Rawfd
import Verif.Props.Packet
import Verif.Props.Queue
import Verif.Props.Sysinfo
import Verif.Props.Link
/-!
# C53 What one ladvd announces another one shows

The whole path of an advertisement: the unprivileged process builds it, the privileged one transmits it, the privileged process of a
neighbour receives it, and the neighbour's table shows it.
-/

namespace Ladvd.Props

open Ladvd Ladvd.Spec

/-! ## What is built -/

theorem build_src {p : Proto} {mem mem' : Bytes} {n seq : Nat} {e : PktEnv} (h : EnvOk e) (hm : 1518 ≤ mem.length)
    (hb : p.build mem e seq = .ok (mem', n)) : (mem'.drop 6).take 6 = e.nif.hwaddr := by
  have hw6 : e.nif.hwaddr.length = 6 := h.1.2.2.2.2.2.1
  have key : ∀ (dst r : Bytes), dst.length = 6 → ((dst ++ (e.nif.hwaddr ++ r)).drop 6).take 6 = e.nif.hwaddr := by
    intro dst r hd
    rw [List.drop_left' hd, List.take_left' hw6]
  have cdp : ∀ cdp1, cdpPacket cdp1 mem e = .ok (mem', n) → (mem'.drop 6).take 6 = e.nif.hwaddr := by
    intro cdp1 hb
    obtain ⟨-, -, rfl, -⟩ := builds_of_ok (cdpPacket_eq cdp1 mem e h hm) hb
    unfold llcFrame
    simp only [List.append_assoc]
    exact key _ _ rfl
  cases p with
  | lldp =>
    obtain ⟨-, -, rfl, -⟩ := builds_of_ok (lldpPacket_eq mem e h hm) hb
    unfold lldpFrame
    simp only [List.append_assoc]
    exact key _ _ rfl
  | cdp => exact cdp _ hb
  | cdp1 => exact cdp _ hb
  | edp =>
    obtain ⟨-, -, rfl, -⟩ := builds_of_ok (edpPacket_eq mem e seq h hm) hb
    unfold llcFrame
    simp only [List.append_assoc]
    exact key _ _ rfl
  | fdp =>
    obtain ⟨-, -, rfl, -⟩ := builds_of_ok (fdpPacket_eq mem e h hm) hb
    unfold llcFrame
    simp only [List.append_assoc]
    exact key _ _ rfl
  | ndp =>
    have e1 := ndpPacket_eq mem e h hm
    dsimp only at e1
    have hb' : ndpPacket mem e = .ok (mem', n) := hb
    rw [hb'] at e1
    injection e1 with e1
    injection e1 with e1 _
    rw [e1]
    unfold llcFrame
    simp only [List.append_assoc]
    exact key _ _ rfl

/-- What a receiver of protocol `p` learns from a frame built from `e`. -/
def Learns (p : Proto) (e : PktEnv) (peer : Peer) : Prop :=
  (p ≠ .ndp → Recovers peer.hostname e.sys.hostname) ∧ (p ≠ .ndp → p ≠ .edp → Recovers peer.portname e.nif.name)

theorem build_learns {p : Proto} {mem mem' : Bytes} {n seq : Nat} {e : PktEnv} (h : EnvOk e) (hc : CapsOk e.sys) (hm : 1518 ≤ mem.length)
    (hb : p.build mem e seq = .ok (mem', n)) (pad : Bytes) (hp : 2 ≤ pad.length) (q : Proto) (hq : q.num = if p = .cdp1 then 1 else p.num) :
    ∃ s' k, q.decode false (mem'.take n ++ pad) n { proto := q.num } = .ok (s', k) ∧ k ≠ 0 ∧ s'.ttl = 180 ∧ s'.proto = p.num ∧ Learns p e s'.peer := by
  cases p with
  | lldp =>
    have : q = .lldp := by revert hq; cases q <;> decide
    subst this
    obtain ⟨s', h1, h2, h3, h4, h5, -⟩ := C01_roundtrip mem mem' pad n e h hc hm hp hb { proto := 0 } rfl
    obtain ⟨-, -, -, rfl⟩ := builds_of_ok (lldpPacket_eq mem e h hm) hb
    have := lldpLen_ge e h
    refine ⟨s', _, h1, ?_, h2, h3, fun _ => h4, fun _ _ => h5⟩
    unfold lldpFrame; simp
  | cdp =>
    have : q = .cdp := by revert hq; cases q <;> decide
    subst this
    obtain ⟨s', h1, h2, h3, h4, h5, -⟩ := C02_roundtrip false mem mem' pad n e h hm hb { proto := 1 } rfl
    obtain ⟨-, -, -, rfl⟩ := builds_of_ok (cdpPacket_eq false mem e h hm) hb
    refine ⟨s', _, h1, ?_, h2, h3, fun _ => h4, fun _ _ => h5⟩
    unfold llcFrame; simp
  | cdp1 =>
    have : q = .cdp := by revert hq; cases q <;> decide
    subst this
    obtain ⟨s', h1, h2, h3, h4, h5, -⟩ := C02_roundtrip true mem mem' pad n e h hm hb { proto := 1 } rfl
    obtain ⟨-, -, -, rfl⟩ := builds_of_ok (cdpPacket_eq true mem e h hm) hb
    refine ⟨s', _, h1, ?_, h2, h3, fun _ => h4, fun _ _ => h5⟩
    unfold llcFrame; simp
  | edp =>
    have : q = .edp := by revert hq; cases q <;> decide
    subst this
    obtain ⟨s', h1, h2, h3, h4⟩ := C04_roundtrip mem mem' pad n seq e h hm hb { proto := 2 } rfl
    obtain ⟨-, -, -, rfl⟩ := builds_of_ok (edpPacket_eq mem e seq h hm) hb
    refine ⟨s', _, h1, ?_, h2, h3, fun _ => h4, fun _ h => absurd rfl h⟩
    unfold llcFrame; simp
  | fdp =>
    have : q = .fdp := by revert hq; cases q <;> decide
    subst this
    obtain ⟨s', h1, h2, h3, h4, h5, -⟩ := C03_roundtrip mem mem' pad n e h hm hb { proto := 3 } rfl
    obtain ⟨-, -, -, rfl⟩ := builds_of_ok (fdpPacket_eq mem e h hm) hb
    refine ⟨s', _, h1, ?_, h2, h3, fun _ => h4, fun _ _ => h5⟩
    unfold llcFrame; simp
  | ndp =>
    have : q = .ndp := by revert hq; cases q <;> decide
    subst this
    obtain ⟨f, h64, hf, -, -, -, h1⟩ := C05_ndp mem pad e h hm { proto := 4 }
    have hb' : ndpPacket mem e = .ok (mem', n) := hb
    unfold Builds at hf
    rw [hf] at hb'
    injection hb' with hb'
    injection hb' with e1 e2
    subst e1 e2
    rw [List.take_left]
    exact ⟨_, _, h1, by decide, rfl, rfl, fun h => absurd rfl h, fun h => absurd rfl h⟩

/-! ## What is sent -/

/-- Facts about a message of the sender: the frame built, of transmittable size and valid, and the frame in the message, which may have the
null source address instead. -/
structure OnWire (t : Tx) (f : Bytes) : Prop where
  len : t.len = f.length
  min : 60 ≤ f.length
  max : f.length ≤ 1518
  valid : Advert t.proto.num f
  frame : t.msg.take t.len = f ∨ t.msg.take t.len = resrc [0, 0, 0, 0, 0, 0] f

theorem onWire {t : Tx} {env : PktEnv} {seq : Nat} {msg : Bytes} (h : EnvOk env)
    (ht : 9 ≤ env.sys.hostname.length + env.sys.utsStr.length + env.sys.platform.length)
    (hb : t.proto.build (List.replicate 1518 0) env seq = .ok (msg, t.len))
    (hm : t.msg = msg ∨ t.msg = msg.take 6 ++ [0, 0, 0, 0, 0, 0] ++ msg.drop 12) : OnWire t (msg.take t.len) ∧ t.len ≤ msg.length := by
  rcases C06_built t.proto env seq h ht with hf | ⟨f, h60, h15, hbs, k, hk⟩
  · rw [hf _ (by rw [List.length_replicate]; decide)] at hb; cases hb
  · have e := hbs (List.replicate 1518 0) (by rw [List.length_replicate]; decide)
    unfold Builds at e
    rw [e] at hb
    injection hb with hb
    injection hb with e1 e2
    generalize (List.replicate 1518 (0 : UInt8)).drop f.length = rest at e1
    have hfr : msg.take t.len = f := by rw [← e1, ← e2, List.take_left]
    rw [hfr]
    refine ⟨⟨e2.symm, h60, h15, ?_, ?_⟩, by rw [← e1, ← e2]; simp⟩
    · rcases check_advert t.proto f [] (by omega) h15 with ⟨-, h⟩ | ⟨h, -⟩
      · exact h
      · rw [hk] at h; cases h
    · rcases hm with hm | hm
      · left; rw [hm, hfr]
      · right
        rw [hm, ← e1]
        unfold resrc
        rw [List.take_append_of_le_length (l₁ := f) (by omega), List.drop_append_of_le_length (by omega), ← List.append_assoc, ← e2]
        apply List.take_left'
        simp
        omega

theorem OnWire.length {t : Tx} {f : Bytes} (h : OnWire t f) : (t.msg.take t.len).length = t.len := by
  have := h.min
  rcases h.frame with e | e
  · rw [e, h.len]
  · rw [e, resrc_length rfl (by omega), h.len]

theorem OnWire.advert {t : Tx} {f : Bytes} (h : OnWire t f) : Advert t.proto.num (t.msg.take t.len) := by
  rcases h.frame with e | e
  · rw [e]; exact h.valid
  · rw [e]; exact advert_resrc rfl h.valid

theorem advert_dst {p : Proto} {f : Bytes} (h : Advert p.num f) : f.take 6 = p.dst := by
  have llc : ∀ (dst org : Bytes) (pid : Nat), dst.length = 6 → org.length = 3 → (∃ q, LlcFrame dst org (be16 pid) f q) → f.take 6 = dst :=
    fun dst org pid hd ho h => ((llcFrame_iff dst org pid f hd ho).mp h).1
  cases p with
  | lldp => exact ((lldpFrame_iff f).mp h).1
  | cdp => exact llc _ CDP_ORG CDP_PID rfl rfl h
  | cdp1 => exact llc _ CDP_ORG CDP_PID rfl rfl h
  | edp => exact llc _ EDP_ORG EDP_PID rfl rfl h
  | fdp => exact llc _ FDP_ORG FDP_PID rfl rfl h
  | ndp => exact llc _ NDP_ORG NDP_PID rfl rfl h

theorem owner_of_dst {p : Proto} {f : Bytes} (h : f.take 6 = p.dst) : owner f = some (if p = .cdp1 then 1 else p.num) := by
  rw [← List.take_append_drop 6 f, h]
  cases p <;> rfl

/-! ## The whole history -/

theorem caps_run (c : Conf) (es : List Event) (d0 d : Daemon) (h0 : CapsOk d0.sys) (hr : daemonRun c es d0 = .ok d) : CapsOk d.sys := by
  refine run_induction (P := fun _ d => CapsOk d.sys) h0 ?_ es d hr
  rintro es e d d' - ih hs
  have key : ∀ {k : Kernel} {m : Media} {link : Option Nat} {d1 : Daemon}, sendRound c k m link d = .ok d1 → CapsOk d1.sys := by
    intro k m link d1 h1
    rcases round_sys h1 with h | h
    · rw [h]; exact ih
    · rw [h]
      cases ha : k.ifaddrs with
      | none => rw [daemonFetch_none c k d ha]; exact ih
      | some addrs => exact fetch_capsOk c.opts c.names c.mgmt k ⟨d.child.netifs, d.sys, d.mnetif, d.closed⟩ ha ih
  rcases step_bare hs with ⟨k, m, now, d1, rfl, h1, -, e⟩ | ⟨k, m, i, rfl, h1⟩ | ⟨-, -, -, e⟩
  · have := key h1
    rw [e]; exact this
  · exact key h1
  · rw [e]; exact ih

/-- What the start provides. -/
structure Booted (d : Daemon) : Prop where
  started : Started d
  caps : CapsOk d.sys
  texts : 9 ≤ d.sys.hostname.length + d.sys.utsStr.length + d.sys.platform.length

theorem booted {h : Host} {e : SysEnv} (he : SysEnvOk e) {os : List Opt} (ho : OptsOk os) {args : List Bytes} {c : Conf} {pwd : Option (Nat × Nat)}
    {d0 : Daemon} (hs : startUp h e os args = .ok (c, pwd, d0)) : Booted d0 := by
  obtain ⟨h0, hc0, -, ht0, -⟩ := C49_started h e he os ho args c pwd d0 hs
  exact ⟨h0, hc0, ht0⟩

/-- Every message of a round since a start: the frame built from the refreshed interface list, valid and of transmittable size. -/
theorem announced (c : Conf) {d0 : Daemon} (hs : Booted d0) (es : List Event) (hes : ∀ e ∈ es, SaneEvent e)
    (d : Daemon) (hr : daemonRun c es d0 = .ok d) (k : Kernel) (hk : Sane k) (m : Media) (ev : Event)
    (hev : (∃ now, ev = .timer k m now) ∨ ∃ i, ev = .link k m true true i) (d' : Daemon) (hst : daemonStep c d ev = .ok d') :
    ∃ new, d'.tx = d.tx ++ new ∧ ∀ t ∈ new,
      ∃ n ∈ (netifFetch c.opts c.names c.mgmt k ⟨d.child.netifs, d.sys, d.mnetif, d.closed⟩).1.netifs, n.index = t.index ∧
      ∃ env seq msg, EnvOk env ∧ CapsOk env.sys ∧ env.sys.hostname = d0.sys.hostname ∧ env.nif.name = n.name ∧ env.nif.hwaddr = n.hwaddr ∧
        env.nif.index = t.index ∧ t.proto.build (List.replicate 1518 0) env seq = .ok (msg, t.len) ∧ OnWire t (msg.take t.len) := by
  obtain ⟨h0, hc0, ht0⟩ := hs
  obtain ⟨new, hn, hf⟩ := C52_frames c d0 h0 es hes d hr k hk m ev hev d' hst
  refine ⟨new, hn, fun t ht => ?_⟩
  obtain ⟨n, -, s, hsm, hi, -, env, seq, msg, hok, hd, hb, -, hz, hnz⟩ := hf t ht
  have hcaps : CapsOk env.sys := by
    rw [hd.sys]
    have := caps_run c es d0 d hc0 hr
    cases ha : k.ifaddrs with
    | none =>
      have e1 : (daemonFetch c k d).1.sys = d.sys := by rw [daemonFetch_none c k d ha]
      exact (show CapsOk (daemonFetch c k d).1.sys by rw [e1]; exact this)
    | some addrs => exact fetch_capsOk c.opts c.names c.mgmt k _ ha this
  obtain ⟨a, b, x, y, hkeep⟩ := C49_kept c es d0 d hr
  obtain ⟨a', b', x', y', hkeep'⟩ := fetch_keeps c k d
  have hsys : env.sys = { d0.sys with cap := a', capActive := b', physifCount := x', hwaddr := y' } := by
    rw [hd.sys]
    have : (daemonFetch c k d).1.sys = { d0.sys with cap := a', capActive := b', physifCount := x', hwaddr := y' } := by
      rw [hkeep', hkeep]
    exact this
  have hun := hd.nif.same
  refine ⟨s, hsm, hi, env, seq, msg, hok, hcaps, by rw [hsys], ?_, ?_, ?_, hb, ?_⟩
  · have := congrArg Netif.name hun; exact this
  · have := congrArg Netif.hwaddr hun; exact this
  · have := congrArg Netif.index hun
    exact Eq.trans this hi
  · refine (onWire hok (by rw [hsys]; exact ht0) hb ?_).1
    rcases Classical.em (Standby k (netifFetch c.opts c.names c.mgmt k ⟨d.child.netifs, d.sys, d.mnetif, d.closed⟩).1.netifs n t.index) with h | h
    · exact .inr (hz h)
    · exact .inl (hnz h)

theorem transmitted_core (c : Conf) {d0 : Daemon} (hs : Booted d0) (es : List Event) (hes : ∀ e ∈ es, SaneEvent e)
    (d : Daemon) (hr : daemonRun c es d0 = .ok d) (k : Kernel) (hk : Sane k) (m : Media) (ev : Event)
    (hev : (∃ now, ev = .timer k m now) ∨ ∃ i, ev = .link k m true true i) (d' : Daemon) (hst : daemonStep c d ev = .ok d') :
    ∃ new, d'.tx = d.tx ++ new ∧ ∀ t ∈ new, ∀ (env : PEnv) (s : Parent), PEnvOk env →
      (parentSend c env s (txBytes t) = .abort →
        c.opts.has OPT_DEBUG = false ∧ (∀ r ∈ s.rawfds, r.index ≠ t.index) ∧ ∃ name, env.ifName t.index = some name ∧ env.sock name = .fatal) ∧
      ∀ name, env.ifName t.index = some name → c.opts.has OPT_DEBUG = false → env.sock name = .ok →
        env.write t.index (t.msg.take t.len) = .sent →
        ∃ s' opening, parentSend c env s (txBytes t) = .ok s' ∧ s'.acts = s.acts ++ opening ++ [.frame t.index (t.msg.take t.len)] ∧
          ∀ a ∈ opening, (∃ fl, a = .socket t.index name fl) ∨ ∃ add g, a = .member t.index add g := by
  obtain ⟨new, hn, hf⟩ := announced c hs es hes d hr k hk m ev hev d' hst
  refine ⟨new, hn, fun t ht env s henv => ?_⟩
  obtain ⟨n, -, hi, penv, seq, msg, hok, -, -, -, -, hidx, -, hw⟩ := hf t ht
  have hmax := hw.max
  have hmin := hw.min
  have hlen := hw.len
  have hh : Hands ((txBytes t).take 1558) t.index t.proto.num (t.msg.take t.len) := by
    rw [txBytes_take t (by omega)]
    exact hands_tx t (by rw [← hidx]; exact hok.1.1) (by omega) hw.length
  have hlen' := hw.length
  rcases parentSend_cases (c := c) henv s (txBytes t) with ⟨hno, -⟩ | ⟨i, p, f, hh', hcase⟩
  · exact absurd hh (hno _ _ _)
  obtain ⟨rfl, rfl, rfl⟩ := hands_inj hh hh'
  rcases hcase with ⟨hnone, e1⟩ | ⟨name, hname, ⟨hbad, -⟩ | ⟨-, e1⟩⟩
  · refine ⟨fun h => ?_, fun name h => ?_⟩
    · rw [e1] at h; cases h
    · rw [hnone] at h; cases h
  · exact absurd ⟨by omega, hw.advert⟩ hbad
  constructor
  · intro h
    cases hd : c.opts.has OPT_DEBUG with
    | true => rw [e1, if_pos hd] at h; cases h
    | false =>
      rw [e1, hd, if_neg (by decide), sendOn_eq c hd] at h
      refine ⟨rfl, ?_, name, hname, ?_⟩
      · split at h
        · cases h
        · next h' => exact rfdByIndex_none.mp h'
      · split at h
        · cases h
        · split at h
          · assumption
          · cases h
          · cases h
  · intro name' hname' hd hsock hwr
    rw [hname] at hname'
    cases hname'
    rw [e1, hd, if_neg (by decide), sendOn_eq c hd]
    cases hr : rfdByIndex s t.index with
    | some r =>
      have hri := (rfdByIndex_some hr).2
      refine ⟨_, [], rfl, ?_, fun _ h => nomatch h⟩
      unfold transmit
      rw [hri, hwr, List.append_nil]
      rfl
    | none =>
      rw [hsock]
      refine ⟨_, openActs c t.index name, rfl, ?_, ?_⟩
      · unfold transmit
        rw [newRfd_index, hwr]
        rfl
      · intro a ha
        unfold openActs at ha
        rw [hd, if_neg (by decide)] at ha
        rcases List.mem_cons.mp ha with rfl | ha
        · exact .inl ⟨_, rfl⟩
        · split at ha
          · obtain ⟨x, -, rfl⟩ := List.mem_map.mp ha
            exact .inr ⟨_, _, rfl⟩
          · cases ha

/-- The privileged process transmits every message of the unprivileged one, unchanged and on the interface it was built for, opening the socket of
that interface if need be.  It never takes such a message for an invalid one: it terminates only if the packet capture library fails fatally. -/
theorem C53_transmitted (h : Host) (e : SysEnv) (he : SysEnvOk e) (os : List Opt) (ho : OptsOk os) (args : List Bytes) (c : Conf)
    (pwd : Option (Nat × Nat)) (d0 : Daemon) (hs : startUp h e os args = .ok (c, pwd, d0)) (es : List Event) (hes : ∀ e ∈ es, SaneEvent e)
    (d : Daemon) (hr : daemonRun c es d0 = .ok d) (k : Kernel) (hk : Sane k) (m : Media) (ev : Event)
    (hev : (∃ now, ev = .timer k m now) ∨ ∃ i, ev = .link k m true true i) (d' : Daemon) (hst : daemonStep c d ev = .ok d') :
    ∃ new, d'.tx = d.tx ++ new ∧ ∀ t ∈ new, ∀ (env : PEnv) (s : Parent), PEnvOk env →
      (parentSend c env s (txBytes t) = .abort →
        c.opts.has OPT_DEBUG = false ∧ (∀ r ∈ s.rawfds, r.index ≠ t.index) ∧ ∃ name, env.ifName t.index = some name ∧ env.sock name = .fatal) ∧
      ∀ name, env.ifName t.index = some name → c.opts.has OPT_DEBUG = false → env.sock name = .ok →
        env.write t.index (t.msg.take t.len) = .sent →
        ∃ s' opening, parentSend c env s (txBytes t) = .ok s' ∧ s'.acts = s.acts ++ opening ++ [.frame t.index (t.msg.take t.len)] ∧
          ∀ a ∈ opening, (∃ fl, a = .socket t.index name fl) ∨ ∃ add g, a = .member t.index add g :=
  transmitted_core c (booted he ho hs) es hes d hr k hk m ev hev d' hst

theorem learned_core (c : Conf) {d0 : Daemon} (hs : Booted d0) (es : List Event) (hes : ∀ e ∈ es, SaneEvent e)
    (d : Daemon) (hr : daemonRun c es d0 = .ok d) (k : Kernel) (hk : Sane k) (m : Media) (ev : Event)
    (hev : (∃ now, ev = .timer k m now) ∨ ∃ i, ev = .link k m true true i) (d' : Daemon) (hst : daemonStep c d ev = .ok d') :
    ∃ new, d'.tx = d.tx ++ new ∧ ∀ t ∈ new, t.proto ≠ .edp →
      ∃ n ∈ (netifFetch c.opts c.names c.mgmt k ⟨d.child.netifs, d.sys, d.mnetif, d.closed⟩).1.netifs, n.index = t.index ∧
      ∃ src, (src = n.hwaddr ∨ src = [0, 0, 0, 0, 0, 0]) ∧ ((t.msg.take t.len).drop 6).take 6 = src ∧ Accepts protoFilter (t.msg.take t.len) ∧
      ∀ (j : Nat) (o : Opts) (now : Int) (st : Child) (subif : Netif), Ends st.netifs →
        st.netifs.find? (fun x => x.index == j) = some subif → (∀ x ∈ st.netifs, x.hwaddr ≠ src) →
        ∃ fwd st', parentRecv j [t.msg.take t.len] = .ok [fwd] ∧ childQueue o (some now) (rawOf fwd) st = .ok st' ∧
          ∃ peer, lookup st'.queue (j, t.proto.num, t.proto.dst, src) = some ⟨subif.name, now, 180, t.msg.take t.len, peer⟩ ∧
            (t.proto ≠ .ndp → Recovers peer.hostname d0.sys.hostname ∧ Recovers peer.portname n.name) ∧
            ∀ k', k' ≠ (j, t.proto.num, t.proto.dst, src) → lookup st'.queue k' = lookup st.queue k' := by
  obtain ⟨new, hn, hf⟩ := announced c hs es hes d hr k hk m ev hev d' hst
  refine ⟨new, hn, fun t ht hedp => ?_⟩
  obtain ⟨n, hnm, hi, penv, seq, msg, hok, hcaps, hhost, hname, hhw, hidx, hb, hw⟩ := hf t ht
  have hmax := hw.max
  have hmin := hw.min
  have hlen := hw.len
  have hlen' := hw.length
  have hadv := hw.advert
  have hfr := hw.frame
  have hsrc0 := build_src hok (by rw [List.length_replicate]; decide) hb
  have hlearn := build_learns hok hcaps (by rw [List.length_replicate]; decide) hb
  have hsrcg : ((msg.take t.len).drop 6).take 6 = n.hwaddr := by
    rw [← hhw, ← hsrc0, List.drop_take, List.take_take]
    congr 1; omega
  generalize t.msg.take t.len = f at hlen' hadv hfr ⊢
  generalize msg.take t.len = g at *
  have hdst : f.take 6 = t.proto.dst := advert_dst hadv
  have hchk : ∃ q, t.proto.check (f ++ []) f.length = .ok q := by
    rcases check_advert t.proto f [] (by omega) (by omega) with ⟨h, -⟩ | ⟨-, h⟩
    · exact h
    · exact absurd hadv h
  obtain ⟨q, hq⟩ := hchk
  have hacc : Accepts protoFilter f := C11_complete_partial t.proto hedp f [] (by omega) (by omega) q hq
  refine ⟨n, hnm, hi, (f.drop 6).take 6, ?_, rfl, hacc, fun j o now st subif hends hif hsrc => ?_⟩
  · rcases hfr with rfl | rfl
    · exact .inl hsrcg
    · right; unfold resrc; rw [List.append_assoc, List.drop_left' (by rw [List.length_take]; omega)]; rfl
  obtain ⟨ms, hms, hmf, hmp, hmi⟩ := C28_complete j [f] (by
    intro d hd
    rw [List.mem_singleton.mp hd]
    refine ⟨by omega, ?_⟩
    rw [owner_of_dst hdst]
    rfl)
  obtain ⟨fwd, rfl⟩ : ∃ fwd, ms = [fwd] := by
    have : ms.length = 1 := by have := congrArg List.length hmf; simpa using this
    exact List.length_eq_one_iff.mp this
  have hff : fwd.frame = f := by
    have := List.head_eq_of_cons_eq hmf
    rw [this, List.take_of_length_le (by omega)]
  have hfi : fwd.index = j := hmi fwd (by simp)
  have hfp : fwd.proto.num = if t.proto = .cdp1 then 1 else t.proto.num := by
    have := List.head_eq_of_cons_eq hmp
    rw [owner_of_dst hdst] at this
    exact Option.some.inj this
  have hdec : ∀ pad : Bytes, 2 ≤ pad.length → ∃ s' kk, fwd.proto.decode false (f ++ pad) f.length { proto := fwd.proto.num } = .ok (s', kk) ∧
      kk ≠ 0 ∧ s'.ttl = 180 ∧ s'.proto = t.proto.num ∧ Learns t.proto penv s'.peer := by
    intro pad hp
    obtain ⟨s', kk, h1, h2⟩ := hlearn pad hp fwd.proto hfp
    rw [hlen] at h1
    rcases hfr with rfl | rfl
    · exact ⟨s', kk, h1, h2⟩
    · exact ⟨s', kk, decode_resrc rfl (by omega) (by omega) hp h1, h2⟩
  obtain ⟨s', kk, h1, h2, h3, h4, h5⟩ := hdec (List.replicate (ETHER_MAX_LEN - f.length) 0 ++ [1, 0]) (by simp)
  have hraw : (rawOf fwd).msg ++ [1, 0] = f ++ (List.replicate (ETHER_MAX_LEN - f.length) 0 ++ [1, 0]) := by
    unfold rawOf; dsimp only; rw [hff, List.append_assoc]
  have hl0 : (rawOf fwd).len.toNat = f.length := by unfold rawOf; dsimp only; rw [hff]; rfl
  have hpn : (rawOf fwd).proto = fwd.proto.num := rfl
  have hin : (rawOf fwd).index = j := hfi
  have hof : Proto.ofNum (rawOf fwd).proto = some fwd.proto := by rw [hpn]; cases fwd.proto <;> rfl
  have hdec' : fwd.proto.decode false ((rawOf fwd).msg ++ [1, 0]) (rawOf fwd).len.toNat { proto := (rawOf fwd).proto } = .ok (s', kk) := by
    rw [hraw, hl0, hpn]; exact h1
  have h6 : (rawOf fwd).msg.take 6 = t.proto.dst := by
    unfold rawOf; dsimp only; rw [hff, List.take_append_of_le_length (by omega), hdst]
  have h12 : ((rawOf fwd).msg.drop 6).take 6 = (f.drop 6).take 6 := by
    unfold rawOf; dsimp only
    rw [hff, List.drop_append_of_le_length (by omega), List.take_append_of_le_length (by rw [List.length_drop]; omega)]
  have hall : (rawOf fwd).msg.take (rawOf fwd).len.toNat = f := by
    rw [hl0]; unfold rawOf; dsimp only; rw [hff, List.take_left]
  obtain ⟨st', hst'⟩ := childQueue_total o (some now) (rawOf fwd) st hends fwd.proto hof
    (by have := hl0; unfold rawOf at this ⊢; dsimp only at this ⊢; omega) (.inr ⟨_, hdec'⟩)
  refine ⟨fwd, st', hms, hst', s'.peer, ?_⟩
  have := C16_latest o now (rawOf fwd) st st' hst' fwd.proto subif s' kk (by unfold rawOf; dsimp only; rfl) (by unfold rawOf; dsimp only; omega)
    (by rw [hin]; exact hif) (by rw [h12]; exact hsrc) hof hdec' h2 (by rw [h3]; decide)
  dsimp only at this
  rw [hin, h4, h6, h12, hall, h3] at this
  refine ⟨this.1, fun hndp => ⟨?_, ?_⟩, this.2.1⟩
  · rw [← hhost]; exact h5.1 hndp
  · rw [← hname]; exact h5.2 hndp hedp

/-- A frame as transmitted reaches the table of another ladvd: its socket filter lets it pass, its privileged process forwards it with the right protocol,
and its unprivileged process stores it, unless the frame bears one of its own addresses.  The entry shows the sender's host name and the name of the
interface it was sent on, and lives for 180 seconds; nothing else in the table changes.  Full claim: all protocols; for EDP the filter drops
the frame (`C53_edp_unheard`), and NDP does not carry the names. -/
theorem C53_learned_partial (h : Host) (e : SysEnv) (he : SysEnvOk e) (os : List Opt) (ho : OptsOk os) (args : List Bytes) (c : Conf)
    (pwd : Option (Nat × Nat)) (d0 : Daemon) (hs : startUp h e os args = .ok (c, pwd, d0)) (es : List Event) (hes : ∀ e ∈ es, SaneEvent e)
    (d : Daemon) (hr : daemonRun c es d0 = .ok d) (k : Kernel) (hk : Sane k) (m : Media) (ev : Event)
    (hev : (∃ now, ev = .timer k m now) ∨ ∃ i, ev = .link k m true true i) (d' : Daemon) (hst : daemonStep c d ev = .ok d') :
    ∃ new, d'.tx = d.tx ++ new ∧ ∀ t ∈ new, t.proto ≠ .edp →
      ∃ n ∈ (netifFetch c.opts c.names c.mgmt k ⟨d.child.netifs, d.sys, d.mnetif, d.closed⟩).1.netifs, n.index = t.index ∧
      ∃ src, (src = n.hwaddr ∨ src = [0, 0, 0, 0, 0, 0]) ∧ ((t.msg.take t.len).drop 6).take 6 = src ∧ Accepts protoFilter (t.msg.take t.len) ∧
      ∀ (j : Nat) (o : Opts) (now : Int) (st : Child) (subif : Netif), Ends st.netifs →
        st.netifs.find? (fun x => x.index == j) = some subif → (∀ x ∈ st.netifs, x.hwaddr ≠ src) →
        ∃ fwd st', parentRecv j [t.msg.take t.len] = .ok [fwd] ∧ childQueue o (some now) (rawOf fwd) st = .ok st' ∧
          ∃ peer, lookup st'.queue (j, t.proto.num, t.proto.dst, src) = some ⟨subif.name, now, 180, t.msg.take t.len, peer⟩ ∧
            (t.proto ≠ .ndp → Recovers peer.hostname d0.sys.hostname ∧ Recovers peer.portname n.name) ∧
            ∀ k', k' ≠ (j, t.proto.num, t.proto.dst, src) → lookup st'.queue k' = lookup st.queue k' :=
  learned_core c (booted he ho hs) es hes d hr k hk m ev hev d' hst

theorem edp_core (c : Conf) {d0 : Daemon} (hs : Booted d0) (es : List Event) (hes : ∀ e ∈ es, SaneEvent e)
    (d : Daemon) (hr : daemonRun c es d0 = .ok d) (k : Kernel) (hk : Sane k) (m : Media) (ev : Event)
    (hev : (∃ now, ev = .timer k m now) ∨ ∃ i, ev = .link k m true true i) (d' : Daemon) (hst : daemonStep c d ev = .ok d') :
    ∃ new, d'.tx = d.tx ++ new ∧ ∀ t ∈ new, t.proto = .edp → bpfFilter protoFilter (t.msg.take t.len) = .ok 0 := by
  obtain ⟨new, hn, hf⟩ := announced c hs es hes d hr k hk m ev hev d' hst
  refine ⟨new, hn, fun t ht hedp => ?_⟩
  obtain ⟨n, hnm, hi, penv, seq, msg, hok, hcaps, hhost, hname, hhw, hidx, hb, hw⟩ := hf t ht
  have hadv := hw.advert
  rw [hedp] at hadv
  obtain ⟨q, hq⟩ : ∃ q, EdpFrame (t.msg.take t.len) q := hadv
  exact C11_edp_rejected _ q hq

/-- EDP frames, although built and transmitted, are dropped by the socket filter of another ladvd. -/
theorem C53_edp_unheard (h : Host) (e : SysEnv) (he : SysEnvOk e) (os : List Opt) (ho : OptsOk os) (args : List Bytes) (c : Conf)
    (pwd : Option (Nat × Nat)) (d0 : Daemon) (hs : startUp h e os args = .ok (c, pwd, d0)) (es : List Event) (hes : ∀ e ∈ es, SaneEvent e)
    (d : Daemon) (hr : daemonRun c es d0 = .ok d) (k : Kernel) (hk : Sane k) (m : Media) (ev : Event)
    (hev : (∃ now, ev = .timer k m now) ∨ ∃ i, ev = .link k m true true i) (d' : Daemon) (hst : daemonStep c d ev = .ok d') :
    ∃ new, d'.tx = d.tx ++ new ∧ ∀ t ∈ new, t.proto = .edp → bpfFilter protoFilter (t.msg.take t.len) = .ok 0 :=
  edp_core c (booted he ho hs) es hes d hr k hk m ev hev d' hst

/-- Start with LLDP, CDP, FDP and EDP, one round, and a neighbour with one interface that hears everything sent: protocol, host name and port name of
the entries in its table. -/
def heard : List (Nat × Bytes × Bytes) :=
  match startUp { user := fun _ => some (1, 1) } sysSample [⟨'a', []⟩, ⟨'L', []⟩, ⟨'C', []⟩, ⟨'F', []⟩, ⟨'E', []⟩] [] with
  | .ok (c, _, d0) =>
    match daemonRun c [.timer sampleKernel {} 0] d0 with
    | .ok d =>
      let st := d.tx.foldl (fun (st : Child) t =>
        if bpfFilter protoFilter (t.msg.take t.len) = .ok 0 then st else
        match parentRecv 9 [t.msg.take t.len] with
        | .ok [fwd] => (match childQueue 0 (some 7) (rawOf fwd) st with | .ok st' => st' | _ => st)
        | _ => st) { netifs := [{ index := 9, name := lit "em0", type := 0, hwaddr := [2, 9, 9, 9, 9, 9] }] }
      st.queue.map (fun e => (e.proto, e.peer.hostname.getD [], e.peer.portname.getD []))
    | _ => []
  | _ => []

example : heard = [(0, lit "sw.example.org", lit "eth1"), (1, lit "sw.example.org", lit "eth1"), (3, lit "sw.example.org", lit "eth1"),
    (0, lit "sw.example.org", lit "eth0"), (1, lit "sw.example.org", lit "eth0"), (3, lit "sw.example.org", lit "eth0"),
    (0, lit "sw.example.org", lit "eth2"), (1, lit "sw.example.org", lit "eth2"), (3, lit "sw.example.org", lit "eth2")] := by decide +kernel

end Ladvd.Props
