import Verif.Lemmas.BsdDaemon
import Verif.Props.Alive
import Verif.Props.BsdSys
import Verif.Props.Path
/-!
# C88, C89: the daemon on FreeBSD
-/

namespace Ladvd.Props

open Ladvd Ladvd.Spec

/-! ## C88 The start -/

/-- Country and location of the command line fit their fields. -/
theorem option_texts {h : Host} {os : List Opt} (ho : OptsOk os) {args : List Bytes} {s : MainSt} {pwd : Option (Nat × Nat)}
    (hm : mainStart h os args = .ok (s, pwd)) : cText 2 s.sys.country ∧ cText 255 s.sys.location := by
  obtain ⟨-, -, hcn, hlo, -⟩ := C35_values h os args s pwd hm
  constructor
  · rw [hcn]
    cases hq : (argsOf 'c' os).getLast? with
    | none => exact ⟨by simp, by simp⟩
    | some t =>
      have := List.mem_of_getLast? hq
      unfold argsOf at this
      obtain ⟨o, ho', e1⟩ := List.mem_map.mp this
      obtain ⟨ho1, ho2⟩ := List.mem_filter.mp ho'
      have hv := ((C35_starts h os args).mp ⟨s, pwd, hm⟩).1 o ho1
      simp at ho2
      unfold ValidOpt at hv
      rw [ho2] at hv
      simp at hv
      subst e1
      refine ⟨by simp [capitals, hv.1], ?_⟩
      intro b hb
      simp only [Option.map_some, Option.getD_some, capitals] at hb
      obtain ⟨x, hx, rfl⟩ := List.mem_map.mp hb
      split
      · rename_i hlow
        intro hz
        have h61 := UInt8.le_iff_toNat_le.mp hlow.1
        have h0 := congrArg UInt8.toNat hz
        rw [UInt8.toNat_sub_of_le] at h0
        · simp at h0 h61; omega
        · rw [UInt8.le_iff_toNat_le]; simp at h61 ⊢; omega
      · exact ho o ho1 x hx
  · rw [hlo]
    cases hq : (argsOf 'l' os).getLast? with
    | none => exact ⟨by simp, by simp⟩
    | some t =>
      have := List.mem_of_getLast? hq
      unfold argsOf at this
      obtain ⟨o, ho', e1⟩ := List.mem_map.mp this
      obtain ⟨ho1, -⟩ := List.mem_filter.mp ho'
      subst e1
      exact ⟨List.length_take_le _ _, fun b hb => ho o ho1 b (List.mem_of_mem_take hb)⟩

theorem kenvText_ok {v : Option Bytes} (h : ∀ t ∈ v.toList, ∀ b ∈ t, b ≠ 0) : cText 32 (kenvText v) := by
  unfold kenvText
  refine ⟨List.length_take_le _ _, fun b hb => ?_⟩
  cases v with
  | none => simp at hb
  | some t => exact h t (by simp) b (List.mem_of_mem_take hb)

/-- The state a start on FreeBSD produces: nothing stored or sent yet, every text fits its field, active capabilities are available ones,
and the texts are long enough for every packet. -/
theorem C88_started (h : Host) (e : BsdSysEnv) (he : BsdSysOk e) (hname : ∀ u ∈ e.uname, u.sysname = lit "FreeBSD") (os : List Opt) (ho : OptsOk os)
    (args : List Bytes) (c : Conf) (pwd : Option (Nat × Nat)) (d : Daemon) (hs : bsdStartUp h e os args = .ok (c, pwd, d)) :
    Started d ∧ CapsOk d.sys ∧ d.tx = [] ∧ 9 ≤ d.sys.hostname.length + d.sys.utsStr.length + d.sys.platform.length ∧
    (c.opts.testBit 5 = true ↔ c.names ≠ []) := by
  unfold bsdStartUp at hs
  simp only [Res.bind_eq, Res.pure_eq] at hs
  cases hm : mainStart h os args with
  | ok r =>
    obtain ⟨s, pw⟩ := r
    rw [hm] at hs
    simp only [Res.bind_ok] at hs
    cases hu : e.uname with
    | none =>
      have : bsdSysinfo e s.sys = .fail ∨ bsdSysinfo e s.sys = .abort := by
        unfold bsdSysinfo; rw [hu]; simp
      rcases this with h | h <;> rw [h] at hs <;> cases hs
    | some u =>
      obtain ⟨s', h1, -, h3, h4, h5, -⟩ := bsdSysinfo_ok e he hu s.sys rfl
      rw [h1] at hs
      simp only [Res.bind_ok] at hs
      injection hs with hs
      injection hs with hc hs
      injection hs with hp hd
      subst hd
      have hu5 := he.uts u (by rw [hu]; rfl)
      obtain ⟨ht1, ht2⟩ := option_texts ho hm
      have hz : ∀ t ∈ [u.sysname, u.nodename, u.release, u.version, u.machine], ∀ b ∈ t, b ≠ 0 := fun t ht => (hu5 t ht).2
      have hfn := hname u (by rw [hu]; rfl)
      have hplat : 9 ≤ s'.platform.length := by
        rw [h4]
        dsimp only
        rw [List.length_take]
        have g1 := List.length_pos_iff.mpr (hu5 u.release (by simp)).1
        have g2 := List.length_pos_iff.mpr (hu5 u.machine (by simp)).1
        have g3 : (lit " ").length = 1 := rfl
        have g4 : u.sysname.length = 7 := by rw [hfn]; rfl
        have : 9 ≤ (words [u.sysname, u.release, u.machine]).length := by
          simp [words, List.intercalate, List.intersperse, g3, g4]; omega
        omega
      refine ⟨⟨rfl, rfl, rfl, h3, ?_, ?_, ?_, ?_, h5, ?_, ?_, ?_, ?_, ?_⟩, ?_, rfl, ?_, ?_⟩
      · rw [h4]
        apply words_nul
        intro t ht
        exact hz t (by simp at ht ⊢; rcases ht with h | h <;> simp [h])
      · rw [h4]
        apply words_nul
        intro t ht
        exact hz t (by simp at ht ⊢; rcases ht with h | h | h <;> simp [h])
      · rw [h4]; exact ht2
      · rw [h4]; exact ht1
      · rw [h4]; rfl
      · rw [h4]; dsimp only; split <;> omega
      · rw [h4]; dsimp only; split <;> omega
      · rw [h4]; dsimp only; split <;> omega
      · rw [h4]
        dsimp only
        exact ⟨kenvText_ok (he.kenv _), kenvText_ok (he.kenv _),
          ⟨List.length_take_le _ _, fun b hb => hz u.release (by simp) b (List.mem_of_mem_take hb)⟩, kenvText_ok (he.kenv _), kenvText_ok (he.kenv _),
          kenvText_ok (he.kenv _), by simp [cText]⟩
      · intro b hb
        have e1 : s'.cap = if e.forward4.isSome = true ∨ e.forward6.isSome = true then 12 else 4 := by rw [h4]
        have e2 : s'.capActive = if e.forward4 = some 1 ∨ e.forward6 = some 1 then 12 else 4 := by rw [h4]
        dsimp only
        rw [e1, e2]
        by_cases ha : e.forward4 = some 1 ∨ e.forward6 = some 1
        · rw [if_pos ha, if_pos (by rcases ha with h | h <;> simp [h])]
          exact id
        · rw [if_neg ha]
          simp only [List.mem_cons, List.not_mem_nil, or_false] at hb
          split <;> rcases hb with rfl | rfl | rfl | rfl <;> decide
      · show 9 ≤ s'.hostname.length + s'.utsStr.length + s'.platform.length
        omega
      · rw [← hc]
        exact (C35_options h os args s pw hm).2.2.2.2.2.1
  | fail => rw [hm] at hs; cases hs
  | oob => rw [hm] at hs; cases hs
  | abort => rw [hm] at hs; cases hs
  | stuck => rw [hm] at hs; cases hs

theorem bsdBooted {h : Host} {e : BsdSysEnv} (he : BsdSysOk e) (hname : ∀ u ∈ e.uname, u.sysname = lit "FreeBSD") {os : List Opt} (ho : OptsOk os)
    {args : List Bytes} {c : Conf} {pwd : Option (Nat × Nat)} {d0 : Daemon} (hs : bsdStartUp h e os args = .ok (c, pwd, d0)) : Booted d0 := by
  obtain ⟨h0, hc0, -, ht0, -⟩ := C88_started h e he hname os ho args c pwd d0 hs
  exact ⟨h0, hc0, ht0⟩

/-- The daemon starts exactly if the command line is accepted and `uname` succeeds. -/
theorem C88_starts (h : Host) (e : BsdSysEnv) (he : BsdSysOk e) (os : List Opt) (args : List Bytes) :
    (∃ r, bsdStartUp h e os args = .ok r) ↔ (∃ s pwd, mainStart h os args = .ok (s, pwd)) ∧ e.uname.isSome = true := by
  unfold bsdStartUp
  simp only [Res.bind_eq, Res.pure_eq]
  cases hm : mainStart h os args with
  | ok r =>
    obtain ⟨s, pw⟩ := r
    simp only [Res.bind_ok]
    rw [← C68_starts e he s.sys rfl]
    cases hb : bsdSysinfo e s.sys <;> simp [Res.bind]
  | fail => simp [Res.bind]
  | oob => simp [Res.bind]
  | abort => simp [Res.bind]
  | stuck => simp [Res.bind]

/-! ## C88 The daemon keeps running -/

theorem bsd_map_sane {es : List BsdEvent} (hs : ∀ e ∈ es, BsdSaneEvent e) : ∀ e ∈ es.map asEvent, SaneEvent e := by
  intro e he
  obtain ⟨x, hx, rfl⟩ := List.mem_map.mp he
  exact sane_asEvent (hs x hx)

theorem bsd_map_captured {es : List BsdEvent} (hc : ∀ e ∈ es, BsdCaptured e) : ∀ e ∈ es.map asEvent, Captured e := by
  intro e he
  obtain ⟨x, hx, rfl⟩ := List.mem_map.mp he
  have := hc x hx
  cases x with
  | timer k m now => trivial
  | route k m got => unfold asEvent; dsimp only; cases routeLink got <;> trivial
  | recv now r => exact this
  | accept => trivial
  | write sid ws => trivial

/-- Whatever arrives from the network, the kernel and the clients, in whatever order: the process handles all of it, unless a client session is
continued at a table entry that has been freed, and then it accesses freed memory.  It never fails an assertion, never loops for ever. -/
theorem C88_only_clients (c : Conf) (d0 : Daemon) (h0 : Started d0) (es : List BsdEvent) (hs : ∀ e ∈ es, BsdSaneEvent e)
    (hc : ∀ e ∈ es, BsdCaptured e) :
    (∃ d, bsdDaemonRun c es d0 = .ok d) ∨
    (bsdDaemonRun c es d0 = .oob ∧ ∃ pre sid ws post d, es = pre ++ .write sid ws :: post ∧ bsdDaemonRun c pre d0 = .ok d ∧
      Dangling d (.write sid ws)) := by
  have hg := good_started h0
  rw [bsdRun_eq c es hg hs]
  rcases C56_only_clients c d0 h0 (es.map asEvent) (bsd_map_sane hs) (bsd_map_captured hc) with h | ⟨h, pre, e, post, d, he, hp, hd⟩
  · exact Or.inl h
  · right
    refine ⟨h, ?_⟩
    obtain ⟨pre', rest, rfl, rfl, hrest⟩ := List.map_eq_append_iff.mp he
    obtain ⟨x, post', rfl, rfl, rfl⟩ := List.map_eq_cons_iff.mp hrest
    have hpre : bsdDaemonRun c pre' d0 = .ok d := by
      rw [bsdRun_eq c pre' hg (fun y hy => hs y (List.mem_append_left _ hy))]
      exact hp
    cases x with
    | timer k m now => exact hd.elim
    | route k m got => unfold asEvent at hd; dsimp only at hd; cases hl : routeLink got <;> rw [hl] at hd <;> exact hd.elim
    | recv now r => exact hd.elim
    | accept => exact hd.elim
    | write sid ws => exact ⟨pre', sid, ws, post', d, rfl, hpre, hd⟩

/-- Without clients the process keeps running whatever else happens. -/
theorem C88_no_clients (c : Conf) (d0 : Daemon) (h0 : Started d0) (es : List BsdEvent) (hs : ∀ e ∈ es, BsdSaneEvent e)
    (hc : ∀ e ∈ es, BsdCaptured e) (hn : ∀ e ∈ es, BsdNotAccept e) : ∃ d, bsdDaemonRun c es d0 = .ok d := by
  rw [bsdRun_eq c es (good_started h0) hs]
  refine C56_no_clients c d0 h0 (es.map asEvent) (bsd_map_sane hs) (bsd_map_captured hc) ?_
  intro e he
  obtain ⟨x, hx, rfl⟩ := List.mem_map.mp he
  have := hn x hx
  cases x with
  | timer k m now => trivial
  | route k m got => unfold asEvent; dsimp only; cases routeLink got <;> trivial
  | recv now r => trivial
  | accept => exact this
  | write sid ws => trivial

/-! ## C88 What is announced -/

/-- The next round in the terms of the Linux model. -/
theorem bsd_round {c : Conf} {d0 : Daemon} (h0 : Started d0) {es : List BsdEvent} (hes : ∀ e ∈ es, BsdSaneEvent e)
    {d : Daemon} (hr : bsdDaemonRun c es d0 = .ok d) {ev : BsdEvent} (hev : BsdSaneEvent ev) :
    daemonRun c (es.map asEvent) d0 = .ok d ∧ Good d ∧ bsdDaemonStep c d ev = daemonStep c d (asEvent ev) := by
  rw [bsdRun_eq c es (good_started h0) hes] at hr
  have hg := good_run h0 (bsd_map_sane hes) hr
  exact ⟨hr, hg, bsdStep_eq c hg hev⟩

/-- The privileged process transmits every message of the unprivileged one, unchanged and on the interface it was built for. -/
theorem C88_transmitted (h : Host) (e : BsdSysEnv) (he : BsdSysOk e) (hname : ∀ u ∈ e.uname, u.sysname = lit "FreeBSD") (os : List Opt)
    (ho : OptsOk os) (args : List Bytes) (c : Conf) (pwd : Option (Nat × Nat)) (d0 : Daemon) (hs : bsdStartUp h e os args = .ok (c, pwd, d0))
    (es : List BsdEvent) (hes : ∀ e ∈ es, BsdSaneEvent e) (d : Daemon) (hr : bsdDaemonRun c es d0 = .ok d) (k : BsdKernel) (hk : BsdSane k)
    (m : BsdMedia) (ev : BsdEvent) (hev : BsdRound k m ev) (d' : Daemon) (hst : bsdDaemonStep c d ev = .ok d') :
    ∃ new, d'.tx = d.tx ++ new ∧ ∀ t ∈ new, ∀ (env : PEnv) (s : Parent), PEnvOk env →
      (parentSend c env s (txBytes t) = .abort →
        c.opts.has OPT_DEBUG = false ∧ (∀ r ∈ s.rawfds, r.index ≠ t.index) ∧ ∃ name, env.ifName t.index = some name ∧ env.sock name = .fatal) ∧
      ∀ name, env.ifName t.index = some name → c.opts.has OPT_DEBUG = false → env.sock name = .ok →
        env.write t.index (t.msg.take t.len) = .sent →
        ∃ s' opening, parentSend c env s (txBytes t) = .ok s' ∧ s'.acts = s.acts ++ opening ++ [.frame t.index (t.msg.take t.len)] ∧
          ∀ a ∈ opening, (∃ fl, a = .socket t.index name fl) ∨ ∃ add g, a = .member t.index add g := by
  have hb := bsdBooted he hname ho hs
  obtain ⟨h1, -, h2⟩ := bsd_round hb.started hes hr (round_sane hev hk)
  rw [h2] at hst
  exact transmitted_core c hb _ (bsd_map_sane hes) d h1 (asKernel k) (sane_asKernel hk) _ _ (round_asEvent hev) d' hst

/-- A frame as transmitted reaches the table of another ladvd: its socket filter lets it pass, its privileged process forwards it with the right protocol,
and its unprivileged process stores it, unless the frame bears one of its own addresses.  The entry shows the sender's host name and the name of the
interface it was sent on, and lives for 180 seconds; nothing else in the table changes.  Full claim: all protocols; for EDP the filter drops
the frame (`C88_edp_unheard`), and NDP does not carry the names. -/
theorem C88_learned_partial (h : Host) (e : BsdSysEnv) (he : BsdSysOk e) (hname : ∀ u ∈ e.uname, u.sysname = lit "FreeBSD") (os : List Opt)
    (ho : OptsOk os) (args : List Bytes) (c : Conf) (pwd : Option (Nat × Nat)) (d0 : Daemon) (hs : bsdStartUp h e os args = .ok (c, pwd, d0))
    (es : List BsdEvent) (hes : ∀ e ∈ es, BsdSaneEvent e) (d : Daemon) (hr : bsdDaemonRun c es d0 = .ok d) (k : BsdKernel) (hk : BsdSane k)
    (m : BsdMedia) (ev : BsdEvent) (hev : BsdRound k m ev) (d' : Daemon) (hst : bsdDaemonStep c d ev = .ok d') :
    ∃ new r, d'.tx = d.tx ++ new ∧ bsdFetch c.opts c.names c.mgmt k ⟨d.child.netifs, d.sys, d.mnetif, d.closed⟩ = .ok r ∧
      ∀ t ∈ new, t.proto ≠ .edp →
      ∃ n ∈ r.1.netifs, n.index = t.index ∧
      ∃ src, (src = n.hwaddr ∨ src = [0, 0, 0, 0, 0, 0]) ∧ ((t.msg.take t.len).drop 6).take 6 = src ∧ Accepts protoFilter (t.msg.take t.len) ∧
      ∀ (j : Nat) (o : Opts) (now : Int) (st : Child) (subif : Netif), Ends st.netifs →
        st.netifs.find? (fun x => x.index == j) = some subif → (∀ x ∈ st.netifs, x.hwaddr ≠ src) →
        ∃ fwd st', parentRecv j [t.msg.take t.len] = .ok [fwd] ∧ childQueue o (some now) (rawOf fwd) st = .ok st' ∧
          ∃ peer, lookup st'.queue (j, t.proto.num, t.proto.dst, src) = some ⟨subif.name, now, 180, t.msg.take t.len, peer⟩ ∧
            (t.proto ≠ .ndp → Recovers peer.hostname d0.sys.hostname ∧ Recovers peer.portname n.name) ∧
            ∀ k', k' ≠ (j, t.proto.num, t.proto.dst, src) → lookup st'.queue k' = lookup st.queue k' := by
  have hb := bsdBooted he hname ho hs
  obtain ⟨h1, hg, h2⟩ := bsd_round hb.started hes hr (round_sane hev hk)
  rw [h2] at hst
  obtain ⟨new, hn, hf⟩ := learned_core c hb _ (bsd_map_sane hes) d h1 (asKernel k) (sane_asKernel hk) _ _ (round_asEvent hev) d' hst
  exact ⟨new, _, hn, (bsdDaemonFetch_eq c hk hg.nodup).1, hf⟩

/-- EDP frames, although built and transmitted, are dropped by the socket filter of another ladvd. -/
theorem C88_edp_unheard (h : Host) (e : BsdSysEnv) (he : BsdSysOk e) (hname : ∀ u ∈ e.uname, u.sysname = lit "FreeBSD") (os : List Opt)
    (ho : OptsOk os) (args : List Bytes) (c : Conf) (pwd : Option (Nat × Nat)) (d0 : Daemon) (hs : bsdStartUp h e os args = .ok (c, pwd, d0))
    (es : List BsdEvent) (hes : ∀ e ∈ es, BsdSaneEvent e) (d : Daemon) (hr : bsdDaemonRun c es d0 = .ok d) (k : BsdKernel) (hk : BsdSane k)
    (m : BsdMedia) (ev : BsdEvent) (hev : BsdRound k m ev) (d' : Daemon) (hst : bsdDaemonStep c d ev = .ok d') :
    ∃ new, d'.tx = d.tx ++ new ∧ ∀ t ∈ new, t.proto = .edp → bpfFilter protoFilter (t.msg.take t.len) = .ok 0 := by
  have hb := bsdBooted he hname ho hs
  obtain ⟨h1, -, h2⟩ := bsd_round hb.started hes hr (round_sane hev hk)
  rw [h2] at hst
  exact edp_core c hb _ (bsd_map_sane hes) d h1 (asKernel k) (sane_asKernel hk) _ _ (round_asEvent hev) d' hst

/-! ## C89 Rounds and link reports -/

/-- What is required for a round to have an effect: the kernel lists at least one usable interface, all the interfaces of the command
line are usable; not more than ten VLANs, and texts that are not too short. -/
structure BsdWorkable (c : Conf) (k : BsdKernel) (addrs : List BIfAddr) (d : Daemon) : Prop where
  sane : BsdSane k
  listed : k.ifaddrs = some addrs
  count : if c.names = [] then bsdUsables k addrs ≠ [] else ∀ name ∈ c.names, ∃ e ∈ bsdUsables k addrs, e.name = name ∧ e.kind ≠ -1
  len : (bsdUsables k addrs).length < 65536
  names : c.names.length < 65536
  vlans : ((bsdUsables k addrs).filter (fun e => e.kind = -1)).length ≤ 10
  texts : 9 ≤ d.sys.hostname.length + d.sys.utsStr.length + d.sys.platform.length
  argv : c.opts.testBit 5 = true ↔ c.names ≠ []

theorem bsd_workable {c : Conf} {k : BsdKernel} {addrs : List BIfAddr} {d : Daemon} (h : BsdWorkable c k addrs d) :
    Workable c (asKernel k) (addrs.map asIfAddr) d := by
  have hk := asKernel_some h.listed
  refine ⟨sane_asKernel h.sane, by rw [hk]; rfl, ?_, ?_, h.names, ?_, h.texts, h.argv⟩
  · rw [hk, usables_asLinux]; exact h.count
  · rw [hk, usables_asLinux]; exact h.len
  · rw [hk, usables_asLinux]; exact h.vlans

theorem bsd_ok {c : Conf} {k : BsdKernel} {addrs : List BIfAddr} {d : Daemon} (h : BsdWorkable c k addrs d) : BsdOk k addrs :=
  (h.sane addrs (by rw [h.listed]; exact List.mem_singleton.mpr rfl)).1

/-- A periodic round on FreeBSD, after any history: it ends, and the messages sent are exactly those due, one for each interface and protocol
unless the command line names an aggregate together with one of its ports.  What is missing: in that case there are two (see
`C89_overlap`). -/
theorem C89_round_partial (c : Conf) (hsend : c.opts.testBit 1 = true) (d0 : Daemon) (h0 : Started d0) (es : List BsdEvent)
    (hes : ∀ e ∈ es, BsdSaneEvent e) (d : Daemon) (hr : bsdDaemonRun c es d0 = .ok d) (k : BsdKernel) (m : BsdMedia) (now : Int)
    (addrs : List BIfAddr) (hw : BsdWorkable c k addrs d) :
    ∃ d' new, bsdDaemonStep c d (.timer k m now) = .ok d' ∧ d'.tx = d.tx ++ new ∧
      (BsdNoOverlap c k (bsdUsables k addrs) → (new.map (fun t => (t.index, t.proto))).Nodup) ∧
      ∀ i p, (i, p) ∈ new.map (fun t => (t.index, t.proto)) ↔
        BsdDue c k (bsdUsables k addrs) (fun i => ((withIndex d.child.netifs i).map (·.protos)).getD 0) i p := by
  obtain ⟨h1, hg, h2⟩ := bsd_round h0 hes hr (ev := .timer k m now) hw.sane
  have hok := bsd_ok hw
  obtain ⟨d', new, hs, hn, ho, hd⟩ := C23_round_partial c hsend d0 h0 _ (bsd_map_sane hes) d h1 (asKernel k) { bsd := some m } now _ (bsd_workable hw)
  rw [asKernel_some hw.listed, usables_asLinux] at ho hd
  refine ⟨d', new, by rw [h2]; exact hs, hn, fun h => ho (noOverlap_asLinux c hok h), fun i p => ?_⟩
  rw [hd i p]
  exact due_asLinux c hok _ i p

/-- A report that a link went up is answered at once, while the limit is not reached, with exactly the messages due on that interface, and
counted. -/
theorem C89_immediate (c : Conf) (hsend : c.opts.testBit 1 = true) (d0 : Daemon) (h0 : Started d0) (es : List BsdEvent)
    (hes : ∀ e ∈ es, BsdSaneEvent e) (d : Daemon) (hr : bsdDaemonRun c es d0 = .ok d) (k : BsdKernel) (m : BsdMedia) (addrs : List BIfAddr)
    (hw : BsdWorkable c k addrs d) (r : RtReport) (msg : Bytes) (hl : r.LaidOut msg) (hu : r.LinkUp)
    (hi : r.index ∈ (bsdUsables k addrs).map (·.index)) (hf : flaps d r.index ≤ 3) :
    ∃ d' new, bsdDaemonStep c d (.route k m (some msg)) = .ok d' ∧ d'.tx = d.tx ++ new ∧
      (∀ j p, (j, p) ∈ new.map (fun t => (t.index, t.proto)) ↔ j = r.index ∧
        BsdDue c k (bsdUsables k addrs) (fun i => ((withIndex d.child.netifs i).map (·.protos)).getD 0) j p) ∧
      (BsdNoOverlap c k (bsdUsables k addrs) → new ≠ [] → flaps d' r.index = flaps d r.index + 1) := by
  obtain ⟨h1, hg, h2⟩ := bsd_round h0 hes hr (ev := .route k m (some msg)) hw.sane
  have hok := bsd_ok hw
  have he : asEvent (.route k m (some msg)) = .link (asKernel k) { bsd := some m } true true r.index := by
    unfold asEvent
    dsimp only
    rw [routeLink_laidOut hl, if_pos hu]
  rw [he] at h2
  obtain ⟨d', new, hs, hn, hd, ho⟩ := C24_immediate c hsend d0 h0 _ (bsd_map_sane hes) d h1 (asKernel k) { bsd := some m } _ (bsd_workable hw) r.index
    (by rw [asKernel_some hw.listed, usables_asLinux]; exact hi) hf
  rw [asKernel_some hw.listed, usables_asLinux] at ho hd
  refine ⟨d', new, by rw [h2]; exact hs, hn, fun j p => ?_, fun h => ho (noOverlap_asLinux c hok h)⟩
  rw [hd j p, due_asLinux c hok]

/-- Everything else read from the routing socket, and a link that is reported down, changes nothing. -/
theorem C89_ignored (c : Conf) (d : Daemon) (k : BsdKernel) (m : BsdMedia) (got : Option Bytes)
    (h : (∀ msg ∈ got, msg.length < 152 ∨ msg[2]? ≠ some 5 ∨ msg[3]? ≠ some 14) ∨ ∃ r msg, RtReport.LaidOut r msg ∧ ¬ r.LinkUp ∧ got = some msg) :
    bsdDaemonStep c d (.route k m got) = .ok d := by
  have : routeLink got = none := by
    rcases h with h | ⟨r, msg, hl, hu, rfl⟩
    · exact C67_other got h
    · rw [C67_report r msg hl, if_neg hu]
  unfold bsdDaemonStep
  dsimp only
  rw [this]

/-- As long as there is no periodic round, whatever else happens and however often the link of an interface goes up, at most four
events cause messages on that interface, fewer if some did before.  What is missing: the interface must stay in the kernel's
list; see `C89_vanished`. -/
theorem C89_limit_partial (c : Conf) (d0 : Daemon) (h0 : Started d0) (es : List BsdEvent) (hes : ∀ e ∈ es, BsdSaneEvent e) (d : Daemon)
    (hr : bsdDaemonRun c es d0 = .ok d) (i : Nat) (fs : List BsdEvent) (hfs : ∀ e ∈ fs, BsdSteady i e) :
    bsdBursts c i fs d ≤ 4 - flaps d i := by
  rw [bsdRun_eq c es (good_started h0) hes] at hr
  have hg := good_run h0 (bsd_map_sane hes) hr
  rw [bsdBursts_eq c i fs hg (fun e he => bsdSteady_sane (hfs e he))]
  refine C24_limit_partial c d0 h0 _ (bsd_map_sane hes) d hr i _ ?_
  intro e he
  obtain ⟨x, hx, rfl⟩ := List.mem_map.mp he
  exact steady_asEvent (hfs x hx)

/-- A periodic round renews the limit for every interface on which it sends. -/
theorem C89_renewed (c : Conf) (hsend : c.opts.testBit 1 = true) (d0 : Daemon) (h0 : Started d0) (es : List BsdEvent)
    (hes : ∀ e ∈ es, BsdSaneEvent e) (d : Daemon) (hr : bsdDaemonRun c es d0 = .ok d) (k : BsdKernel) (m : BsdMedia) (now : Int)
    (addrs : List BIfAddr) (hw : BsdWorkable c k addrs d) (d' : Daemon) (hs : bsdDaemonStep c d (.timer k m now) = .ok d') (i : Nat) (p : Proto)
    (hdue : BsdDue c k (bsdUsables k addrs) (fun i => ((withIndex d.child.netifs i).map (·.protos)).getD 0) i p) : flaps d' i = 0 := by
  obtain ⟨h1, hg, h2⟩ := bsd_round h0 hes hr (ev := .timer k m now) hw.sane
  rw [h2] at hs
  refine C24_renewed c hsend d0 h0 _ (bsd_map_sane hes) d h1 (asKernel k) { bsd := some m } now _ (bsd_workable hw) d' hs i p ?_
  rw [asKernel_some hw.listed, usables_asLinux, due_asLinux c (bsd_ok hw)]
  exact hdue

/-- Every message of a round is the frame built from the interface list as just refreshed, for an interface itself or a port of
an aggregate, with up to date link properties.  The source address is zeroed exactly on standby ports. -/
theorem C89_frames (c : Conf) (d0 : Daemon) (h0 : Started d0) (es : List BsdEvent) (hes : ∀ e ∈ es, BsdSaneEvent e) (d : Daemon)
    (hr : bsdDaemonRun c es d0 = .ok d) (k : BsdKernel) (hk : BsdSane k) (addrs : List BIfAddr) (ha : k.ifaddrs = some addrs) (m : BsdMedia)
    (ev : BsdEvent) (hev : BsdRound k m ev) (d' : Daemon) (hs : bsdDaemonStep c d ev = .ok d') :
    ∃ new r, d'.tx = d.tx ++ new ∧ bsdFetch c.opts c.names c.mgmt k ⟨d.child.netifs, d.sys, d.mnetif, d.closed⟩ = .ok r ∧
      ∀ t ∈ new, ∃ n ∈ r.1.netifs, ∃ s ∈ r.1.netifs, s.index = t.index ∧
        (n = s ∧ n.type ≤ 10 ∨ s.index ∈ bsdPorts k r.1.netifs n) ∧
        ∃ env seq msg, EnvOk env ∧ BsdDescribing c m r.1 s env ∧
          t.proto.build (List.replicate 1518 0) env seq = .ok (msg, t.len) ∧ t.len ≠ 0 ∧
          (BsdStandby k r.1.netifs n t.index → t.msg = msg.take 6 ++ [0, 0, 0, 0, 0, 0] ++ msg.drop 12) ∧
          (¬ BsdStandby k r.1.netifs n t.index → t.msg = msg) := by
  obtain ⟨h1, hg, h2⟩ := bsd_round h0 hes hr (round_sane hev hk)
  rw [h2] at hs
  obtain ⟨hok, -⟩ := hk addrs (by rw [ha]; exact List.mem_singleton.mpr rfl)
  obtain ⟨new, hn, hf⟩ := C52_frames c d0 h0 _ (bsd_map_sane hes) d h1 (asKernel k) (sane_asKernel hk) _ _ (round_asEvent hev) d' hs
  refine ⟨new, _, hn, (bsdDaemonFetch_eq c hk hg.nodup).1, ?_⟩
  rw [asKernel_some ha] at hf ⊢
  have hl := listOk_asLinux hok
  have hm := fetch_mirror c.opts c.names c.mgmt (asLinux k addrs) ⟨d.child.netifs, d.sys, d.mnetif, d.closed⟩ _ rfl hl hg.nodup
  rw [usables_asLinux] at hm
  have hnd := fetch_nodup c.opts c.names c.mgmt (asLinux k addrs) ⟨d.child.netifs, d.sys, d.mnetif, d.closed⟩ _ rfl hl hg.nodup
  intro t ht
  obtain ⟨n, hnm, s, hsm, hi, hp, env, seq, msg, he, hd, hb, hz, h3, h4⟩ := hf t ht
  rw [portsOf_asLinux hok hm hnd hnm] at hp
  rw [standby_asLinux] at h3 h4
  exact ⟨n, hnm, s, hsm, hi, hp, env, seq, msg, he, ⟨hd.opts, hd.sys, hd.nif.freebsd m rfl, hd.netifs, hd.parent, hd.mnetif⟩, hb, hz, h3, h4⟩

/-! ## Samples -/

theorem bsdSample_sane : BsdSane bsdSample := by
  intro addrs ha
  obtain rfl := List.mem_singleton.mp (show addrs ∈ [bsdAddrs] from ha)
  exact ⟨bsdSample_ok, by decide +kernel⟩

theorem bsdEnv_sysname : ∀ u ∈ bsdEnv.uname, u.sysname = lit "FreeBSD" := by
  intro u hu
  obtain rfl := Option.some.inj hu
  rfl

/-- Started with LLDP and CDP. -/
def bsdOpts : List Opt := [⟨'a', []⟩, ⟨'L', []⟩, ⟨'C', []⟩]

example : (match bsdStartUp { user := fun _ => some (1, 1) } bsdEnv bsdOpts [] with
    | .ok (c, p, d) => (p, c.opts.testBit 1, c.names, d.sys.hostname, d.sys.platform) | _ => (none, false, [], [], [])) =
    (some (1, 1), true, [], lit "box.example.org", lit "FreeBSD 9.2-RELEASE-p3 amd64") := by decide +kernel

/-- The report that the link of interface `i` is up (2) or down (1). -/
def rtReport (i s : UInt8) : Bytes := [168, 0, 5, 14, 0, 0, 0, 0, 0x43, 0x88, 0, 0, i, 0, 0, 0, 6, 6, 18, 168, s] ++ List.replicate 147 0

theorem rtReport_length (i s : UInt8) : (rtReport i s).length = 168 := by
  unfold rtReport
  rw [List.length_append, List.length_replicate]
  rfl

theorem rtReport_laid (i s : UInt8) : RtReport.LaidOut ⟨6, 0x8843, i.toNat, s.toNat⟩ (rtReport i s) :=
  ⟨168, 0, 0, 0, 0, 0, 0x43, 0x88, 0, 0, i, 0, 0, 0, 6, 6, 18, 168, s, List.replicate 147 0, rfl, by rw [rtReport_length]; omega,
    by rw [rtReport_length]; omega, rfl, rfl, rfl, rfl⟩

def bsdNoMedia : BsdMedia := { media := fun _ => none }

/-- A round sends on the ports of the lagg and of the bridge, the report of a link only on that interface. -/
example : (match bsdDaemonRun cTwo [.timer bsdSample bsdNoMedia 0, .route bsdSample bsdNoMedia (some (rtReport 2 2)),
      .route bsdSample bsdNoMedia (some (rtReport 2 1))] dSys with
    | .ok d => (d.tx.map key, flaps d 2) | _ => ([], 9)) =
    ([(2, .lldp), (2, .cdp), (1, .lldp), (1, .cdp), (3, .lldp), (3, .cdp), (2, .lldp), (2, .cdp)], 1) := by decide +kernel

/-- A history that meets the hypotheses: a round, a report of a link, a frame, a round while the kernel does not answer, and a client. -/
def bsdHistory : List BsdEvent :=
  [.timer bsdSample bsdNoMedia 0, .route bsdSample bsdNoMedia (some (rtReport 2 2)), .recv (some 5) (rawOf ⟨3, .ndp, ndpFrame 77⟩),
   .timer { bsdSample with ifaddrs := none } bsdNoMedia 30, .accept]

example : (∀ e ∈ bsdHistory, BsdSaneEvent e) ∧ (∀ e ∈ bsdHistory, BsdCaptured e) ∧
    (match bsdDaemonRun cRecv bsdHistory dSys with
      | .ok d => (d.tx.map key, d.child.queue.length, d.child.sessions.length) | _ => ([], 9, 9)) =
      ([(2, .lldp), (1, .lldp), (3, .lldp), (2, .lldp)], 1, 1) := by
  refine ⟨?_, ?_, by decide +kernel⟩
  · intro e he
    simp only [bsdHistory, List.mem_cons, List.not_mem_nil, or_false] at he
    rcases he with rfl | rfl | rfl | rfl | rfl
    · exact bsdSample_sane
    · exact bsdSample_sane
    · trivial
    · intro addrs h; cases h
    · trivial
  · intro e he
    simp only [bsdHistory, List.mem_cons, List.not_mem_nil, or_false] at he
    rcases he with rfl | rfl | rfl | rfl | rfl
    · trivial
    · trivial
    · exact (ndp_captured 5 77 (Or.inl rfl) : Captured (ndpEvent 5 77))
    · trivial
    · trivial

example : BsdWorkable cTwo bsdSample bsdAddrs dSys ∧ flaps dSys 2 = 0 ∧ (2 : Nat) ∈ (bsdUsables bsdSample bsdAddrs).map (·.index) ∧
    (⟨6, 0x8843, 2, 2⟩ : RtReport).LinkUp ∧ BsdSteady 2 (.route bsdSample bsdNoMedia (some (rtReport 2 2))) ∧
    BsdNoOverlap cTwo bsdSample (bsdUsables bsdSample bsdAddrs) ∧
    BsdDue cTwo bsdSample (bsdUsables bsdSample bsdAddrs) (fun _ => 0) 1 .cdp ∧
    ¬ BsdDue cTwo bsdSample (bsdUsables bsdSample bsdAddrs) (fun _ => 0) 8 .cdp := by
  refine ⟨⟨bsdSample_sane, rfl, by decide +kernel, by decide +kernel, by decide, by decide +kernel, by decide +kernel, by decide⟩, by decide +kernel,
    by decide +kernel, by decide +kernel, ⟨bsdSample_sane, ?_⟩, by decide +kernel, by decide +kernel, by decide +kernel⟩
  intro addrs ha
  obtain rfl := List.mem_singleton.mp (show addrs ∈ [bsdAddrs] from ha)
  decide +kernel

/-- The event of the samples. -/
def bsdUp (k : BsdKernel) (i : UInt8) : BsdEvent := .route k bsdNoMedia (some (rtReport i 2))

example : (match bsdDaemonRun cRecv [.timer bsdSample bsdNoMedia 0] dSys with
    | .ok d => bsdBursts cRecv 2 (List.replicate 6 (bsdUp bsdSample 2)) d | _ => 9) = 4 := by decide +kernel

/-- The kernel of the sample system while em1 is down. -/
def bsdDown : BsdKernel := { bsdSample with up := fun n => n ≠ lit "igb3" ∧ n ≠ lit "em1" }

theorem bsdDown_sane : BsdSane bsdDown := by
  intro addrs ha
  obtain rfl := List.mem_singleton.mp (show addrs ∈ [bsdAddrs] from ha)
  refine ⟨?_, by decide +kernel⟩
  exact ⟨by decide +kernel, by decide +kernel, by decide +kernel, by decide +kernel, by decide +kernel, bsdSample_ok.device, by decide +kernel,
    by decide +kernel, fun _ => rfl, by decide +kernel⟩

/-- The missing case of the limit: if a refresh, here for another interface, happens while the interface is down, its counter is lost. -/
theorem C89_vanished : BsdSane bsdDown ∧ (match bsdDaemonRun cRecv [.timer bsdSample bsdNoMedia 0] dSys with
    | .ok d => bsdBursts cRecv 2 (List.replicate 4 (bsdUp bsdSample 2) ++ [bsdUp bsdDown 3, bsdUp bsdSample 2]) d | _ => 9) = 5 :=
  ⟨bsdDown_sane, by decide +kernel⟩

/-- The missing case of the round: with a lagg and one of its ports on the command line two advertisements of the same protocol are sent on
that port in one round. -/
theorem C89_overlap : BsdSane bsdSample ∧
    (match bsdDaemonRun (cNamed [lit "lagg0", lit "em0"]) [.timer bsdSample bsdNoMedia 0] dSys with | .ok d => d.tx.map key | _ => []) =
      [(1, .lldp), (2, .lldp), (1, .lldp)] := ⟨bsdSample_sane, by decide +kernel⟩

/-- Start with LLDP and EDP, one round, and a neighbour with one interface that hears everything sent: protocol, host name and port name of
the entries in its table. -/
def bsdHeard : List (Nat × Bytes × Bytes) :=
  match bsdStartUp { user := fun _ => some (1, 1) } bsdEnv [⟨'a', []⟩, ⟨'L', []⟩, ⟨'E', []⟩] [] with
  | .ok (c, _, d0) =>
    match bsdDaemonRun c [.timer bsdSample bsdNoMedia 0] d0 with
    | .ok d =>
      let st := d.tx.foldl (fun (st : Child) t =>
        if bpfFilter protoFilter (t.msg.take t.len) = .ok 0 then st else
        match parentRecv 9 [t.msg.take t.len] with
        | .ok [fwd] => (match childQueue 0 (some 7) (rawOf fwd) st with | .ok st' => st' | _ => st)
        | _ => st) { netifs := [{ index := 9, name := lit "em0", type := 0, hwaddr := [2, 9, 9, 9, 9, 9] }] }
      st.queue.map (fun e => (e.proto, e.peer.hostname.getD [], e.peer.portname.getD []))
    | _ => []
  | _ => []

example : bsdHeard = [(0, lit "box.example.org", lit "em1"), (0, lit "box.example.org", lit "em0"), (0, lit "box.example.org", lit "em2")] := by
  decide +kernel

/-- A client stops reading at an entry, the entry is received again, which resets its lock count, and expires; then the client
continues: freed memory is accessed. -/
theorem C88_use_after_free :
    let hear := fun now : Int => BsdEvent.recv (some now) (rawOf ⟨3, .ndp, ndpFrame 77⟩)
    let es := [.timer bsdSample bsdNoMedia 0, hear 5, .accept, .write 1 (some [.again]), hear 10, .timer bsdSample bsdNoMedia 1000, .write 1 (some [.ok])]
    Started dSys ∧ (∀ e ∈ es, BsdSaneEvent e) ∧ (∀ e ∈ es, BsdCaptured e) ∧ bsdDaemonRun cRecv es dSys = .oob := by
  refine ⟨by decide +kernel, ?_, ?_, by decide +kernel⟩
  · intro e he
    simp only [List.mem_cons, List.not_mem_nil, or_false] at he
    rcases he with rfl | rfl | rfl | rfl | rfl | rfl | rfl <;> first | trivial | exact bsdSample_sane
  · have h : ∀ now : Int, BsdCaptured (.recv (some now) (rawOf ⟨3, .ndp, ndpFrame 77⟩)) := fun now =>
      (ndp_captured now 77 (Or.inl rfl) : Captured (ndpEvent now 77))
    intro e he
    simp only [List.mem_cons, List.not_mem_nil, or_false] at he
    rcases he with rfl | rfl | rfl | rfl | rfl | rfl | rfl <;> first | trivial | exact h _

/-- A failover lagg: the source address is zero on em0, which is not active. -/
def bsdFailover : BsdKernel := { bsdSample with
  lagg := fun n => if n = lit "lagg0" then some ⟨2, [(lit "em1", 4), (lit "nfe0", 4), (lit "em0", 0)]⟩ else none }

example : (match bsdDaemonRun cRecv [.timer bsdFailover bsdNoMedia 0] dSys with
    | .ok d => d.tx.map (fun t => (t.index, (t.msg.drop 6).take 6)) | _ => []) =
    [(2, bsdHw 2), (1, [0, 0, 0, 0, 0, 0]), (3, bsdHw 3)] := by decide +kernel

end Ladvd.Props
