import Verif.Spec.BsdTyped
import Verif.Props.Watch
/-!
# C101: from the words typed on two systems, with Linux or FreeBSD, to the terminal
-/

namespace Ladvd.Props

open Ladvd Spec

theorem bsdStartUp_split {h : Host} {e : BsdSysEnv} {os : List Opt} {args : List Bytes} {c : Conf} {pwd : Option (Nat × Nat)} {d : Daemon}
    (hs : bsdStartUp h e os args = .ok (c, pwd, d)) : ∃ s, mainStart h os args = .ok (s, pwd) ∧ c = s.conf args := by
  unfold bsdStartUp at hs
  cases hm : mainStart h os args with
  | ok r =>
    rw [hm] at hs
    obtain ⟨s, p⟩ := r
    dsimp only [Res.bind_eq, Res.bind_ok] at hs
    cases hb : bsdSysinfo e s.sys with
    | ok sys =>
      rw [hb] at hs
      simp only [Res.bind_ok, Res.pure_eq, Res.ok.injEq, Prod.mk.injEq] at hs
      obtain ⟨rfl, rfl, -⟩ := hs
      exact ⟨s, rfl, rfl⟩
    | fail => rw [hb] at hs; cases hs
    | oob => rw [hb] at hs; cases hs
    | abort => rw [hb] at hs; cases hs
    | stuck => rw [hb] at hs; cases hs
  | fail => rw [hm] at hs; cases hs
  | oob => rw [hm] at hs; cases hs
  | abort => rw [hm] at hs; cases hs
  | stuck => rw [hm] at hs; cases hs

/-- The settings of a daemon in terms of its options and operands. -/
theorem typed_conf {h : Host} {os : List Opt} {args : List Bytes} {s : MainSt} {pwd : Option (Nat × Nat)} (hm : mainStart h os args = .ok (s, pwd)) :
    (s.conf args).names = args ∧ ((s.conf args).opts.testBit 1 = true ↔ ¬ given os ['s']) ∧ (∀ e, linkAllowed (s.conf args) e ↔ AskedFor os e) ∧
      ∀ p, (s.conf args).enabled p = true ↔ ∃ ch, protoLetter p = some ch ∧ given os [ch] := by
  have ho := C35_options h os args s pwd hm
  obtain ⟨v1, v2, -⟩ := C35_values h os args s pwd hm
  refine ⟨v1, ho.2.1, ?_, ho.2.2.2.2.2.2.2.2.2.2.2.2.2.2.1⟩
  intro e
  have hopt : (s.conf args).opts = s.opts := rfl
  unfold linkAllowed AskedFor
  rw [hopt, v2, ho.2.2.2.2.2.2.2.2.2.1, ho.2.2.2.2.2.2.2.2.2.2.1]
  simp only [List.mem_map, not_exists, not_and, ne_eq, eq_comm]

/-- What is typed on FreeBSD is what starts: the settings that C35 and the state that C88 describe, for the options and operands that the words mean. -/
theorem C101_typed (l : Libc) (prog : Bytes) (h : Host) (e : BsdSysEnv) (ws : List Bytes) (ht : ∀ w ∈ ws, ∀ b ∈ w, b ≠ (0 : UInt8)) (c : Conf)
    (pwd : Option (Nat × Nat)) (d0 : Daemon) :
    bsdTypedStart l prog h e ws = .ok (c, pwd, d0) ↔
      ∃ os args, Written daemonLetters l.permute ws os args ∧ OptsOk os ∧ bsdStartUp h e os args = .ok (c, pwd, d0) := by
  constructor
  · intro hs
    unfold bsdTypedStart at hs
    cases hd : (daemonMain l prog h ws).how with
    | ok m =>
      rw [hd] at hs
      cases m with
      | exits n => cases hs
      | starts s p =>
        obtain ⟨os, args, hw, hm⟩ := (C97_starts l prog h ws s p).mp hd
        refine ⟨os, args, hw, written_text hw ht, ?_⟩
        unfold bsdStartUp
        rw [hm]
        rw [(((C97_written l ws os args).1).mpr hw).1] at hs
        exact hs
    | _ => rw [hd] at hs; cases hs
  · rintro ⟨os, args, hw, _, hs⟩
    unfold bsdStartUp at hs
    cases hm : mainStart h os args with
    | ok sp =>
      obtain ⟨s, p⟩ := sp
      rw [hm] at hs
      have hd := (C97_starts l prog h ws s p).mpr ⟨os, args, hw, hm⟩
      unfold bsdTypedStart
      rw [hd, (((C97_written l ws os args).1).mpr hw).1]
      exact hs
    | _ => rw [hm] at hs; cases hs

theorem bsdDue_typed {c : Conf} {os : List Opt} {args : List Bytes} (hn : c.names = args) (hal : ∀ e, linkAllowed c e ↔ AskedFor os e)
    (hen : ∀ p, c.enabled p = true ↔ ∃ ch, protoLetter p = some ch ∧ given os [ch]) (k : BsdKernel) (us : List Link) (known : Nat → Nat) (i : Nat) (p : Proto) :
    BsdDue c k us known i p ↔ BsdTypedDue os args k us known i p := by
  unfold BsdDue BsdTypedDue BsdChosen
  simp only [hal, hen, hn]
  constructor
  · rintro ⟨e, he, g1, g2, s, hs, g3, g4, g5, g6⟩
    exact ⟨e, he, g2, g1, s, hs, g3, g4, by rw [← g3]; exact g5, g6⟩
  · rintro ⟨e, he, g2, g1, s, hs, g3, g4, g5, g6⟩
    exact ⟨e, he, g1, g2, s, hs, g3, g4, by rw [← g3] at g5; exact g5, g6⟩

theorem due_typed {c : Conf} {os : List Opt} {args : List Bytes} (hn : c.names = args) (hal : ∀ e, linkAllowed c e ↔ AskedFor os e)
    (hen : ∀ p, c.enabled p = true ↔ ∃ ch, protoLetter p = some ch ∧ given os [ch]) (k : Kernel) (us : List Link) (known : Nat → Nat) (i : Nat) (p : Proto) :
    Due c k us known i p ↔ TypedDue os args k us known i p := by
  unfold Due TypedDue Chosen SendsOn
  simp only [hal, hen, hn]
  constructor
  · rintro ⟨e, he, g1, g2, s, hs, g3, g4, g5, g6⟩
    exact ⟨e, he, g2, g1, s, hs, g3, g4, by rw [← g3]; exact g5, g6⟩
  · rintro ⟨e, he, g2, g1, s, hs, g3, g4, g5, g6⟩
    exact ⟨e, he, g1, g2, s, hs, g3, g4, by rw [← g3] at g5; exact g5, g6⟩

/-- A daemon started on FreeBSD with a command line without `-s`: whatever happened since, a periodic round sends exactly what the words ask for, once each if no
aggregate is named together with one of its ports.  Missing: otherwise there are two (`C89_overlap`). -/
theorem C101_round_partial (l : Libc) (prog : Bytes) (h : Host) (e : BsdSysEnv) (he : BsdSysOk e) (hname : ∀ u ∈ e.uname, u.sysname = lit "FreeBSD")
    (ws : List Bytes) (ht : ∀ w ∈ ws, ∀ b ∈ w, b ≠ (0 : UInt8)) (c : Conf) (pwd : Option (Nat × Nat)) (d0 : Daemon)
    (hs : bsdTypedStart l prog h e ws = .ok (c, pwd, d0)) (os : List Opt) (args : List Bytes) (hw : Written daemonLetters l.permute ws os args)
    (hsil : ¬ given os ['s']) (hlen : args.length < 65536) (es : List BsdEvent) (hes : ∀ e ∈ es, BsdSaneEvent e) (d : Daemon)
    (hr : bsdDaemonRun c es d0 = .ok d) (k : BsdKernel) (hk : BsdSane k) (m : BsdMedia) (now : Int) (addrs : List BIfAddr) (ha : k.ifaddrs = some addrs)
    (hus : if args = [] then bsdUsables k addrs ≠ [] else ∀ name ∈ args, ∃ e ∈ bsdUsables k addrs, e.name = name ∧ e.kind ≠ -1)
    (hul : (bsdUsables k addrs).length < 65536) (hv : ((bsdUsables k addrs).filter (fun e => e.kind = -1)).length ≤ 10) :
    ∃ d' new, bsdDaemonStep c d (.timer k m now) = .ok d' ∧ d'.tx = d.tx ++ new ∧
      (BsdNoOverlap c k (bsdUsables k addrs) → (new.map (fun t => (t.index, t.proto))).Nodup) ∧
      ∀ i p, (i, p) ∈ new.map (fun t => (t.index, t.proto)) ↔
        BsdTypedDue os args k (bsdUsables k addrs) (fun i => ((withIndex d.child.netifs i).map (·.protos)).getD 0) i p := by
  obtain ⟨os', args', hw', hok, hst⟩ := (C101_typed l prog h e ws ht c pwd d0).mp hs
  obtain ⟨rfl, rfl⟩ := C98_unique hw hw'
  obtain ⟨h1, -, -, h4, h5⟩ := C88_started h e he hname os hok args c pwd d0 hst
  obtain ⟨s, hm, rfl⟩ := bsdStartUp_split hst
  obtain ⟨v1, v2, v3, v4⟩ := typed_conf hm
  obtain ⟨hrun, -, -⟩ := bsd_round h1 hes hr (ev := .timer k m now) hk
  obtain ⟨q1, q2, q3, q4, hsys⟩ := C49_kept _ _ d0 d hrun
  obtain ⟨d', new, r1, r2, r3, r4⟩ := C89_round_partial _ (v2.mpr hsil) d0 h1 es hes d hr k m now addrs
    ⟨hk, ha, by rw [v1]; exact hus, hul, by rw [v1]; exact hlen, hv, by rw [hsys]; exact h4, h5⟩
  exact ⟨d', new, r1, r2, r3, fun i p => (r4 i p).trans (bsdDue_typed v1 v3 v4 ..)⟩

/-- With `-s` among the words, nothing is ever sent; without `-a`, only with protocols whose letters are among them. -/
theorem C101_only (l : Libc) (prog : Bytes) (h : Host) (e : BsdSysEnv) (he : BsdSysOk e) (hname : ∀ u ∈ e.uname, u.sysname = lit "FreeBSD")
    (ws : List Bytes) (ht : ∀ w ∈ ws, ∀ b ∈ w, b ≠ (0 : UInt8)) (c : Conf) (pwd : Option (Nat × Nat)) (d0 : Daemon)
    (hs : bsdTypedStart l prog h e ws = .ok (c, pwd, d0)) (os : List Opt) (args : List Bytes) (hw : Written daemonLetters l.permute ws os args)
    (es : List BsdEvent) (hes : ∀ e ∈ es, BsdSaneEvent e) (d : Daemon) (hr : bsdDaemonRun c es d0 = .ok d) :
    (given os ['s'] → d.tx = []) ∧ (¬ given os ['a'] → ∀ t ∈ d.tx, ∃ ch, protoLetter t.proto = some ch ∧ given os [ch]) := by
  obtain ⟨os', args', hw', hok, hst⟩ := (C101_typed l prog h e ws ht c pwd d0).mp hs
  obtain ⟨rfl, rfl⟩ := C98_unique hw hw'
  obtain ⟨h1, -, h3, -, -⟩ := C88_started h e he hname os hok args c pwd d0 hst
  obtain ⟨s, hm, rfl⟩ := bsdStartUp_split hst
  rw [bsdRun_eq _ es (good_started h1) hes] at hr
  exact ⟨fun hg => (C35_silent h os args s pwd hm hg d0 h1 _ d hr).trans h3, fun hg => C35_asked h os args s pwd hm hg d0 h1 h3 _ d hr⟩

/-- A system started from words did start, and its settings are those asked for. -/
theorem typed_runs {l : Libc} {prog : Bytes} {ws : List Bytes} {os : List Opt} {args : List Bytes} {u : Uptime} (h : TypedUptime l prog ws os args u) :
    u.Runs ∧ u.conf.names = args ∧ (u.conf.opts.testBit 1 = true ↔ ¬ given os ['s']) ∧ ∀ i p, TypedAlways os args i p u → u.Advertises i p := by
  obtain ⟨ht, hw, h⟩ := h
  cases u with
  | linux s t0 k m hist =>
    obtain ⟨rfl, rfl, he, hs, hk, hh⟩ := h
    obtain ⟨os', args', hw', hok, hst⟩ := (C98_typed l prog s.host s.env ws ht s.conf s.pwd s.start).mp hs
    obtain ⟨h1, h2⟩ := C98_unique hw hw'
    subst h1 h2
    obtain ⟨ms, hm, hc, -, -⟩ := startUp_split hst
    obtain ⟨v1, v2, v3, v4⟩ := typed_conf hm
    rw [← hc] at v1 v2 v3 v4
    refine ⟨⟨⟨he, hok, hst⟩, hk, hh⟩, v1, v2, fun i p ha x hx k m now hxe => ?_⟩
    obtain ⟨addrs, a1, a2, a3, a4, a5, a6⟩ := ha x hx k m now hxe
    exact ⟨addrs, ⟨a1, a2, by rw [v1]; exact a3, a4, a5⟩, (due_typed v1 v3 v4 ..).mpr a6⟩
  | bsd s t0 k m hist =>
    obtain ⟨rfl, rfl, he, hname, hs, hk, hh⟩ := h
    obtain ⟨os', args', hw', hok, hst⟩ := (C101_typed l prog s.host s.env ws ht s.conf s.pwd s.start).mp hs
    obtain ⟨h1, h2⟩ := C98_unique hw hw'
    subst h1 h2
    obtain ⟨ms, hm, hc⟩ := bsdStartUp_split hst
    obtain ⟨v1, v2, v3, v4⟩ := typed_conf hm
    rw [← hc] at v1 v2 v3 v4
    refine ⟨⟨⟨he, hname, hok, hst⟩, hk, hh⟩, v1, v2, fun i p ha x hx k m now hxe => ?_⟩
    obtain ⟨addrs, a1, a2, a3, a4, a5, a6⟩ := ha x hx k m now hxe
    exact ⟨addrs, ⟨a1, a2, by rw [v1]; exact a3, a4, a5⟩, (bsdDue_typed v1 v3 v4 ..).mpr a6⟩

/-- `C99_watched_partial` from words on all sides: the daemons of both systems are started with command lines, the first one without `-s`, and in every round what was
typed there asks for a frame with the protocol on the interface; then a user on the second system who types `ladvdc`, with words that ask for it, sees it. -/
theorem C101_watched_partial (a b : Uptime) (l1 l2 : Libc) (prog1 prog2 : Bytes) (ws1 ws2 : List Bytes) (os1 os2 : List Opt) (args1 args2 : List Bytes)
    (ha : TypedUptime l1 prog1 ws1 os1 args1 a) (hb : TypedUptime l2 prog2 ws2 os2 args2 b) (hsil : ¬ given os1 ['s']) (hlen : args1.length < 65536)
    (late late2 now : Int) (hpa : a.Punctual late) (hpb : b.Punctual late2) (sa sb : Timed) (hfa : a.final = .ok sa) (hfb : b.final = .ok sb)
    (hnow : Current late now sa) (hnow2 : ∀ t ∈ b.times, t ≤ now) (i : Nat) (p : Proto) (hedp : p ≠ .edp) (hw : TypedAlways os1 args1 i p a)
    -- the link between them
    (j : Nat) (src : Bytes) (hcap : ∀ x ∈ b.heard, Captured (.recv x.2.1 x.2.2.1))
    (hif : ∀ x ∈ b.heard, Crossing j (p.dst, src) x → (∃ n ∈ x.2.2.2, n.index = j) ∧ ∀ n ∈ x.2.2.2, n.hwaddr ≠ src)
    (horigin : ∀ x ∈ b.heard, Crossing j (p.dst, src) x → ∃ u y fwd, (u, y) ∈ a.sent ∧ y.proto = p ∧ u ≤ x.1 ∧
      parentRecv j [y.msg.take y.len] = .ok [fwd] ∧ x.2.1 = some x.1 ∧ x.2.2.1 = rawOf fwd)
    (window delay : Int) (hwin : 30 + late ≤ window) (hdel : 0 ≤ delay) (hsum : window + delay < 180)
    (hloss : ∀ t, (∃ u y, (u, y) ∈ a.sent ∧ y.index = i ∧ y.proto = p ∧ t < u ∧ u ≤ t + window) →
      t + window + delay < now → ∃ x ∈ b.heard, Crossing j (p.dst, src) x ∧ t < x.1 ∧ x.1 ≤ t + window + delay)
    (hfirst : ∃ x ∈ b.heard, Crossing j (p.dst, src) x) (q : Nat) (hq : sb.daemon.child.queue.length ≤ q) :
    ∃ ch, cliWrite sb.daemon.child.nextId (some (List.replicate q .ok)) (cliAccept sb.daemon.child) = .ok ch ∧
      -- the client
      ∀ (l : Libc) (w : CliWorld) (ix : Bytes → Option Nat) (words : List Bytes) (opts : List Opt) (args : List Bytes),
        Written clientLetters l.permute words opts args → ¬ given opts ['b', 'd', 'f', 'p', 'o', 'h'] →
        ClientAsks opts ix args j p → (∀ a ∈ args, (ix a).isSome) →
        w.first = 0 → w.connect = 0 → w.time = .ok now → w.input.map (·.2) = (delivered ch sb.daemon.child.nextId).map CliIn.ofEntry →
        -- the entry asked for that is read directly before that of the first system, if there is one, has not expired
        (∀ pre x post, sb.daemon.child.queue = pre ++ x :: post → neighbour x = (j, p.num, p.dst, src) →
          ∀ y, DirectlyBefore (EntryAsked opts ix args) y pre → now - y.received ≤ y.ttl) →
      (clientMain l w ix words).how = .ok 0 ∧ (clientMain l w ix words).err = [] ∧
      ∃ pre post s, (clientMain l w ix words).out = cliHeader (cliWidths w.cols) ++ pre ++ tableLine (cliWidths w.cols) s ++ post ∧
        s.index = j ∧ s.proto = p.num ∧ s.ttl = 180 ∧ 180 - (window + delay) ≤ (s.hold : Int) ∧ s.hold ≤ 180 ∧
        (∃ u y, (u, y) ∈ a.sent ∧ y.proto = p ∧ u ≤ now ∧ s.frame = y.msg.take y.len) ∧
        (p ≠ .ndp → Recovers s.peer.hostname a.hostname) := by
  obtain ⟨hra, hna, hsa, hda⟩ := typed_runs ha
  obtain ⟨hrb, -, -, -⟩ := typed_runs hb
  exact C99_watched_partial a b hra hrb (hsa.mpr hsil) (by rw [hna]; exact hlen) late late2 now hpa hpb sa sb hfa hfb hnow hnow2 i p hedp (hda i p hw) j src hcap hif horigin
    window delay hwin hdel hsum hloss hfirst q hq

/-! ## Sample -/

/-- The systems of `boxLink` were started by `ladvd -aL` and `ladvd -a -F`; in every round the first one is asked for LLDP on interface 3. -/
theorem boxTyped : TypedUptime glibcSample (lit "ladvd") [lit "-aL"] [⟨'a', []⟩, ⟨'L', []⟩] [] boxUp := by
  have hw : Written daemonLetters true [lit "-aL"] [⟨'a', []⟩, ⟨'L', []⟩] [] := ((C97_written glibcSample _ _ _).1).mp (by decide +kernel)
  exact ⟨by decide +kernel, hw, rfl, rfl, boxSt_runs.env, boxSt_runs.name,
    (C101_typed _ _ _ _ _ (by decide +kernel) _ _ _).mpr ⟨_, _, hw, boxSt_runs.opts, boxSt_runs.start⟩, boxUp_runs.2⟩

theorem thirdTyped : TypedUptime glibcSample (lit "ladvd") [lit "-a", lit "-F"] [⟨'a', []⟩, ⟨'F', []⟩] [] thirdUp := by
  have hw : Written daemonLetters true [lit "-a", lit "-F"] [⟨'a', []⟩, ⟨'F', []⟩] [] := ((C97_written glibcSample _ _ _).1).mp (by decide +kernel)
  exact ⟨by decide +kernel, hw, rfl, rfl, thirdSt_runs.env,
    (C98_typed _ _ _ _ _ (by decide +kernel) _ _ _).mpr ⟨_, _, hw, thirdSt_runs.opts, thirdSt_runs.start⟩, thirdUp_runs.2⟩

theorem boxAlways : TypedAlways [⟨'a', []⟩, ⟨'L', []⟩] [] 3 .lldp boxUp := by
  obtain ⟨s, hm, hc⟩ := bsdStartUp_split boxSt_runs.start
  obtain ⟨v1, -, v3, v4⟩ := typed_conf hm
  rw [← hc] at v1 v3 v4
  intro x hx k m now he
  obtain ⟨addrs, ⟨a1, a2, a3, a4, a5⟩, a6⟩ := boxUp_due x hx k m now he
  exact ⟨addrs, a1, a2, a3, a4, a5, (bsdDue_typed v1 v3 v4 ..).mp a6⟩

/-- `ladvd -aL` on one system, `ladvd -a -F` on the other, the link of `boxLink`, and `ladvdc -L em0` typed on the second system at 1150. -/
example (sb : Timed) (hfb : thirdUp.final = .ok sb) : ∃ ch, cliWrite sb.daemon.child.nextId (some (List.replicate 2 .ok)) (cliAccept sb.daemon.child) = .ok ch ∧
    ∀ input, input.map (·.2) = (delivered ch sb.daemon.child.nextId).map CliIn.ofEntry →
      ∃ pre post s, (clientMain glibcSample { clientSample with first := 0, connect := 0, time := .ok 1150, input := input }
          (fun n => if n = lit "em0" then some 9 else none) [lit "-L", lit "em0"]).out =
          cliHeader (cliWidths clientSample.cols) ++ pre ++ tableLine (cliWidths clientSample.cols) s ++ post ∧
        s.index = 9 ∧ 58 ≤ s.hold ∧ Recovers s.peer.hostname (lit "box.example.org") := by
  obtain ⟨hp, hr, hsent, hsend, hn⟩ := boxUp_facts
  obtain ⟨hp2, hr2, hnow2, hheard, hcross⟩ := thirdUp_facts
  obtain ⟨hc, hq⟩ := third_hears
  rw [hfb] at hq
  obtain ⟨hq, hfresh⟩ := of_decide_eq_true hq
  cases hs : boxUp.final with
  | ok s =>
    rw [hs] at hr
    obtain ⟨ch, hch, hrest⟩ := C101_watched_partial boxUp thirdUp glibcSample glibcSample (lit "ladvd") (lit "ladvd")
      [lit "-aL"] [lit "-a", lit "-F"] [⟨'a', []⟩, ⟨'L', []⟩] [⟨'a', []⟩, ⟨'F', []⟩] [] [] boxTyped thirdTyped (by decide) (by decide) 1 60 1150 hp hp2 s sb hs hfb (of_decide_eq_true hr) hnow2 3 .lldp
      (by decide) boxAlways 9 [2, 0, 0, 0, 1, 3]
      (by
        intro x hx
        obtain ⟨y, -, h1, h2, h3⟩ := hc x hx
        refine ⟨9, [y.frame], [y], y, ?_, h3, List.mem_singleton.mpr rfl, h1⟩
        intro f hf
        rw [List.mem_singleton.mp hf]
        cases hb : bpfFilter protoFilter y.frame with
        | ok n => rw [hb] at h2; exact ⟨n, rfl, of_decide_eq_true h2⟩
        | fail => rw [hb] at h2; cases h2
        | oob => rw [hb] at h2; cases h2
        | abort => rw [hb] at h2; cases h2
        | stuck => rw [hb] at h2; cases h2)
      boxLink.1 boxLink.2.1 120 2 (by decide) (by decide) (by decide) boxLink.2.2.1 boxLink.2.2.2 2 hq
    refine ⟨ch, hch, fun input hin => ?_⟩
    obtain ⟨-, -, pre, post, sh, ho, h1, -, -, h4, -, -, h7⟩ := hrest glibcSample
      { clientSample with first := 0, connect := 0, time := .ok 1150, input := input } (fun n => if n = lit "em0" then some 9 else none) [lit "-L", lit "em0"]
      [⟨'L', []⟩] [lit "em0"] (((C97_written glibcSample _ _ _).2).mp (by decide +kernel)) (by decide) ⟨.inr ⟨'L', rfl, by decide⟩, fun _ => ⟨lit "em0", by decide, by decide +kernel⟩⟩ (by decide +kernel) rfl rfl rfl hin
      (fun _ _ _ hsp _ y ⟨_, _, hb, _⟩ => (hfresh y (by rw [hsp, hb]; simp)).1)
    exact ⟨pre, post, sh, ho, h1, by omega, h7 (by decide)⟩
  | fail => rw [hs] at hr; cases hr
  | oob => rw [hs] at hr; cases hr
  | abort => rw [hs] at hr; cases hr
  | stuck => rw [hs] at hr; cases hr

/-- A round of the first system: `C101_round_partial` from these words. -/
example : ∃ d' new, bsdDaemonStep boxSt.conf boxSt.start (.timer boxKernel bsdNoMedia 1000) = .ok d' ∧ d'.tx = boxSt.start.tx ++ new ∧
    (3, Proto.lldp) ∈ new.map (fun t => (t.index, t.proto)) := by
  obtain ⟨ht, hw, -, -, he, hname, hs, hk, -⟩ := boxTyped
  obtain ⟨addrs, -, a2, a3, a4, a5, a6⟩ := boxAlways (1000, .timer boxKernel bsdNoMedia 1000) List.mem_cons_self _ _ _ rfl
  obtain ⟨d', new, h1, h2, -, h4⟩ := C101_round_partial glibcSample (lit "ladvd") boxSt.host boxSt.env he hname _ ht boxSt.conf boxSt.pwd boxSt.start hs _ _ hw
    (by decide) (by decide) [] (by intro x hx; cases hx) boxSt.start rfl boxKernel hk bsdNoMedia 1000 addrs a2 a3 a4 a5
  refine ⟨d', new, h1, h2, (h4 3 .lldp).mpr ?_⟩
  obtain ⟨e, g1, g2, g3, s, g4, g5, g6, g7, g8⟩ := a6
  exact ⟨e, g1, g2, g3, s, g4, g5, g6, g7, .inl (g8.resolve_right (by simp))⟩

end Ladvd.Props
