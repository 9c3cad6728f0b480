import Verif.Props.Stale
/-!
# C98: what is typed, with an expired entry in the table
-/

namespace Ladvd.Props

open Ladvd Spec

/-- What another system has announced is still in the table, as heard, and the frames heard were captured (the first half of `C71_displayed_partial`). -/
theorem kept
    -- the first system
    (h : Host) (e : SysEnv) (he : SysEnvOk e) (os : List Opt) (ho : OptsOk os) (args : List Bytes) (c : Conf)
    (pwd : Option (Nat × Nat)) (d0 : Daemon) (hs : startUp h e os args = .ok (c, pwd, d0)) (es : List Event) (hes : ∀ e ∈ es, SaneEvent e)
    (d : Daemon) (hr : daemonRun c es d0 = .ok d) (k : Kernel) (hk : Sane k) (m : Media) (ev : Event)
    (hev : (∃ now, ev = .timer k m now) ∨ ∃ i, ev = .link k m true true i) (d' : Daemon) (hst : daemonStep c d ev = .ok d')
    -- the second system
    (h2 : Host) (e2 : SysEnv) (he2 : SysEnvOk e2) (os2 : List Opt) (ho2 : OptsOk os2) (args2 : List Bytes) (c2 : Conf)
    (pwd2 : Option (Nat × Nat)) (b0 : Daemon) (hs2 : startUp h2 e2 os2 args2 = .ok (c2, pwd2, b0)) (es1 : List Event)
    (hes1 : ∀ e ∈ es1, SaneEvent e ∧ Captured e) (b : Daemon) (hr1 : daemonRun c2 es1 b0 = .ok b) :
    ∃ new, d'.tx = d.tx ++ new ∧ ∀ t ∈ new, t.proto ≠ .edp →
      ∃ n ∈ (netifFetch c.opts c.names c.mgmt k ⟨d.child.netifs, d.sys, d.mnetif, d.closed⟩).1.netifs, n.index = t.index ∧
      ∃ src, (src = n.hwaddr ∨ src = [0, 0, 0, 0, 0, 0]) ∧
      ∀ (j : Nat) (subif : Netif), b.child.netifs.find? (fun x => x.index == j) = some subif → (∀ x ∈ b.child.netifs, x.hwaddr ≠ src) →
      ∃ fwd, Accepts protoFilter (t.msg.take t.len) ∧ parentRecv j [t.msg.take t.len] = .ok [fwd] ∧
      ∀ (t0 : Int) (es2 : List Event),
        (∀ e ∈ es2, SaneEvent e ∧ Captured e ∧ Undisturbed (j, t.proto.num, t.proto.dst, src) (t0 + 180) e) →
      ∀ b1, daemonRun c2 (es1 ++ .recv (some t0) (rawOf fwd) :: es2) b0 = .ok b1 →
      (∀ e ∈ es1 ++ .recv (some t0) (rawOf fwd) :: es2, Captured e) ∧
      ∃ peer, lookup b1.child.queue (j, t.proto.num, t.proto.dst, src) = some ⟨subif.name, t0, 180, t.msg.take t.len, peer⟩ ∧
        (t.proto ≠ .ndp → Recovers peer.hostname d0.sys.hostname ∧ Recovers peer.portname n.name) := by
  obtain ⟨new, hn, hf⟩ := C53_learned_partial h e he os ho args c pwd d0 hs es hes d hr k hk m ev hev d' hst
  refine ⟨new, hn, fun t ht hedp => ?_⟩
  have hlen : t.len ≤ 1518 ∧ (t.msg.take t.len).length = t.len := by
    obtain ⟨new', hn', hf'⟩ := announced c (booted he ho hs) es hes d hr k hk m ev hev d' hst
    obtain rfl : new' = new := List.append_cancel_left (hn'.symm.trans hn)
    obtain ⟨_, _, _, _, _, _, _, _, _, _, _, _, _, hw⟩ := hf' t ht
    exact ⟨by rw [hw.len]; exact hw.max, hw.length⟩
  obtain ⟨n, hnm, hi, src, hsrc, -, hacc, hl⟩ := hf t ht hedp
  refine ⟨n, hnm, hi, src, hsrc, fun j subif hif hown => ?_⟩
  have hstart := (C49_started h2 e2 he2 os2 ho2 args2 c2 pwd2 b0 hs2).1
  have hch := startUp_child hs2
  have hgood := good_run hstart (fun e he => (hes1 e he).1) hr1
  obtain ⟨fwd, _, hfwd, -⟩ := hl j c2.opts 0 b.child subif hgood.ends hif hown
  refine ⟨fwd, hacc, hfwd, fun t0 es2 hes2 b1 hrb => ?_⟩
  obtain ⟨fwd', st', hfwd', hst', peer, hlook, hnames, -⟩ := hl j c2.opts t0 b.child subif hgood.ends hif hown
  obtain rfl : fwd' = fwd := by rw [hfwd] at hfwd'; injection hfwd' with h; exact (List.head_eq_of_cons_eq h).symm
  have hcap : Captured (.recv (some t0) (rawOf fwd')) := by
    refine ⟨j, [t.msg.take t.len], [fwd'], fwd', ?_, ?_, List.mem_singleton.mpr rfl, rfl⟩
    · intro f hf
      rw [List.mem_singleton.mp hf]
      exact hacc
    · rw [List.map_cons, List.map_nil, List.take_of_length_le (by rw [hlen.2]; exact hlen.1)]
      exact hfwd
  -- the history of the second system as one of its table
  have hstep : daemonStep c2 b (.recv (some t0) (rawOf fwd')) = .ok { b with child := st' } := by
    rw [daemonStep, childStep, hst']; rfl
  rw [daemonRun_append, hr1] at hrb
  have hrb : daemonRun c2 (.recv (some t0) (rawOf fwd') :: es2) b = .ok b1 := hrb
  rw [daemonRun, hstep] at hrb
  have hrb : daemonRun c2 es2 { b with child := st' } = .ok b1 := hrb
  have hall : daemonRun c2 (es1 ++ [.recv (some t0) (rawOf fwd')]) b0 = .ok { b with child := st' } := by
    rw [daemonRun_append, hr1]
    show daemonRun c2 [_] b = _
    rw [daemonRun, hstep]; rfl
  have hall2 : daemonRun c2 ((es1 ++ [.recv (some t0) (rawOf fwd')]) ++ es2) b0 = .ok b1 := by
    rw [daemonRun_append, hall]; exact hrb
  have hcaps : ∀ e ∈ (es1 ++ [.recv (some t0) (rawOf fwd')]) ++ es2, Captured e := by
    intro e he
    rcases List.mem_append.mp he with he | he
    · rcases List.mem_append.mp he with he | he
      · exact (hes1 e he).2
      · rw [List.mem_singleton.mp he]; exact hcap
    · exact (hes2 e he).2.1
  obtain ⟨ops1, ho1, -⟩ := run_ops hall
  obtain ⟨ops2, ho2', hf2⟩ := run_ops hrb
  rw [hch] at ho1
  have hkeep := C17_not_earlier c2.opts [] ops1 ops2 st' b1.child ho1 ho2' _ _ hlook (fun op hop => by
    obtain ⟨e, he, hoe⟩ := hf2 op hop
    exact undisturbed_quiet (hes2 e he).2.2 hoe)
  exact ⟨by simpa using hcaps, peer, hkeep, hnames⟩

/-- As `C98_displayed_partial`, for tables that may have expired entries anywhere but directly before, among those asked for: a user of the second system who types
`ladvdc` sees a line for the first one. -/
theorem C98_shown_partial
    -- the first system
    (l : Libc) (prog : Bytes) (h : Host) (e : SysEnv) (he : SysEnvOk e) (ws : List Bytes) (ht : ∀ w ∈ ws, ∀ b ∈ w, b ≠ (0 : UInt8)) (c : Conf)
    (pwd : Option (Nat × Nat)) (d0 : Daemon) (hs : typedStart l prog h e ws = .ok (c, pwd, d0)) (es : List Event) (hes : ∀ e ∈ es, SaneEvent e)
    (d : Daemon) (hr : daemonRun c es d0 = .ok d) (k : Kernel) (hk : Sane k) (m : Media) (ev : Event)
    (hev : (∃ now, ev = .timer k m now) ∨ ∃ i, ev = .link k m true true i) (d' : Daemon) (hst : daemonStep c d ev = .ok d')
    -- the second system
    (l2 : Libc) (prog2 : Bytes) (h2 : Host) (e2 : SysEnv) (he2 : SysEnvOk e2) (ws2 : List Bytes) (ht2 : ∀ w ∈ ws2, ∀ b ∈ w, b ≠ (0 : UInt8)) (c2 : Conf)
    (pwd2 : Option (Nat × Nat)) (b0 : Daemon) (hs2 : typedStart l2 prog2 h2 e2 ws2 = .ok (c2, pwd2, b0)) (es1 : List Event)
    (hes1 : ∀ e ∈ es1, SaneEvent e ∧ Captured e) (b : Daemon) (hr1 : daemonRun c2 es1 b0 = .ok b) :
    ∃ new, d'.tx = d.tx ++ new ∧ ∀ t ∈ new, t.proto ≠ .edp →
      ∃ n ∈ (netifFetch c.opts c.names c.mgmt k ⟨d.child.netifs, d.sys, d.mnetif, d.closed⟩).1.netifs, n.index = t.index ∧
      ∃ src, (src = n.hwaddr ∨ src = [0, 0, 0, 0, 0, 0]) ∧
      ∀ (j : Nat) (subif : Netif), b.child.netifs.find? (fun x => x.index == j) = some subif → (∀ x ∈ b.child.netifs, x.hwaddr ≠ src) →
      ∃ fwd, Accepts protoFilter (t.msg.take t.len) ∧ parentRecv j [t.msg.take t.len] = .ok [fwd] ∧
      ∀ (t0 : Int) (es2 : List Event),
        (∀ e ∈ es2, SaneEvent e ∧ Captured e ∧ Undisturbed (j, t.proto.num, t.proto.dst, src) (t0 + 180) e) →
      ∀ b1, daemonRun c2 (es1 ++ .recv (some t0) (rawOf fwd) :: es2) b0 = .ok b1 →
      ∀ (q : Nat), b1.child.queue.length ≤ q →
      ∃ b2, daemonRun c2 [.accept, .write b1.child.nextId (some (List.replicate q .ok))] b1 = .ok b2 ∧
      -- the client
      ∀ (w : CliWorld) (ix : Bytes → Option Nat) (words : List Bytes) (opts : List Opt) (args : List Bytes) (now : Int),
        Written clientLetters l2.permute words opts args → ¬ given opts ['b', 'd', 'f', 'p', 'o', 'h'] →
        ClientAsks opts ix args j t.proto → (∀ a ∈ args, (ix a).isSome) →
        w.first = 0 → w.connect = 0 → w.time = .ok now → w.input.map (·.2) = (delivered b2.child b1.child.nextId).map CliIn.ofEntry →
        t0 ≤ now → now ≤ t0 + 180 →
        -- the entry asked for that is read directly before that of the first system, if there is one, has not expired
        (∀ pre x post, b1.child.queue = pre ++ x :: post → neighbour x = (j, t.proto.num, t.proto.dst, src) →
          ∀ y, DirectlyBefore (EntryAsked opts ix args) y pre → now - y.received ≤ y.ttl) →
      (clientMain l2 w ix words).how = .ok 0 ∧ (clientMain l2 w ix words).err = [] ∧
      ∃ pre post s, (clientMain l2 w ix words).out = cliHeader (cliWidths w.cols) ++ pre ++ tableLine (cliWidths w.cols) s ++ post ∧
        s.index = j ∧ s.name = subif.name ∧ s.proto = t.proto.num ∧ s.ttl = 180 ∧ (s.hold : Int) = 180 - (now - t0) ∧
        (t.proto ≠ .ndp → Recovers s.peer.hostname d0.sys.hostname ∧ Recovers s.peer.portname n.name) := by
  obtain ⟨os, args, -, hok, hstart⟩ := (C98_typed l prog h e ws ht c pwd d0).mp hs
  obtain ⟨os2, args2, -, hok2, hstart2⟩ := (C98_typed l2 prog2 h2 e2 ws2 ht2 c2 pwd2 b0).mp hs2
  obtain ⟨new, hnew, hall⟩ := kept h e he os hok args c pwd d0 hstart es hes d hr k hk m ev hev d' hst h2 e2 he2 os2 hok2 args2 c2 pwd2 b0 hstart2 es1 hes1 b hr1
  refine ⟨new, hnew, fun t htn hedp => ?_⟩
  obtain ⟨n, hn, hidx, src, hsrc, hlink⟩ := hall t htn hedp
  refine ⟨n, hn, hidx, src, hsrc, fun j subif hsub hown => ?_⟩
  obtain ⟨fwd, hacc, hfwd, hrest⟩ := hlink j subif hsub hown
  refine ⟨fwd, hacc, hfwd, fun t0 es2 hes2 b1 hb1 q hq => ?_⟩
  obtain ⟨hcap, peer, hlook, hnames⟩ := hrest t0 es2 hes2 b1 hb1
  obtain ⟨ch, hw, hcli⟩ := C102_spoiled (startUp_child hstart2) hcap hb1 q hq
  refine ⟨{ b1 with child := ch }, ?_, ?_⟩
  · show (daemonStep c2 b1 .accept).bind _ = _
    rw [show daemonStep c2 b1 .accept = .ok { b1 with child := cliAccept b1.child } from rfl, Res.bind_ok, daemonRun]
    rw [show daemonStep c2 { b1 with child := cliAccept b1.child } (.write b1.child.nextId (some (List.replicate q .ok))) =
      .ok { b1 with child := ch } by rw [daemonStep, childStep, hw]; rfl]
    rfl
  intro w ix words opts cargs now hwr hmode hask hargs hf hc htime hin hnow1 hnow2 hfresh
  obtain ⟨hhow, herr, shown, -, hout, hall⟩ := hcli l2 w ix words opts cargs now hwr hmode hargs hf hc htime hin
  unfold lookup at hlook
  cases hfind : b1.child.queue.find? (fun e => neighbour e == (j, t.proto.num, t.proto.dst, src)) with
  | none => rw [hfind] at hlook; cases hlook
  | some x =>
    rw [hfind, Option.map_some] at hlook
    have hx := List.mem_of_find?_eq_some hfind
    have hkey : neighbour x = (j, t.proto.num, t.proto.dst, src) := by simpa using List.find?_some hfind
    have hinfo : info x = ⟨subif.name, t0, 180, t.msg.take t.len, peer⟩ := Option.some.inj hlook
    have hxi : x.index = j := congrArg (·.1) hkey
    have hxp : x.proto = t.proto.num := congrArg (·.2.1) hkey
    have hname : x.name = subif.name := congrArg Info.name hinfo
    have hrec : x.received = t0 := congrArg Info.received hinfo
    have httl : x.ttl = 180 := congrArg Info.ttl hinfo
    have hpeer : x.peer = peer := congrArg Info.peer hinfo
    obtain ⟨before, behind, hsp⟩ := List.append_of_mem hx
    obtain ⟨s, hs, -, -, hshow⟩ := hall before x behind hsp
    have hmem : display now x ∈ shown.filterMap id := by
      rw [List.mem_filterMap]
      refine ⟨_, List.mem_of_getElem? hs, ?_⟩
      exact hshow ⟨t.proto, hxp, by rw [hxi]; exact hask⟩ (by rw [httl, hrec]; omega) (by rw [hrec]; exact hnow1) (hfresh before x behind hsp hkey)
    obtain ⟨pre, post, hsplit⟩ := List.append_of_mem hmem
    refine ⟨hhow, herr, pre.flatMap (tableLine (cliWidths w.cols)), post.flatMap (tableLine (cliWidths w.cols)), display now x, ?_, hxi, hname, hxp, httl, ?_, ?_⟩
    · rw [hout, hsplit]
      simp [List.append_assoc]
    · show (((x.ttl : Int) - (now - x.received)).toNat : Int) = _
      rw [httl, hrec]
      omega
    · intro hndp
      show Recovers x.peer.hostname _ ∧ Recovers x.peer.portname _
      rw [hpeer]
      exact hnames hndp

/-! ## Sample -/

/-- `ladvd -aL` on one system; another one, with `ladvd -a -F`, hears at 1000 a station with a lifetime of 10 seconds, then another one, then the first system.
What `ladvdc` shows there at 1030. -/
def shownTyped : Option (List (Nat × Int × Nat) × Bytes) :=
  match typedStart glibcSample (lit "ladvd") typedHost sysSample [lit "-aL"], typedStart glibcSample (lit "ladvd") typedHost sysSample [lit "-a", lit "-F"] with
  | .ok (c, _, d0), .ok (c2, _, b0) =>
    match daemonRun c [.timer sampleKernel {} 0] d0 with
    | .ok d =>
      let frames := (d.tx.take 1).filterMap (fun t =>
        match parentRecv 9 [t.msg.take t.len] with | .ok [fwd] => some (Event.recv (some 1002) (rawOf fwd)) | _ => none)
      match daemonRun c2 ([.timer otherKernel {} 990, .recv (some 1000) (rawOf ⟨9, .cdp, ((cdpEntry 0x31 10).msg).take 62⟩),
          .recv (some 1001) (rawOf ⟨9, .ndp, ndpFrame 77⟩)] ++ frames) b0 with
      | .ok b1 =>
        match daemonRun c2 [.accept, .write b1.child.nextId (some (List.replicate 3 .ok))] b1 with
        | .ok b2 =>
          let said := (delivered b2.child b1.child.nextId).map (fun x => ((1030 : Int), CliIn.ofEntry x))
          let w : CliWorld := { clientSample with cols := none, first := 0, connect := 0, time := .ok 1030, input := said }
          let x := clientMain glibcSample w (fun _ => none) []
          if x.how = .ok 0 then some (b1.child.queue.map (fun (x : Entry) => (x.proto, x.received, x.ttl)), x.out.drop (cliHeader (cliWidths none)).length) else none
        | _ => none
      | _ => none
    | _ => none
  | _, _ => none

/-- The first entry has expired, and the one after it has the names of the expired one; the first system is shown as it is. -/
example : shownTyped = some ([(1, 1000, 10), (4, 1001, 180), (0, 1002, 180)],
    lit "sw1                  em0           NDP     151                        eeeeeeeeeeeeeeeeeeeeeeeee\n" ++
    lit "sw.example.org       em0           LLDP    152          BR            eth1\n") := by
  decide +kernel

end Ladvd.Props
