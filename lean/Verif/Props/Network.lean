import Verif.Lemmas.Network
import Verif.Props.Path
import Verif.Props.Alive
import Verif.Props.Cli
/-!
# C71: what one system announces is displayed on its neighbour
-/

namespace Ladvd.Props

open Spec

/-! ## The table on the terminal -/

/-- At any time in the life of the process, the client displays of what it is sent exactly the entries asked for, in this order, each with the
data of the table.  Strengthens `C20_daemon`: histories of the whole process, and entries that are not asked for. -/
theorem C20_delivered (c : Conf) (d0 d : Daemon) (h0 : d0.child = {}) (es : List Event) (hc : ∀ e ∈ es, Captured e)
    (h : daemonRun c es d0 = .ok d) (sid : Nat) (cc : CliConf) (now : Int) (ho : cc.once = false) (hp : cc.mode ≠ .print)
    (hnow : ∀ e ∈ delivered d.child sid, asked cc e = true → now - e.received ≤ e.ttl ∧ e.received ≤ now) :
    ∃ l, clientLoop cc now {} ((delivered d.child sid).map CliIn.ofEntry) = .ok l ∧
      l.filterMap (·.2) = ((delivered d.child sid).filter (asked cc)).map (display now) := by
  have hs := (stored_run h0 hc h).2
  refine ⟨_, clientLoop_stored ho hp _ ?_ hnow, ?_⟩
  · intro e he
    unfold delivered at he
    obtain ⟨x, hx, rfl⟩ := List.mem_map.mp he
    exact hs x (List.mem_filter.mp hx).1
  · generalize delivered d.child sid = l
    rw [List.filterMap_map]
    induction l with
    | nil => rfl
    | cons e l ih =>
      rw [List.filterMap_cons, List.filter_cons]
      cases ha : asked cc e with
      | true => simp only [Function.comp_apply, ha, if_true, List.map_cons]; rw [ih]
      | false => simp only [Function.comp_apply, ha, Bool.false_eq_true, if_false]; rw [ih]

/-! ## From the description of a system to the terminal of its neighbour -/

theorem startUp_child {h : Host} {e : SysEnv} {os : List Opt} {args : List Bytes} {c : Conf} {pwd : Option (Nat × Nat)} {d : Daemon}
    (hs : startUp h e os args = .ok (c, pwd, d)) : d.child = {} := by
  obtain ⟨_, -, -, -, hd⟩ := startUp_split hs
  rw [hd]

/-- A system announces itself; another one hears the frame and keeps running; later a client asks it for its neighbours.  Whatever the two systems
did before, whatever the second one does in between (it may hear anything else), and whatever else is in its table, the client displays the
first system: on the interface the frame arrived on, with the protocol, a lifetime of 180 seconds of which the time since the reception
has passed, and names that read back as the first system's host name and interface name.  Missing for the full claim: EDP (`C53_edp_unheard`), the
names in NDP frames, which do not carry them, and tables with entries that have expired but are still there (`C20_bleed`). -/
theorem C71_displayed_partial
    -- the first system
    (h : Host) (e : SysEnv) (he : SysEnvOk e) (os : List Opt) (ho : OptsOk os) (args : List Bytes) (c : Conf)
    (pwd : Option (Nat × Nat)) (d0 : Daemon) (hs : startUp h e os args = .ok (c, pwd, d0)) (es : List Event) (hes : ∀ e ∈ es, SaneEvent e)
    (d : Daemon) (hr : daemonRun c es d0 = .ok d) (k : Kernel) (hk : Sane k) (m : Media) (ev : Event)
    (hev : (∃ now, ev = .timer k m now) ∨ ∃ i, ev = .link k m true true i) (d' : Daemon) (hst : daemonStep c d ev = .ok d')
    -- the second system
    (h2 : Host) (e2 : SysEnv) (he2 : SysEnvOk e2) (os2 : List Opt) (ho2 : OptsOk os2) (args2 : List Bytes) (c2 : Conf)
    (pwd2 : Option (Nat × Nat)) (b0 : Daemon) (hs2 : startUp h2 e2 os2 args2 = .ok (c2, pwd2, b0)) (es1 : List Event)
    (hes1 : ∀ e ∈ es1, SaneEvent e ∧ Captured e) (b : Daemon) (hr1 : daemonRun c2 es1 b0 = .ok b) :
    ∃ new, d'.tx = d.tx ++ new ∧ ∀ t ∈ new, t.proto ≠ .edp →
      ∃ n ∈ (netifFetch c.opts c.names c.mgmt k ⟨d.child.netifs, d.sys, d.mnetif, d.closed⟩).1.netifs, n.index = t.index ∧
      ∃ src, (src = n.hwaddr ∨ src = [0, 0, 0, 0, 0, 0]) ∧
      ∀ (j : Nat) (subif : Netif), b.child.netifs.find? (fun x => x.index == j) = some subif → (∀ x ∈ b.child.netifs, x.hwaddr ≠ src) →
      ∃ fwd, Accepts protoFilter (t.msg.take t.len) ∧ parentRecv j [t.msg.take t.len] = .ok [fwd] ∧
      ∀ (t0 : Int) (es2 : List Event),
        (∀ e ∈ es2, SaneEvent e ∧ Captured e ∧ Undisturbed (j, t.proto.num, t.proto.dst, src) (t0 + 180) e) →
      ∀ b1, daemonRun c2 (es1 ++ .recv (some t0) (rawOf fwd) :: es2) b0 = .ok b1 →
      ∀ (q : Nat), b1.child.queue.length ≤ q →
      ∃ b2, daemonRun c2 [.accept, .write b1.child.nextId (some (List.replicate q .ok))] b1 = .ok b2 ∧
      ∀ (cc : CliConf) (now : Int), cc.once = false → cc.mode ≠ .print → (∀ l, cc.indexes = some l → j ∈ l) →
        cc.protos.testBit t.proto.num = true → t0 ≤ now → now ≤ t0 + 180 →
        (∀ x ∈ b1.child.queue, asked cc x = true → now - x.received ≤ x.ttl ∧ x.received ≤ now) →
      ∃ l, clientLoop cc now {} ((delivered b2.child b1.child.nextId).map CliIn.ofEntry) = .ok l ∧
      ∃ s ∈ l.filterMap (·.2), s.index = j ∧ s.name = subif.name ∧ s.proto = t.proto.num ∧ s.ttl = 180 ∧
        (s.hold : Int) = 180 - (now - t0) ∧ s.frame = t.msg.take t.len ∧
        (t.proto ≠ .ndp → Recovers s.peer.hostname d0.sys.hostname ∧ Recovers s.peer.portname n.name) ∧
        -- and for scripts
        ∀ ntop6 : Bytes → Bytes, (∀ a, ∀ b ∈ ntop6 a, b ≠ 0x27) → (∀ x ∈ b1.child.queue, ∀ b ∈ x.name, b ≠ 0x27) →
          b1.child.queue.length < 2 ^ 32 → ∃ i vars, shellRun (batchAll ntop6 0 (l.filterMap (·.2))) = some vars ∧
            (lit "INTERFACE_" ++ numeral i, subif.name) ∈ vars ∧ (lit "PROTOCOL_" ++ numeral i, protocolName t.proto.num) ∈ vars ∧
            (lit "HOSTNAME_" ++ numeral i, requoted s.peer.hostname) ∈ vars ∧ (lit "PORTNAME_" ++ numeral i, requoted s.peer.portname) ∈ vars := by
  obtain ⟨new, hn, hf⟩ := C53_learned_partial h e he os ho args c pwd d0 hs es hes d hr k hk m ev hev d' hst
  refine ⟨new, hn, fun t ht hedp => ?_⟩
  have hlen : t.len ≤ 1518 ∧ (t.msg.take t.len).length = t.len := by
    obtain ⟨new', hn', hf'⟩ := announced c (booted he ho hs) es hes d hr k hk m ev hev d' hst
    obtain rfl : new' = new := List.append_cancel_left (hn'.symm.trans hn)
    obtain ⟨_, _, _, _, _, _, _, _, _, _, _, _, _, hw⟩ := hf' t ht
    exact ⟨by rw [hw.len]; exact hw.max, hw.length⟩
  obtain ⟨n, hnm, hi, src, hsrc, -, hacc, hl⟩ := hf t ht hedp
  refine ⟨n, hnm, hi, src, hsrc, fun j subif hif hown => ?_⟩
  have hstart := (C49_started h2 e2 he2 os2 ho2 args2 c2 pwd2 b0 hs2).1
  have hch := startUp_child hs2
  have hgood := good_run hstart (fun e he => (hes1 e he).1) hr1
  obtain ⟨fwd, _, hfwd, -⟩ := hl j c2.opts 0 b.child subif hgood.ends hif hown
  refine ⟨fwd, hacc, hfwd, fun t0 es2 hes2 b1 hrb q hq => ?_⟩
  obtain ⟨fwd', st', hfwd', hst', peer, hlook, hnames, -⟩ := hl j c2.opts t0 b.child subif hgood.ends hif hown
  obtain rfl : fwd' = fwd := by rw [hfwd] at hfwd'; injection hfwd' with h; exact (List.head_eq_of_cons_eq h).symm
  have hcap : Captured (.recv (some t0) (rawOf fwd')) := by
    refine ⟨j, [t.msg.take t.len], [fwd'], fwd', ?_, ?_, List.mem_singleton.mpr rfl, rfl⟩
    · intro f hf
      rw [List.mem_singleton.mp hf]
      exact hacc
    · rw [List.map_cons, List.map_nil, List.take_of_length_le (by rw [hlen.2]; exact hlen.1)]
      exact hfwd
  -- the history of the second system as one of its table
  have hstep : daemonStep c2 b (.recv (some t0) (rawOf fwd')) = .ok { b with child := st' } := by
    rw [daemonStep, childStep, hst']; rfl
  rw [daemonRun_append, hr1] at hrb
  have hrb : daemonRun c2 (.recv (some t0) (rawOf fwd') :: es2) b = .ok b1 := hrb
  rw [daemonRun, hstep] at hrb
  have hrb : daemonRun c2 es2 { b with child := st' } = .ok b1 := hrb
  have hall : daemonRun c2 (es1 ++ [.recv (some t0) (rawOf fwd')]) b0 = .ok { b with child := st' } := by
    rw [daemonRun_append, hr1]
    show daemonRun c2 [_] b = _
    rw [daemonRun, hstep]; rfl
  have hall2 : daemonRun c2 ((es1 ++ [.recv (some t0) (rawOf fwd')]) ++ es2) b0 = .ok b1 := by
    rw [daemonRun_append, hall]; exact hrb
  have hcaps : ∀ e ∈ (es1 ++ [.recv (some t0) (rawOf fwd')]) ++ es2, Captured e := by
    intro e he
    rcases List.mem_append.mp he with he | he
    · rcases List.mem_append.mp he with he | he
      · exact (hes1 e he).2
      · rw [List.mem_singleton.mp he]; exact hcap
    · exact (hes2 e he).2.1
  obtain ⟨ops1, ho1, -⟩ := run_ops hall
  obtain ⟨ops2, ho2', hf2⟩ := run_ops hrb
  obtain ⟨ops3, ho3, -⟩ := run_ops hall2
  rw [hch] at ho1 ho3
  have hkeep := C17_not_earlier c2.opts [] ops1 ops2 st' b1.child ho1 ho2' _ _ hlook (fun op hop => by
    obtain ⟨e, he, hoe⟩ := hf2 op hop
    exact undisturbed_quiet (hes2 e he).2.2 hoe)
  -- the client
  have hinv := inv_run (inv_init []) ho3
  obtain ⟨ch, hw⟩ : ∃ ch, cliWrite b1.child.nextId (some (List.replicate q .ok)) (cliAccept b1.child) = .ok ch := by
    rcases write_cases b1.child.nextId (some (List.replicate q .ok)) (cliAccept b1.child) with h | ⟨-, -, s, hsm, hsid, id, hid, -⟩
    · exact h
    · exfalso
      rcases List.mem_append.mp hsm with hsm | hsm
      · have := hinv.sidLt s hsm; omega
      · rw [List.mem_singleton.mp hsm] at hid; cases hid
  have hdel := C33_whole c2.opts [] ops3 b1.child ch ho3 q hq hw
  refine ⟨{ b1 with child := ch }, ?_, ?_⟩
  · show (daemonStep c2 b1 .accept).bind _ = _
    rw [show daemonStep c2 b1 .accept = .ok { b1 with child := cliAccept b1.child } from rfl, Res.bind_ok, daemonRun]
    rw [show daemonStep c2 { b1 with child := cliAccept b1.child } (.write b1.child.nextId (some (List.replicate q .ok))) =
      .ok { b1 with child := ch } by rw [daemonStep, childStep, hw]; rfl]
    rfl
  intro cc now honce hmode hidx hpr hge hle hfresh
  rw [hdel]
  have hst3 := (stored_run hch hcaps hall2).1
  refine ⟨_, clientLoop_stored honce hmode _ hst3 hfresh, ?_⟩
  unfold lookup at hkeep
  cases hfind : b1.child.queue.find? (fun e => neighbour e == (j, t.proto.num, t.proto.dst, src)) with
  | none => rw [hfind] at hkeep; cases hkeep
  | some x =>
    rw [hfind, Option.map_some] at hkeep
    have hx := List.mem_of_find?_eq_some hfind
    have hkey : neighbour x = (j, t.proto.num, t.proto.dst, src) := by simpa using List.find?_some hfind
    have hinfo : info x = ⟨subif.name, t0, 180, t.msg.take t.len, peer⟩ := Option.some.inj hkeep
    have hxi : x.index = j := congrArg (·.1) hkey
    have hxp : x.proto = t.proto.num := congrArg (·.2.1) hkey
    have hask : asked cc x = true := by
      unfold asked
      rw [Bool.and_eq_true, hxi, hxp]
      refine ⟨?_, hpr⟩
      cases hci : cc.indexes with
      | none => rfl
      | some l => exact List.contains_iff_mem.mpr (hidx l hci)
    have hname : x.name = subif.name := congrArg Info.name hinfo
    have hrec : x.received = t0 := congrArg Info.received hinfo
    have httl : x.ttl = 180 := congrArg Info.ttl hinfo
    have hfr : x.msg.take x.len = t.msg.take t.len := congrArg Info.frame hinfo
    have hpeer : x.peer = peer := congrArg Info.peer hinfo
    have hloop := clientLoop_stored honce hmode _ hst3 hfresh
    refine ⟨display now x, ?_, hxi, hname, hxp, httl, ?_, hfr, ?_, ?_⟩
    · rw [List.mem_filterMap]
      exact ⟨_, List.mem_map.mpr ⟨x, hx, rfl⟩, by rw [hask]; rfl⟩
    · show (((x.ttl : Int) - (now - x.received)).toNat : Int) = _
      rw [httl, hrec]
      omega
    · intro hndp
      show Recovers x.peer.hostname _ ∧ Recovers x.peer.portname _
      rw [hpeer]
      exact hnames hndp
    · intro ntop6 h6 hq6 hlt
      have hshell := C21_batch ntop6 h6 cc now (b1.child.queue.map CliIn.ofEntry) ?_ ?_ _ hloop (by rw [List.length_map]; exact hlt)
      · have hmem : display now x ∈ (b1.child.queue.map (fun e => (([] : List Bytes), if asked cc e then some (display now e) else none))).filterMap (·.2) := by
          rw [List.mem_filterMap]
          exact ⟨_, List.mem_map.mpr ⟨x, hx, rfl⟩, by rw [hask]; rfl⟩
        generalize (b1.child.queue.map (fun e => (([] : List Bytes), if asked cc e then some (display now e) else none))).filterMap (·.2) = ss at hshell hmem ⊢
        obtain ⟨i, hi⟩ := List.mem_iff_getElem?.mp hmem
        refine ⟨i, _, hshell, ?_⟩
        have hin : ∀ name value, (name, value) ∈ batchValues ntop6 (display now x) → (name ++ lit "_" ++ numeral i, value) ∈ batchVars ntop6 ss := by
          intro name value hv
          unfold batchVars
          rw [List.mem_flatMap]
          refine ⟨(display now x, i), List.mem_zipIdx_iff_getElem?.mpr hi, List.mem_map.mpr ⟨(name, value), hv, rfl⟩⟩
        refine ⟨?_, ?_, ?_, ?_⟩
        · have := hin (lit "INTERFACE") x.name (by simp [batchValues, display]); rw [hname] at this; exact this
        · have := hin (lit "PROTOCOL") (protocolName x.proto) (by simp [batchValues, display]); rw [hxp] at this; exact this
        · exact hin (lit "HOSTNAME") _ (by simp [batchValues, display])
        · exact hin (lit "PORTNAME") _ (by simp [batchValues, display])
      · intro y hy
        obtain ⟨z, hz, rfl⟩ := List.mem_map.mp hy
        exact (hst3 z hz).dec.msg
      · intro y hy
        obtain ⟨z, hz, rfl⟩ := List.mem_map.mp hy
        exact hq6 z hz

/-! ## Sample -/

/-- A second system with one network card. -/
def otherKernel : Kernel :=
  ⟨some [⟨lit "em0", .link true 9 [2, 9, 9, 9, 9, 9, 0, 0]⟩], fun _ => true, fun _ _ => { device := true }, fun _ => none, fun _ => none,
    fun _ => none, fun _ => none, fun _ => none, fun _ => none⟩

/-- Both systems start, the first with LLDP and CDP; each makes a round; the second hears an unrelated station, the frames of the first, makes another round,
and a client asks it for its neighbours 30 seconds after the reception.  The queue, and interface, host and port names of the variables set by the output
of `ladvdc -b`. -/
def conversation : Option (Nat × List (Bytes × Bytes)) :=
  match startUp { user := fun _ => some (1, 1) } sysSample [⟨'a', []⟩, ⟨'L', []⟩, ⟨'C', []⟩] [],
        startUp { user := fun _ => some (1, 1) } sysSample [⟨'a', []⟩, ⟨'F', []⟩] [] with
  | .ok (c, _, d0), .ok (c2, _, b0) =>
    match daemonRun c [.timer sampleKernel {} 0] d0 with
    | .ok d =>
      let frames := (d.tx.take 2).filterMap (fun t =>
        match parentRecv 9 [t.msg.take t.len] with | .ok [fwd] => some (Event.recv (some 1000) (rawOf fwd)) | _ => none)
      match daemonRun c2 ([.timer otherKernel {} 990, .recv (some 991) (rawOf ⟨9, .ndp, ndpFrame 77⟩)] ++ frames ++ [.timer otherKernel {} 1020]) b0 with
      | .ok b1 =>
        match daemonRun c2 [.accept, .write b1.child.nextId (some (List.replicate 3 .ok))] b1 with
        | .ok b2 =>
          match clientLoop { protos := 0xffff, mode := .batch } 1030 {} ((delivered b2.child b1.child.nextId).map CliIn.ofEntry) with
          | .ok l => (shellRun (batchAll (fun _ => []) 0 (l.filterMap (·.2)))).map (fun vars => (b1.child.queue.length, vars.filter (fun v =>
              (lit "INTERFACE").isPrefixOf v.1 || (lit "HOSTNAME").isPrefixOf v.1 || (lit "PORTNAME").isPrefixOf v.1)))
          | _ => none
        | _ => none
      | _ => none
    | _ => none
  | _, _ => none

example : Sane otherKernel ∧ Sane sampleKernel ∧
    Undisturbed (9, 0, Proto.lldp.dst, [2, 0, 0, 0, 0, 2]) 1180 (.timer otherKernel {} 1020) ∧
    Undisturbed (9, 0, Proto.lldp.dst, [2, 0, 0, 0, 0, 2]) 1180 (.recv (some 1000) (rawOf ⟨9, .ndp, ndpFrame 77⟩)) ∧
    conversation = some (3, [(lit "INTERFACE_0", lit "em0"), (lit "HOSTNAME_0", []), (lit "PORTNAME_0", []),
      (lit "INTERFACE_1", lit "em0"), (lit "HOSTNAME_1", lit "sw.example.org"), (lit "PORTNAME_1", lit "eth1"),
      (lit "INTERFACE_2", lit "em0"), (lit "HOSTNAME_2", lit "sw.example.org"), (lit "PORTNAME_2", lit "eth1")]) := by
  refine ⟨by decide +kernel, by decide +kernel, by decide +kernel, by decide +kernel, by decide +kernel⟩

end Ladvd.Props
