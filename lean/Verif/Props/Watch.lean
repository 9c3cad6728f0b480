import Verif.Props.Stale
import Verif.Props.BsdTimer
/-!
# C99: whoever types `ladvdc`, whenever, sees the neighbours that keep sending
-/

namespace Ladvd.Props

open Ladvd Spec

/-- Two systems, each with Linux or FreeBSD, connected by a link that may lose and delay frames as in `C94_seen_partial`.  At any moment since the first frame
arrived, the second system answers a client at once and completely, and a user there who types `ladvdc`, with words that leave the output a table and include
the protocol and the interface, sees a line with the interface, the protocol, the contents of a frame of the first system, its name, and at least
`180 - (window + delay)` of 180 seconds left.  Missing for the full claim: EDP, and tables where an expired
entry the user asks for comes directly before (`C99_hidden`). -/
theorem C99_watched_partial (a b : Uptime) (ha : a.Runs) (hb : b.Runs) (hsend : a.conf.opts.testBit 1 = true) (hn : a.conf.names.length < 65536)
    (late late2 now : Int) (hpa : a.Punctual late) (hpb : b.Punctual late2) (sa sb : Timed) (hfa : a.final = .ok sa) (hfb : b.final = .ok sb)
    (hnow : Current late now sa) (hnow2 : ∀ t ∈ b.times, t ≤ now) (i : Nat) (p : Proto) (hedp : p ≠ .edp) (hw : a.Advertises i p)
    -- the link between them
    (j : Nat) (src : Bytes) (hcap : ∀ x ∈ b.heard, Captured (.recv x.2.1 x.2.2.1))
    (hif : ∀ x ∈ b.heard, Crossing j (p.dst, src) x → (∃ n ∈ x.2.2.2, n.index = j) ∧ ∀ n ∈ x.2.2.2, n.hwaddr ≠ src)
    (horigin : ∀ x ∈ b.heard, Crossing j (p.dst, src) x → ∃ u y fwd, (u, y) ∈ a.sent ∧ y.proto = p ∧ u ≤ x.1 ∧
      parentRecv j [y.msg.take y.len] = .ok [fwd] ∧ x.2.1 = some x.1 ∧ x.2.2.1 = rawOf fwd)
    (window delay : Int) (hwin : 30 + late ≤ window) (hdel : 0 ≤ delay) (hsum : window + delay < 180)
    (hloss : ∀ t, (∃ u y, (u, y) ∈ a.sent ∧ y.index = i ∧ y.proto = p ∧ t < u ∧ u ≤ t + window) →
      t + window + delay < now → ∃ x ∈ b.heard, Crossing j (p.dst, src) x ∧ t < x.1 ∧ x.1 ≤ t + window + delay)
    (hfirst : ∃ x ∈ b.heard, Crossing j (p.dst, src) x)
    (q : Nat) (hq : sb.daemon.child.queue.length ≤ q) :
    ∃ ch, cliWrite sb.daemon.child.nextId (some (List.replicate q .ok)) (cliAccept sb.daemon.child) = .ok ch ∧
      -- the client
      ∀ (l : Libc) (w : CliWorld) (ix : Bytes → Option Nat) (words : List Bytes) (opts : List Opt) (args : List Bytes),
        Written clientLetters l.permute words opts args → ¬ given opts ['b', 'd', 'f', 'p', 'o', 'h'] →
        ClientAsks opts ix args j p → (∀ a ∈ args, (ix a).isSome) →
        w.first = 0 → w.connect = 0 → w.time = .ok now → w.input.map (·.2) = (delivered ch sb.daemon.child.nextId).map CliIn.ofEntry →
        -- the entry asked for that is read directly before that of the first system, if there is one, has not expired
        (∀ pre x post, sb.daemon.child.queue = pre ++ x :: post → neighbour x = (j, p.num, p.dst, src) →
          ∀ y, DirectlyBefore (EntryAsked opts ix args) y pre → now - y.received ≤ y.ttl) →
      (clientMain l w ix words).how = .ok 0 ∧ (clientMain l w ix words).err = [] ∧
      ∃ pre post s, (clientMain l w ix words).out = cliHeader (cliWidths w.cols) ++ pre ++ tableLine (cliWidths w.cols) s ++ post ∧
        s.index = j ∧ s.proto = p.num ∧ s.ttl = 180 ∧ 180 - (window + delay) ≤ (s.hold : Int) ∧ s.hold ≤ 180 ∧
        (∃ u y, (u, y) ∈ a.sent ∧ y.proto = p ∧ u ≤ now ∧ s.frame = y.msg.take y.len) ∧
        (p ≠ .ndp → Recovers s.peer.hostname a.hostname) := by
  obtain ⟨inf, hlook, httl, hrec, hage, ⟨u, y, hu, hyp, huy, hfr⟩, hname⟩ := C94_seen_partial a b ha hb hsend hn late late2 now hpa hpb sa sb hfa hfb hnow hnow2
    i p hedp hw j src hif horigin window delay hwin hdel hsum hloss hfirst
  obtain ⟨c2, b0, u0, k2, m2, h2, B⟩ := linuxRun hb
  have hrb := timedRun_daemon (B.final.symm.trans hfb)
  rw [B.heard] at hcap
  have hce : ∀ e ∈ ((u0, .timer k2 m2 u0) :: h2).map (·.2), Captured e := by
    intro e he
    obtain ⟨⟨t, e⟩, hx, rfl⟩ := List.mem_map.mp he
    cases e with
    | recv n r =>
      obtain ⟨pre, post, hsplit⟩ := List.append_of_mem hx
      obtain ⟨s1, hr, -⟩ := timedRun_append (by rw [← hsplit]; exact B.final.symm.trans hfb)
      exact hcap (t, n, r, s1.daemon.child.netifs) (by rw [hsplit]; exact receptions_mid hr)
    | timer => trivial
    | link => trivial
    | accept => trivial
    | write => trivial
  obtain ⟨ch, hch, hcli⟩ := C102_spoiled B.child hce hrb q hq
  refine ⟨ch, hch, ?_⟩
  intro l w ix words opts args hwr hmode hask hargs hf hc htime hin hfresh
  obtain ⟨hhow, herr, shown, -, hout, hall⟩ := hcli l w ix words opts args now hwr hmode hargs hf hc htime hin
  unfold lookup at hlook
  cases hfind : sb.daemon.child.queue.find? (fun e => neighbour e == (j, p.num, p.dst, src)) with
  | none => rw [hfind] at hlook; cases hlook
  | some x =>
    rw [hfind, Option.map_some] at hlook
    obtain rfl := Option.some.inj hlook
    have hx := List.mem_of_find?_eq_some hfind
    have hkey : neighbour x = (j, p.num, p.dst, src) := by simpa using List.find?_some hfind
    have hxi : x.index = j := congrArg (·.1) hkey
    have hxp : x.proto = p.num := congrArg (·.2.1) hkey
    have httl : x.ttl = 180 := httl
    have hrec : x.received ≤ now := hrec
    have hage : now ≤ x.received + window + delay := hage
    obtain ⟨before, behind, hsp⟩ := List.append_of_mem hx
    obtain ⟨s, hs, -, -, hshow⟩ := hall before x behind hsp
    have hmem : display now x ∈ shown.filterMap id := by
      rw [List.mem_filterMap]
      refine ⟨_, List.mem_of_getElem? hs, ?_⟩
      exact hshow ⟨p, hxp, by rw [hxi]; exact hask⟩ (by rw [httl]; omega) hrec (hfresh before x behind hsp hkey)
    obtain ⟨pre, post, hsplit⟩ := List.append_of_mem hmem
    refine ⟨hhow, herr, pre.flatMap (tableLine (cliWidths w.cols)), post.flatMap (tableLine (cliWidths w.cols)), display now x, ?_, hxi, hxp, httl, ?_, ?_,
      ⟨u, y, hu, hyp, Int.le_trans huy hrec, hfr⟩, hname⟩
    · rw [hout, hsplit]
      simp [List.append_assoc]
    · show _ ≤ (((x.ttl : Int) - (now - x.received)).toNat : Int)
      rw [httl]
      omega
    · show ((x.ttl : Int) - (now - x.received)).toNat ≤ 180
      rw [httl]
      omega

theorem third_hears : (∀ x ∈ thirdUp.heard, ∃ y ∈ [(⟨9, .lldp, boxFrame⟩ : Fwd), ⟨9, .ndp, ndpFrame 78⟩], x.2.2.1 = rawOf y ∧
      (match bpfFilter protoFilter y.frame with | .ok n => decide (n ≠ 0) | _ => false) = true ∧ parentRecv 9 [y.frame.take 1518] = .ok [y]) ∧
    (match thirdUp.final with
    | .ok s => decide (s.daemon.child.queue.length ≤ 2 ∧ ∀ x ∈ s.daemon.child.queue, (1150 : Int) - x.received ≤ x.ttl ∧ x.received ≤ 1150)
    | _ => false) = true := by
  decide +kernel

/-- The link of `boxLink`, three rounds lost, and `ladvdc -L em0` typed on the second system at 1150. -/
example (sb : Timed) (hfb : thirdUp.final = .ok sb) : ∃ ch, cliWrite sb.daemon.child.nextId (some (List.replicate 2 .ok)) (cliAccept sb.daemon.child) = .ok ch ∧
    ∀ input, input.map (·.2) = (delivered ch sb.daemon.child.nextId).map CliIn.ofEntry →
      ∃ pre post s, (clientMain glibcSample { clientSample with first := 0, connect := 0, time := .ok 1150, input := input }
          (fun n => if n = lit "em0" then some 9 else none) [lit "-L", lit "em0"]).out =
          cliHeader (cliWidths clientSample.cols) ++ pre ++ tableLine (cliWidths clientSample.cols) s ++ post ∧
        s.index = 9 ∧ 58 ≤ s.hold ∧ Recovers s.peer.hostname (lit "box.example.org") := by
  obtain ⟨hp, hr, hsent, hsend, hn⟩ := boxUp_facts
  obtain ⟨hp2, hr2, hnow2, hheard, hcross⟩ := thirdUp_facts
  obtain ⟨hc, hq⟩ := third_hears
  rw [hfb] at hq
  obtain ⟨hq, hfresh⟩ := of_decide_eq_true hq
  cases hs : boxUp.final with
  | ok s =>
    rw [hs] at hr
    obtain ⟨ch, hch, hrest⟩ := C99_watched_partial boxUp thirdUp boxUp_runs thirdUp_runs hsend hn 1 60 1150 hp hp2 s sb hs hfb (of_decide_eq_true hr) hnow2 3 .lldp
      (by decide) boxUp_due 9 [2, 0, 0, 0, 1, 3]
      (by
        intro x hx
        obtain ⟨y, -, h1, h2, h3⟩ := hc x hx
        refine ⟨9, [y.frame], [y], y, ?_, h3, List.mem_singleton.mpr rfl, h1⟩
        intro f hf
        rw [List.mem_singleton.mp hf]
        cases hb : bpfFilter protoFilter y.frame with
        | ok n => rw [hb] at h2; exact ⟨n, rfl, of_decide_eq_true h2⟩
        | fail => rw [hb] at h2; cases h2
        | oob => rw [hb] at h2; cases h2
        | abort => rw [hb] at h2; cases h2
        | stuck => rw [hb] at h2; cases h2)
      boxLink.1 boxLink.2.1 120 2 (by decide) (by decide) (by decide) boxLink.2.2.1 boxLink.2.2.2 2 hq
    refine ⟨ch, hch, fun input hin => ?_⟩
    obtain ⟨-, -, pre, post, sh, ho, h1, -, -, h4, -, -, h7⟩ := hrest glibcSample
      { clientSample with first := 0, connect := 0, time := .ok 1150, input := input } (fun n => if n = lit "em0" then some 9 else none) [lit "-L", lit "em0"]
      [⟨'L', []⟩] [lit "em0"] (((C97_written glibcSample _ _ _).2).mp (by decide +kernel)) (by decide) ⟨.inr ⟨'L', rfl, by decide⟩, fun _ => ⟨lit "em0", by decide, by decide +kernel⟩⟩ (by decide +kernel) rfl rfl rfl hin
      (fun _ _ _ hsp _ y ⟨_, _, hb, _⟩ => (hfresh y (by rw [hsp, hb]; simp)).1)
    exact ⟨pre, post, sh, ho, h1, by omega, h7 (by decide)⟩
  | fail => rw [hs] at hr; cases hr
  | oob => rw [hs] at hr; cases hr
  | abort => rw [hs] at hr; cases hr
  | stuck => rw [hs] at hr; cases hr

/-- A CDP frame with a lifetime of ten seconds. -/
def briefFrame : Bytes := ((cdpEntry 0x31 10).msg).take 62

/-- The second system hears it at 1000, and two seconds later the first system. -/
def hiddenUp : Uptime := .linux thirdSt 990 otherKernel {} [(1000, .recv (some 1000) (rawOf ⟨9, .cdp, briefFrame⟩)), (1002, .recv (some 1002) (rawOf ⟨9, .lldp, boxFrame⟩))]

/-- What `ladvdc` prints on such a system at a given time. -/
def shownThere (u : Uptime) (now : Int) (words : List Bytes) : Option (Res Nat × Bytes) :=
  match u.final with
  | .ok s =>
    match cliWrite s.daemon.child.nextId (some (List.replicate 3 .ok)) (cliAccept s.daemon.child) with
    | .ok ch =>
      let said := (delivered ch s.daemon.child.nextId).map (fun x => (now, CliIn.ofEntry x))
      let r := clientMain glibcSample { clientSample with first := 0, connect := 0, time := .ok now, input := said } (fun _ => some 9) words
      some (r.how, r.out)
    | _ => none
  | _ => none

theorem hiddenUp_runs : hiddenUp.Runs := by
  have hk : Sane otherKernel := by decide +kernel
  refine ⟨thirdSt_runs, hk, ?_⟩
  intro x hx
  simp only [List.mem_cons, List.not_mem_nil, or_false] at hx
  rcases hx with rfl | rfl <;> first | exact hk | trivial

/-- Why expired entries have to be excluded: a system whose event loop is never late holds, thirteen seconds after it arrived, what the first system said, valid for
180 seconds.  The table also holds an advertisement that expired five seconds ago, before the round that will remove it.  Then `ladvdc` shows nobody at all, with
status 0; `ladvdc -L` shows the first system. -/
theorem C99_hidden : hiddenUp.Runs ∧ hiddenUp.Punctual 0 ∧ (∀ t ∈ hiddenUp.times, t ≤ 1015) ∧
    (match hiddenUp.final with
    | .ok s => decide (s.due = some 1020 ∧ (lookup s.daemon.child.queue (9, 0, Proto.lldp.dst, [2, 0, 0, 0, 1, 3])).map (fun x => (x.received, x.ttl)) = some (1002, 180))
    | _ => false) = true ∧
    shownThere hiddenUp 1015 [] = some (.ok 0, cliHeader (cliWidths clientSample.cols)) ∧
    (shownThere hiddenUp 1015 [lit "-L"]).map (fun x => (x.1, x.2.drop (cliHeader (cliWidths clientSample.cols)).length)) =
      some (.ok 0, lit "box.example.org      em0           LLDP    167          R             em2       \n") :=
  ⟨hiddenUp_runs, by decide +kernel, by decide +kernel, by decide +kernel, by decide +kernel, by decide +kernel⟩

/-- The same, and two seconds later a third neighbour is heard. -/
def spoiledUp : Uptime := .linux thirdSt 990 otherKernel {} [(1000, .recv (some 1000) (rawOf ⟨9, .cdp, briefFrame⟩)), (1002, .recv (some 1002) (rawOf ⟨9, .lldp, boxFrame⟩)),
  (1004, .recv (some 1004) (rawOf ⟨9, .ndp, ndpFrame 78⟩))]

/-- What `C102_spoiled` says there at 1015: of three entries asked for the first has expired, the second is lost with it, and the third is shown. -/
theorem C102_third : (match spoiledUp.final with
    | .ok s => s.daemon.child.queue.map (fun (x : Entry) => (x.proto, x.received, x.ttl))
    | _ => []) = [(1, 1000, 10), (0, 1002, 180), (4, 1004, 180)] ∧
    (shownThere spoiledUp 1015 []).map (fun x => (x.1, x.2.drop (cliHeader (cliWidths clientSample.cols)).length)) =
      some (.ok 0, lit "                     em0           NDP     169                                  \n") := by
  decide +kernel

end Ladvd.Props
