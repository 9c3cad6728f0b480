import Verif.Model.Typed
import Verif.Spec.Typed
import Verif.Props.Argv
import Verif.Props.Network
/-!
# C98: from what is typed on one system to what is displayed on another
-/

namespace Ladvd.Props

open Ladvd Spec

/-- Arguments are parts of the words typed. -/
theorem written_text {L : Letters} {any : Bool} {ws os args} (h : Written L any ws os args) (ht : ∀ w ∈ ws, ∀ b ∈ w, b ≠ (0 : UInt8)) : OptsOk os := by
  have nil : ∀ cs : List Char, ∀ o ∈ cs.map (fun c => (⟨c, []⟩ : Opt)), ∀ b ∈ o.arg, b ≠ (0 : UInt8) := by
    intro cs o ho b hb
    obtain ⟨c, _, rfl⟩ := List.mem_map.mp ho
    cases hb
  induction h with
  | none => intro o ho; cases ho
  | flags cs hn hc h ih =>
    intro o ho
    rcases List.mem_append.mp ho with ho | ho
    · exact nil cs o ho
    · exact ih (fun w hw => ht w (List.mem_cons_of_mem _ hw)) o ho
  | attached cs hc c hv v hn h ih =>
    intro o ho
    rcases List.mem_append.mp ho with ho | ho
    · exact nil cs o ho
    · rcases List.mem_cons.mp ho with rfl | ho
      · intro b hb
        exact ht _ (List.mem_cons_self ..) b (by simp at hb ⊢; right; right; right; exact hb)
      · exact ih (fun w hw => ht w (List.mem_cons_of_mem _ hw)) o ho
  | separate cs hc c hv v h ih =>
    intro o ho
    rcases List.mem_append.mp ho with ho | ho
    · exact nil cs o ho
    · rcases List.mem_cons.mp ho with rfl | ho
      · intro b hb
        exact ht v (List.mem_cons_of_mem _ (List.mem_cons_self ..)) b hb
      · exact ih (fun w hw => ht w (List.mem_cons_of_mem _ (List.mem_cons_of_mem _ hw))) o ho
  | operand w hw hp h ih => exact ih (fun w hw => ht w (List.mem_cons_of_mem _ hw))
  | rest w hw hp ws => intro o ho; cases ho
  | stop ws => intro o ho; cases ho

/-- Only known letters are meant. -/
theorem written_letters {L : Letters} {any : Bool} {ws os args} (h : Written L any ws os args) : ∀ o ∈ os, o.ch ∈ L.flags ++ L.valued := by
  have flag : ∀ cs : List Char, (∀ c ∈ cs, c ∈ L.flags) → ∀ o ∈ cs.map (fun c => (⟨c, []⟩ : Opt)), o.ch ∈ L.flags ++ L.valued := by
    intro cs hc o ho
    obtain ⟨c, h, rfl⟩ := List.mem_map.mp ho
    exact List.mem_append_left _ (hc c h)
  induction h with
  | none => intro o ho; cases ho
  | flags cs hn hc h ih => exact fun o ho => (List.mem_append.mp ho).elim (flag cs hc o) (ih o)
  | attached cs hc c hv v hn h ih =>
    intro o ho
    rcases List.mem_append.mp ho with ho | ho
    · exact flag cs hc o ho
    · rcases List.mem_cons.mp ho with rfl | ho
      · exact List.mem_append_right _ hv
      · exact ih o ho
  | separate cs hc c hv v h ih =>
    intro o ho
    rcases List.mem_append.mp ho with ho | ho
    · exact flag cs hc o ho
    · rcases List.mem_cons.mp ho with rfl | ho
      · exact List.mem_append_right _ hv
      · exact ih o ho
  | operand w hw hp h ih => exact ih
  | rest w hw hp ws => intro o ho; cases ho
  | stop ws => intro o ho; cases ho

/-- Words have one meaning. -/
theorem C98_unique {l : Libc} {ws : List Bytes} {os os' : List Opt} {args args' : List Bytes} (h : Written daemonLetters l.permute ws os args)
    (h' : Written daemonLetters l.permute ws os' args') : os = os' ∧ args = args' := by
  have h1 := ((C97_written l ws os args).1).mpr h
  have h2 := ((C97_written l ws os' args').1).mpr h'
  have := h1.1.symm.trans h2.1
  cases this
  exact ⟨rfl, rfl⟩

/-- What is typed is what starts: the settings that C35 and the state that C49 describe, for the options and operands that the words mean. -/
theorem C98_typed (l : Libc) (prog : Bytes) (h : Host) (e : SysEnv) (ws : List Bytes) (ht : ∀ w ∈ ws, ∀ b ∈ w, b ≠ (0 : UInt8)) (c : Conf)
    (pwd : Option (Nat × Nat)) (d0 : Daemon) :
    typedStart l prog h e ws = .ok (c, pwd, d0) ↔
      ∃ os args, Written daemonLetters l.permute ws os args ∧ OptsOk os ∧ startUp h e os args = .ok (c, pwd, d0) := by
  constructor
  · intro hs
    unfold typedStart at hs
    cases hd : (daemonMain l prog h ws).how with
    | ok m =>
      rw [hd] at hs
      cases m with
      | exits n => cases hs
      | starts s p =>
        obtain ⟨os, args, hw, hm⟩ := (C97_starts l prog h ws s p).mp hd
        refine ⟨os, args, hw, written_text hw ht, ?_⟩
        unfold startUp
        rw [hm]
        rw [(((C97_written l ws os args).1).mpr hw).1] at hs
        exact hs
    | _ => rw [hd] at hs; cases hs
  · rintro ⟨os, args, hw, _, hs⟩
    unfold startUp at hs
    cases hm : mainStart h os args with
    | ok sp =>
      obtain ⟨s, p⟩ := sp
      rw [hm] at hs
      have hd := (C97_starts l prog h ws s p).mpr ⟨os, args, hw, hm⟩
      unfold typedStart
      rw [hd, (((C97_written l ws os args).1).mpr hw).1]
      exact hs
    | _ => rw [hm] at hs; cases hs

/-- A daemon started with a command line without `-s`: whatever happened since, a periodic round sends exactly what the words ask for, once each if no
aggregate is named together with one of its ports.  Missing: otherwise there are two (`C23_overlap`). -/
theorem C98_round_partial (l : Libc) (prog : Bytes) (h : Host) (e : SysEnv) (he : SysEnvOk e) (ws : List Bytes) (ht : ∀ w ∈ ws, ∀ b ∈ w, b ≠ (0 : UInt8))
    (c : Conf) (pwd : Option (Nat × Nat)) (d0 : Daemon) (hs : typedStart l prog h e ws = .ok (c, pwd, d0)) (os : List Opt) (args : List Bytes)
    (hw : Written daemonLetters l.permute ws os args) (hsil : ¬ given os ['s']) (hlen : args.length < 65536) (es : List Event)
    (hes : ∀ e ∈ es, SaneEvent e) (d : Daemon) (hr : daemonRun c es d0 = .ok d) (k : Kernel) (hk : Sane k) (m : Media) (now : Int) (addrs : List IfAddr)
    (ha : k.ifaddrs = some addrs) (hus : if args = [] then usables k addrs ≠ [] else ∀ name ∈ args, ∃ e ∈ usables k addrs, e.name = name ∧ e.kind ≠ -1)
    (hul : (usables k addrs).length < 65536) (hv : ((usables k addrs).filter (fun e => e.kind = -1)).length ≤ 10) :
    ∃ d' new, daemonStep c d (.timer k m now) = .ok d' ∧ d'.tx = d.tx ++ new ∧
      (NoOverlap c k (usables k addrs) → (new.map (fun t => (t.index, t.proto))).Nodup) ∧
      ∀ i p, (i, p) ∈ new.map (fun t => (t.index, t.proto)) ↔
        TypedDue os args k (usables k addrs) (fun i => ((withIndex d.child.netifs i).map (·.protos)).getD 0) i p := by
  obtain ⟨os', args', hw', hok, hst⟩ := (C98_typed l prog h e ws ht c pwd d0).mp hs
  obtain ⟨rfl, rfl⟩ := C98_unique hw hw'
  obtain ⟨h1, -, -, h4, h5⟩ := C49_started h e he os hok args c pwd d0 hst
  obtain ⟨s, hm, hc, -, -⟩ := startUp_split hst
  have ho := C35_options h os args s pwd hm
  obtain ⟨v1, v2, -⟩ := C35_values h os args s pwd hm
  rw [← hc] at v1 v2
  have hopt : c.opts = s.opts := by rw [hc]; rfl
  obtain ⟨q1, q2, q3, q4, hsys⟩ := C49_kept c es d0 d hr
  obtain ⟨d', new, r1, r2, r3, r4⟩ := C23_round_partial c (by rw [hopt]; exact ho.2.1.mpr hsil) d0 h1 es hes d hr k m now addrs
    ⟨hk, ha, by rw [v1]; exact hus, hul, by rw [v1]; exact hlen, hv, by rw [hsys]; exact h4, h5⟩
  refine ⟨d', new, r1, r2, r3, fun i p => (r4 i p).trans ?_⟩
  have hal : ∀ e : Link, linkAllowed c e ↔ AskedFor os e := by
    intro e
    unfold linkAllowed AskedFor
    rw [hopt, v2, ho.2.2.2.2.2.2.2.2.2.1, ho.2.2.2.2.2.2.2.2.2.2.1]
    simp only [List.mem_map, not_exists, not_and, ne_eq, eq_comm]
  have hen : ∀ p, c.enabled p = true ↔ ∃ ch, protoLetter p = some ch ∧ given os [ch] := by
    intro p
    rw [hc]
    exact ho.2.2.2.2.2.2.2.2.2.2.2.2.2.2.1 p
  unfold Due TypedDue Chosen SendsOn
  simp only [hal, hen, v1]
  constructor
  · rintro ⟨e, he, g1, g2, s, hs, g3, g4, g5, g6⟩
    exact ⟨e, he, g2, g1, s, hs, g3, g4, by rw [← g3]; exact g5, g6⟩
  · rintro ⟨e, he, g2, g1, s, hs, g3, g4, g5, g6⟩
    exact ⟨e, he, g1, g2, s, hs, g3, g4, by rw [← g3] at g5; exact g5, g6⟩

/-- With `-s` among the words, nothing is ever sent; without `-a`, only with protocols whose letters are among them. -/
theorem C98_only (l : Libc) (prog : Bytes) (h : Host) (e : SysEnv) (he : SysEnvOk e) (ws : List Bytes) (ht : ∀ w ∈ ws, ∀ b ∈ w, b ≠ (0 : UInt8))
    (c : Conf) (pwd : Option (Nat × Nat)) (d0 : Daemon) (hs : typedStart l prog h e ws = .ok (c, pwd, d0)) (os : List Opt) (args : List Bytes)
    (hw : Written daemonLetters l.permute ws os args) (es : List Event) (d : Daemon) (hr : daemonRun c es d0 = .ok d) :
    (given os ['s'] → d.tx = []) ∧ (¬ given os ['a'] → ∀ t ∈ d.tx, ∃ ch, protoLetter t.proto = some ch ∧ given os [ch]) := by
  obtain ⟨os', args', hw', hok, hst⟩ := (C98_typed l prog h e ws ht c pwd d0).mp hs
  obtain ⟨rfl, rfl⟩ := C98_unique hw hw'
  obtain ⟨h1, -, h3, -, -⟩ := C49_started h e he os hok args c pwd d0 hst
  obtain ⟨s, hm, hc, -, -⟩ := startUp_split hst
  subst hc
  exact ⟨fun hg => (C35_silent h os args s pwd hm hg d0 h1 es d hr).trans h3, fun hg => C35_asked h os args s pwd hm hg d0 h1 h3 es d hr⟩

/-- What a client in its usual mode prints. -/
theorem table_out (l : Libc) (w : CliWorld) (ix : Bytes → Option Nat) (ws : List Bytes) (os : List Opt) (args : List Bytes)
    (hw : Written clientLetters l.permute ws os args) (hf : w.first = 0) (hc : w.connect = 0) (now : Int) (hn : w.time = .ok now) (cc : CliConf)
    (ho : cliOptions (os.map (·.ch)) (args.map ix) = some cc) (hm : cc.mode = .table) (r : List (List Bytes × Option Shown))
    (hr : clientLoop cc now {} (w.input.map (·.2)) = .ok r) :
    clientMain l w ix ws = { out := cliHeader (cliWidths w.cols) ++ (r.filterMap (·.2)).flatMap (tableLine (cliWidths w.cols)) } := by
  rw [(C97_client l w ix ws).1 os args hw]
  unfold cliMain
  have h1 : ∃ x, connOpen w.first w.second = some x := by
    unfold connOpen
    rw [hf]
    simp
  obtain ⟨x, h1⟩ := h1
  simp only [ho, h1, hc, hn]
  unfold cliShowAll
  simp only [hm, hr, cliText]
  rfl

/-- What words that leave the output a table ask the client for. -/
theorem typed_client {l : Libc} {words : List Bytes} {opts : List Opt} {cargs : List Bytes} {ix : Bytes → Option Nat} {p : Proto} {j : Nat}
    (hwr : Written clientLetters l.permute words opts cargs) (hmode : ¬ given opts ['b', 'd', 'f', 'p', 'o', 'h'])
    (hask : ClientAsks opts ix cargs j p) (hargs : ∀ a ∈ cargs, (ix a).isSome) :
    ∃ cc, cliOptions (opts.map (·.ch)) (cargs.map ix) = some cc ∧ cc.mode = .table ∧ cc.once = false ∧ cc.protos.testBit p.num = true ∧
      (∀ l, cc.indexes = some l → j ∈ l) ∧ ∀ (x : Entry) (q : Proto), x.proto = q.num → asked cc x = true → ClientAsks opts ix cargs x.index q := by
  obtain ⟨hproto, hj⟩ := hask
  have hno : ∀ o ∈ opts, o.ch ∉ ['b', 'd', 'f', 'p', 'o', 'h'] := fun o ho hc => hmode ⟨o, ho, hc⟩
  have hflag : ∀ ch ∈ opts.map (·.ch), ch ∈ ['L', 'C', 'E', 'F', 'N', 'v'] := by
    intro ch hch
    obtain ⟨o, ho, rfl⟩ := List.mem_map.mp hch
    have h1 := written_letters hwr o ho
    have h2 := hno o ho
    simp [clientLetters] at h1 h2 ⊢
    grind
  obtain ⟨js, hjs⟩ : ∃ js : List Nat, cargs.map ix = js.map some := by
    clear hj hwr
    induction cargs with
    | nil => exact ⟨[], rfl⟩
    | cons a r ih =>
      obtain ⟨js, hjs⟩ := ih (fun x hx => hargs x (List.mem_cons_of_mem _ hx))
      obtain ⟨i, hi⟩ := Option.isSome_iff_exists.mp (hargs a (List.mem_cons_self ..))
      exact ⟨i :: js, by rw [List.map_cons, List.map_cons, hi, hjs]⟩
  obtain ⟨cc, hcc⟩ := C44_accepted (opts.map (·.ch)) js (fun ch hch => by
      have := hflag ch hch
      simp at this ⊢
      grind) (by
      have : (opts.map (·.ch)).count 'p' = 0 := List.count_eq_zero.mpr (fun hp => by have := hflag _ hp; simp at this)
      omega)
  rw [← hjs] at hcc
  obtain ⟨-, -, hps, hm, honce, hnil, hix⟩ := C44_options _ _ cc hcc
  have hcm : cc.mode = .table := by
    rw [hm, List.filterMap_eq_nil_iff.mpr]
    · rfl
    · intro ch hch
      have := hflag ch hch
      simp at this
      rcases this with rfl | rfl | rfl | rfl | rfl | rfl <;> rfl
  have hco : cc.once = false := by
    cases ho : cc.once with
    | false => rfl
    | true => have := hflag _ (honce.mp ho); simp at this
  have hcp : cc.protos.testBit p.num = true := by
    refine (hps p.num (by cases p <;> decide)).mpr ?_
    rcases hproto with hg | ⟨ch, hl, hg⟩
    · right
      intro ch hch
      have h1 := hflag ch hch
      obtain ⟨o, ho, rfl⟩ := List.mem_map.mp hch
      have h2 : o.ch ∉ ['L', 'C', 'E', 'F', 'N'] := fun hx => hg ⟨o, ho, hx⟩
      simp at h1 h2
      have : o.ch = 'v' := by grind
      rw [this]
      rfl
    · left
      obtain ⟨o, ho, hx⟩ := hg
      simp at hx
      refine ⟨ch, List.mem_map.mpr ⟨o, ho, hx⟩, ?_⟩
      revert hl
      cases p <;> simp [protoLetter, Proto.num] <;> rintro rfl <;> rfl
  have hci : ∀ l, cc.indexes = some l → j ∈ l := by
    intro l hl
    by_cases ha : cargs = []
    · rw [hnil (by rw [ha]; rfl)] at hl
      cases hl
    · obtain ⟨l', hl', hmap⟩ := hix (by simpa using ha)
      rw [hl'] at hl
      cases hl
      obtain ⟨a, ham, haj⟩ := hj ha
      have : some j ∈ cargs.map ix := List.mem_map.mpr ⟨a, ham, haj⟩
      rw [hmap] at this
      simpa using this
  refine ⟨cc, hcc, hcm, hco, hcp, hci, fun x q hx ha => ?_⟩
  unfold asked at ha
  rw [Bool.and_eq_true, hx] at ha
  obtain ⟨h1, h2⟩ := ha
  constructor
  · by_cases hg : given opts ['L', 'C', 'E', 'F', 'N']
    · right
      obtain ⟨o, ho, hl⟩ := hg
      rcases (hps q.num (by cases q <;> decide)).mp h2 with ⟨ch, hch, hb⟩ | hb
      · obtain ⟨o', ho', rfl⟩ := List.mem_map.mp hch
        have hf := hflag _ hch
        refine ⟨o'.ch, ?_, o', ho', by simp⟩
        simp at hf
        generalize o'.ch = ch at hf hb
        rcases hf with rfl | rfl | rfl | rfl | rfl | rfl <;> revert hb <;> cases q <;> simp [protoBit, Proto.num, protoLetter]
      · have := hb o.ch (List.mem_map.mpr ⟨o, ho, rfl⟩)
        simp at hl
        generalize o.ch = ch at hl this
        rcases hl with rfl | rfl | rfl | rfl | rfl <;> revert this <;> simp [protoBit]
    · exact .inl hg
  · intro hne
    obtain ⟨l', hl', hmap⟩ := hix (by simpa using hne)
    rw [hl'] at h1
    have : some x.index ∈ cargs.map ix := by
      rw [hmap]
      exact List.mem_map.mpr ⟨_, by simpa using h1, rfl⟩
    exact List.mem_map.mp this

/-- On one system a daemon is started with some command line, and announces itself in a round or after a report about a link.  On another system a daemon is
started with some command line, hears the frame, and keeps running, whatever else it hears and does.  Then a user of the second system who types `ladvdc`,
with options that leave the output a table and with protocols and interfaces that include those of the frame, sees a line for the first system: the
interface, protocol and remaining lifetime, and names that read back as the first system's.  As in C71, EDP and tables with expired entries are missing. -/
theorem C98_displayed_partial
    -- the first system
    (l : Libc) (prog : Bytes) (h : Host) (e : SysEnv) (he : SysEnvOk e) (ws : List Bytes) (ht : ∀ w ∈ ws, ∀ b ∈ w, b ≠ (0 : UInt8)) (c : Conf)
    (pwd : Option (Nat × Nat)) (d0 : Daemon) (hs : typedStart l prog h e ws = .ok (c, pwd, d0)) (es : List Event) (hes : ∀ e ∈ es, SaneEvent e)
    (d : Daemon) (hr : daemonRun c es d0 = .ok d) (k : Kernel) (hk : Sane k) (m : Media) (ev : Event)
    (hev : (∃ now, ev = .timer k m now) ∨ ∃ i, ev = .link k m true true i) (d' : Daemon) (hst : daemonStep c d ev = .ok d')
    -- the second system
    (l2 : Libc) (prog2 : Bytes) (h2 : Host) (e2 : SysEnv) (he2 : SysEnvOk e2) (ws2 : List Bytes) (ht2 : ∀ w ∈ ws2, ∀ b ∈ w, b ≠ (0 : UInt8)) (c2 : Conf)
    (pwd2 : Option (Nat × Nat)) (b0 : Daemon) (hs2 : typedStart l2 prog2 h2 e2 ws2 = .ok (c2, pwd2, b0)) (es1 : List Event)
    (hes1 : ∀ e ∈ es1, SaneEvent e ∧ Captured e) (b : Daemon) (hr1 : daemonRun c2 es1 b0 = .ok b) :
    ∃ new, d'.tx = d.tx ++ new ∧ ∀ t ∈ new, t.proto ≠ .edp →
      ∃ n ∈ (netifFetch c.opts c.names c.mgmt k ⟨d.child.netifs, d.sys, d.mnetif, d.closed⟩).1.netifs, n.index = t.index ∧
      ∃ src, (src = n.hwaddr ∨ src = [0, 0, 0, 0, 0, 0]) ∧
      ∀ (j : Nat) (subif : Netif), b.child.netifs.find? (fun x => x.index == j) = some subif → (∀ x ∈ b.child.netifs, x.hwaddr ≠ src) →
      ∃ fwd, Accepts protoFilter (t.msg.take t.len) ∧ parentRecv j [t.msg.take t.len] = .ok [fwd] ∧
      ∀ (t0 : Int) (es2 : List Event),
        (∀ e ∈ es2, SaneEvent e ∧ Captured e ∧ Undisturbed (j, t.proto.num, t.proto.dst, src) (t0 + 180) e) →
      ∀ b1, daemonRun c2 (es1 ++ .recv (some t0) (rawOf fwd) :: es2) b0 = .ok b1 →
      ∀ (q : Nat), b1.child.queue.length ≤ q →
      ∃ b2, daemonRun c2 [.accept, .write b1.child.nextId (some (List.replicate q .ok))] b1 = .ok b2 ∧
      -- the client
      ∀ (w : CliWorld) (ix : Bytes → Option Nat) (words : List Bytes) (opts : List Opt) (args : List Bytes) (now : Int),
        Written clientLetters l2.permute words opts args → ¬ given opts ['b', 'd', 'f', 'p', 'o', 'h'] →
        ClientAsks opts ix args j t.proto → (∀ a ∈ args, (ix a).isSome) →
        w.first = 0 → w.connect = 0 → w.time = .ok now → w.input.map (·.2) = (delivered b2.child b1.child.nextId).map CliIn.ofEntry →
        t0 ≤ now → now ≤ t0 + 180 → 
        (∀ x ∈ b1.child.queue, ∀ p, x.proto = Proto.num p → ClientAsks opts ix args x.index p → now - x.received ≤ x.ttl ∧ x.received ≤ now) →
      (clientMain l2 w ix words).how = .ok 0 ∧ (clientMain l2 w ix words).err = [] ∧
      ∃ pre post s, (clientMain l2 w ix words).out = cliHeader (cliWidths w.cols) ++ pre ++ tableLine (cliWidths w.cols) s ++ post ∧
        s.index = j ∧ s.name = subif.name ∧ s.proto = t.proto.num ∧ s.ttl = 180 ∧ (s.hold : Int) = 180 - (now - t0) ∧
        (t.proto ≠ .ndp → Recovers s.peer.hostname d0.sys.hostname ∧ Recovers s.peer.portname n.name) := by
  obtain ⟨os, args, -, hok, hstart⟩ := (C98_typed l prog h e ws ht c pwd d0).mp hs
  obtain ⟨os2, args2, -, hok2, hstart2⟩ := (C98_typed l2 prog2 h2 e2 ws2 ht2 c2 pwd2 b0).mp hs2
  obtain ⟨new, hnew, hall⟩ := C71_displayed_partial h e he os hok args c pwd d0 hstart es hes d hr k hk m ev hev d' hst h2 e2 he2 os2 hok2 args2 c2 pwd2 b0
    hstart2 es1 hes1 b hr1
  refine ⟨new, hnew, fun t htn hedp => ?_⟩
  have hlen : t.len ≤ 1518 ∧ (t.msg.take t.len).length = t.len := by
    obtain ⟨new', hn', hf'⟩ := announced c (booted he hok hstart) es hes d hr k hk m ev hev d' hst
    obtain rfl : new' = new := List.append_cancel_left (hn'.symm.trans hnew)
    obtain ⟨_, _, _, _, _, _, _, _, _, _, _, _, _, hw⟩ := hf' t htn
    exact ⟨by rw [hw.len]; exact hw.max, hw.length⟩
  obtain ⟨n, hn, hidx, src, hsrc, hlink⟩ := hall t htn hedp
  refine ⟨n, hn, hidx, src, hsrc, fun j subif hsub hown => ?_⟩
  obtain ⟨fwd, hacc, hfwd, hrest⟩ := hlink j subif hsub hown
  refine ⟨fwd, hacc, hfwd, fun t0 es2 hes2 b1 hb1 q hq => ?_⟩
  obtain ⟨b2, hb2, hcli⟩ := hrest t0 es2 hes2 b1 hb1 q hq
  refine ⟨b2, hb2, ?_⟩
  intro w ix words opts cargs now hwr hmode hask hargs hf hc htime hin hnow1 hnow2 hfresh
  obtain ⟨cc, hcc, hcm, hco, hcp, hci, hall⟩ := typed_client hwr hmode hask hargs
  have hstored := (stored_run (startUp_child hstart2) (by
    intro e he
    rcases List.mem_append.mp he with he | he
    · exact (hes1 e he).2
    · rcases List.mem_cons.mp he with rfl | he
      · exact ⟨j, [t.msg.take t.len], [fwd], fwd, by
          intro f hf
          rw [List.mem_singleton.mp hf]
          exact hacc, by
          rw [List.map_cons, List.map_nil, List.take_of_length_le (by rw [hlen.2]; exact hlen.1)]
          exact hfwd, List.mem_singleton.mpr rfl, rfl⟩
      · exact (hes2 e he).2.1) hb1).1
  obtain ⟨r, hrun, s, hs, h1, h2, h3, h4, h5, -, h6, -⟩ := hcli cc now hco (by rw [hcm]; decide) hci hcp hnow1 hnow2 (fun x hx ha => by
    obtain ⟨p, m, n, hp, -⟩ := (hstored x hx).dec.dec
    exact hfresh x hx p (Proto.ofNum_num hp) (hall x p (Proto.ofNum_num hp) ha))
  rw [table_out l2 w ix words opts cargs hwr hf hc now htime cc hcc hcm r (by rw [hin]; exact hrun)]
  obtain ⟨pre, post, hsplit⟩ := List.append_of_mem hs
  refine ⟨rfl, rfl, pre.flatMap (tableLine (cliWidths w.cols)), post.flatMap (tableLine (cliWidths w.cols)), s, ?_, h1, h2, h3, h4, h5, h6⟩
  rw [hsplit]
  simp [List.append_assoc]

/-! ## Sample -/

/-- A host where every user exists. -/
def typedHost : Host := { user := fun _ => some (1, 1) }

/-- `ladvd -aLC` on one system and `ladvd -a -F` on another, where a user then types `ladvdc -L em0`: what the terminal of 80 columns shows. -/
def typedConversation : Option Bytes :=
  match typedStart glibcSample (lit "ladvd") typedHost sysSample [lit "-aLC"], typedStart glibcSample (lit "ladvd") typedHost sysSample [lit "-a", lit "-F"] with
  | .ok (c, _, d0), .ok (c2, _, b0) =>
    match daemonRun c [.timer sampleKernel {} 0] d0 with
    | .ok d =>
      let frames := (d.tx.take 2).filterMap (fun t =>
        match parentRecv 9 [t.msg.take t.len] with | .ok [fwd] => some (Event.recv (some 1000) (rawOf fwd)) | _ => none)
      match daemonRun c2 ([.timer otherKernel {} 990] ++ frames ++ [.timer otherKernel {} 1020]) b0 with
      | .ok b1 =>
        match daemonRun c2 [.accept, .write b1.child.nextId (some (List.replicate 3 .ok))] b1 with
        | .ok b2 =>
          let said := (delivered b2.child b1.child.nextId).map (fun x => ((1030 : Int), CliIn.ofEntry x))
          let w : CliWorld := { clientSample with cols := none, first := 0, connect := 0, time := .ok 1030, input := said }
          let x := clientMain glibcSample w (fun n => if n = lit "em0" then some 9 else none) [lit "-L", lit "em0"]
          if x.how = .ok 0 then some (x.out.drop (cliHeader (cliWidths none)).length) else none
        | _ => none
      | _ => none
    | _ => none
  | _, _ => none

/-- The user sees the first system, with 150 of the 180 seconds left. -/
example : typedConversation = some (lit "sw.example.org       em0           LLDP    150          BR            eth1\n") := by
  decide +kernel

/-- The words meet the conditions of the theorems. -/
example : (∀ w ∈ [lit "-aLC"], ∀ b ∈ w, b ≠ 0) ∧ Written daemonLetters true [lit "-aLC"] [⟨'a', []⟩, ⟨'L', []⟩, ⟨'C', []⟩] [] ∧
    Written clientLetters true [lit "-L", lit "em0"] [⟨'L', []⟩] [lit "em0"] ∧
    AskedFor [⟨'a', []⟩, ⟨'e', lit "eth1"⟩] ⟨2, lit "eth0", 0⟩ ∧ ¬ AskedFor [⟨'a', []⟩, ⟨'e', lit "eth0"⟩] ⟨2, lit "eth0", 0⟩ := by
  refine ⟨by decide +kernel, ((C97_written glibcSample _ _ _).1).mp (by decide +kernel), ((C97_written glibcSample _ _ _).2).mp (by decide +kernel), ?_, ?_⟩ <;>
    decide +kernel

end Ladvd.Props
