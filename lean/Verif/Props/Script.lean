import Verif.Props.Stale
/-!
# C104: what a script gets from `ladvdc -b`
-/

namespace Ladvd.Props

open Ladvd Spec

/-- What the client writes with `-b`. -/
theorem batch_out (l : Libc) (w : CliWorld) (ix : Bytes → Option Nat) (ws : List Bytes) (os : List Opt) (args : List Bytes)
    (hw : Written clientLetters l.permute ws os args) (hf : w.first = 0) (hc : w.connect = 0) (now : Int) (hn : w.time = .ok now) (cc : CliConf)
    (ho : cliOptions (os.map (·.ch)) (args.map ix) = some cc) (hm : cc.mode = .batch) (r : List (List Bytes × Option Shown))
    (hr : clientLoop cc now {} (w.input.map (·.2)) = .ok r) :
    clientMain l w ix ws = { out := batchAll w.ntop6 0 (r.filterMap (·.2)) } := by
  rw [(C97_client l w ix ws).1 os args hw]
  unfold cliMain
  have h1 : ∃ x, connOpen w.first w.second = some x := by
    unfold connOpen
    rw [hf]
    simp
  obtain ⟨x, h1⟩ := h1
  simp only [ho, h1, hc, hn]
  unfold cliShowAll
  simp only [hm, hr, cliText]
  rfl

/-- What words with `-b` ask the client for. -/
theorem typed_script {l : Libc} {words : List Bytes} {opts : List Opt} {cargs : List Bytes} {ix : Bytes → Option Nat} {p : Proto} {j : Nat}
    (hwr : Written clientLetters l.permute words opts cargs) (hb : given opts ['b']) (hmode : ¬ given opts ['d', 'f', 'p', 'o', 'h'])
    (hask : ClientAsks opts ix cargs j p) (hargs : ∀ a ∈ cargs, (ix a).isSome) :
    ∃ cc, cliOptions (opts.map (·.ch)) (cargs.map ix) = some cc ∧ cc.mode = .batch ∧ cc.once = false ∧ cc.protos.testBit p.num = true ∧
      (∀ l, cc.indexes = some l → j ∈ l) ∧ ∀ (x : Entry) (q : Proto), x.proto = q.num → asked cc x = true → ClientAsks opts ix cargs x.index q := by
  obtain ⟨hproto, hj⟩ := hask
  have hno : ∀ o ∈ opts, o.ch ∉ ['d', 'f', 'p', 'o', 'h'] := fun o ho hc => hmode ⟨o, ho, hc⟩
  have hflag : ∀ ch ∈ opts.map (·.ch), ch ∈ ['L', 'C', 'E', 'F', 'N', 'v', 'b'] := by
    intro ch hch
    obtain ⟨o, ho, rfl⟩ := List.mem_map.mp hch
    have h1 := written_letters hwr o ho
    have h2 := hno o ho
    simp [clientLetters] at h1 h2 ⊢
    grind
  obtain ⟨js, hjs⟩ : ∃ js : List Nat, cargs.map ix = js.map some := by
    clear hj hwr
    induction cargs with
    | nil => exact ⟨[], rfl⟩
    | cons a r ih =>
      obtain ⟨js, hjs⟩ := ih (fun x hx => hargs x (List.mem_cons_of_mem _ hx))
      obtain ⟨i, hi⟩ := Option.isSome_iff_exists.mp (hargs a (List.mem_cons_self ..))
      exact ⟨i :: js, by rw [List.map_cons, List.map_cons, hi, hjs]⟩
  obtain ⟨cc, hcc⟩ := C44_accepted (opts.map (·.ch)) js (fun ch hch => by
      have := hflag ch hch
      simp at this ⊢
      grind) (by
      have : (opts.map (·.ch)).count 'p' = 0 := List.count_eq_zero.mpr (fun hp => by have := hflag _ hp; simp at this)
      omega)
  rw [← hjs] at hcc
  obtain ⟨-, -, hps, hm, honce, hnil, hix⟩ := C44_options _ _ cc hcc
  have hcm : cc.mode = .batch := by
    rw [hm]
    have hall : ∀ m ∈ (opts.map (·.ch)).filterMap modeOf, m = .batch := by
      intro m hmm
      obtain ⟨ch, hch, hx⟩ := List.mem_filterMap.mp hmm
      have := hflag ch hch
      simp at this
      rcases this with rfl | rfl | rfl | rfl | rfl | rfl | rfl <;> simp [modeOf] at hx
      exact hx.symm
    have hsome : .batch ∈ (opts.map (·.ch)).filterMap modeOf := by
      obtain ⟨o, ho, hx⟩ := hb
      simp at hx
      exact List.mem_filterMap.mpr ⟨'b', List.mem_map.mpr ⟨o, ho, hx⟩, rfl⟩
    cases hl : ((opts.map (·.ch)).filterMap modeOf).getLast? with
    | none => rw [List.getLast?_eq_none_iff.mp hl] at hsome; cases hsome
    | some m => exact hall m (List.mem_of_getLast? hl)
  have hco : cc.once = false := by
    cases ho : cc.once with
    | false => rfl
    | true => have := hflag _ (honce.mp ho); simp at this
  have hcp : cc.protos.testBit p.num = true := by
    refine (hps p.num (by cases p <;> decide)).mpr ?_
    rcases hproto with hg | ⟨ch, hl, hg⟩
    · right
      intro ch hch
      have h1 := hflag ch hch
      obtain ⟨o, ho, rfl⟩ := List.mem_map.mp hch
      have h2 : o.ch ∉ ['L', 'C', 'E', 'F', 'N'] := fun hx => hg ⟨o, ho, hx⟩
      simp at h1 h2
      have : o.ch = 'v' ∨ o.ch = 'b' := by grind
      rcases this with this | this <;> rw [this] <;> rfl
    · left
      obtain ⟨o, ho, hx⟩ := hg
      simp at hx
      refine ⟨ch, List.mem_map.mpr ⟨o, ho, hx⟩, ?_⟩
      revert hl
      cases p <;> simp [protoLetter, Proto.num] <;> rintro rfl <;> rfl
  have hci : ∀ l, cc.indexes = some l → j ∈ l := by
    intro l hl
    by_cases ha : cargs = []
    · rw [hnil (by rw [ha]; rfl)] at hl
      cases hl
    · obtain ⟨l', hl', hmap⟩ := hix (by simpa using ha)
      rw [hl'] at hl
      cases hl
      obtain ⟨a, ham, haj⟩ := hj ha
      have : some j ∈ cargs.map ix := List.mem_map.mpr ⟨a, ham, haj⟩
      rw [hmap] at this
      simpa using this
  refine ⟨cc, hcc, hcm, hco, hcp, hci, fun x q hx ha => ?_⟩
  unfold asked at ha
  rw [Bool.and_eq_true, hx] at ha
  obtain ⟨h1, h2⟩ := ha
  constructor
  · by_cases hg : given opts ['L', 'C', 'E', 'F', 'N']
    · right
      obtain ⟨o, ho, hl⟩ := hg
      rcases (hps q.num (by cases q <;> decide)).mp h2 with ⟨ch, hch, hb⟩ | hb
      · obtain ⟨o', ho', rfl⟩ := List.mem_map.mp hch
        have hf := hflag _ hch
        refine ⟨o'.ch, ?_, o', ho', by simp⟩
        simp at hf
        generalize o'.ch = ch at hf hb
        rcases hf with rfl | rfl | rfl | rfl | rfl | rfl | rfl <;> revert hb <;> cases q <;> simp [protoBit, Proto.num, protoLetter]
      · have := hb o.ch (List.mem_map.mpr ⟨o, ho, rfl⟩)
        simp at hl
        generalize o.ch = ch at hl this
        rcases hl with rfl | rfl | rfl | rfl | rfl <;> revert this <;> simp [protoBit]
    · exact .inl hg
  · intro hne
    obtain ⟨l', hl', hmap⟩ := hix (by simpa using hne)
    rw [hl'] at h1
    have : some x.index ∈ cargs.map ix := by
      rw [hmap]
      exact List.mem_map.mpr ⟨_, by simpa using h1, rfl⟩
    exact List.mem_map.mp this

/-- The entries asked for, with `-b`. -/
theorem wanted_script {opts : List Opt} {args : List Bytes} {ix : Bytes → Option Nat} {l : Libc} {words : List Bytes}
    (hwr : Written clientLetters l.permute words opts args) (hb : given opts ['b']) (hmode : ¬ given opts ['d', 'f', 'p', 'o', 'h']) (hargs : ∀ a ∈ args, (ix a).isSome) :
    ∃ cc, cliOptions (opts.map (·.ch)) (args.map ix) = some cc ∧ cc.mode = .batch ∧ cc.once = false ∧
      ∀ x, Stored x → (asked cc x = true ↔ EntryAsked opts ix args x) := by
  obtain ⟨i, p, hask⟩ := asks_something (opts := opts) hargs
  obtain ⟨cc, hcc, hcm, hco, -, -, hall⟩ := typed_script hwr hb hmode hask hargs
  refine ⟨cc, hcc, hcm, hco, fun x hx => ⟨fun ha => ?_, fun ⟨p, hp, ha⟩ => ?_⟩⟩
  · obtain ⟨p, m, n, hp, -⟩ := hx.dec.dec
    exact ⟨p, Proto.ofNum_num hp, hall x p (Proto.ofNum_num hp) ha⟩
  · obtain ⟨cc', hcc', -, -, hcp, hci, -⟩ := typed_script hwr hb hmode ha hargs
    rw [hcc] at hcc'
    obtain rfl := Option.some.inj hcc'
    unfold asked
    rw [Bool.and_eq_true, hp]
    refine ⟨?_, hcp⟩
    cases hcx : cc.indexes with
    | none => rfl
    | some l => exact List.contains_iff_mem.mpr (hci l hcx)

/-- A process has run for a while, and a script evaluates the output of `ladvdc -b`, with any protocols and interfaces.  Then the client ends with status 0 and
writes nothing else, and the shell makes exactly these assignments: for some of the entries, in the order of the table and numbered from zero, one for each of
twelve values.  Entries not asked for and expired ones are not among them.  An entry asked for that has not expired is, with the values of its frame, unless the
entry asked for directly before has expired.  Assumed as in C21: the names of interfaces and the IPv6 addresses formatted by libc have no single quote. -/
theorem C104_script {c : Conf} {d0 d : Daemon} (h0 : d0.child = {}) {es : List Event} (hc : ∀ e ∈ es, Captured e) (h : daemonRun c es d0 = .ok d) (q : Nat)
    (hq : d.child.queue.length ≤ q) (hlt : d.child.queue.length < 2 ^ 32) (hname : ∀ x ∈ d.child.queue, ∀ b ∈ x.name, b ≠ 0x27) :
    ∃ ch, cliWrite d.child.nextId (some (List.replicate q .ok)) (cliAccept d.child) = .ok ch ∧
      ∀ (l : Libc) (w : CliWorld) (ix : Bytes → Option Nat) (words : List Bytes) (opts : List Opt) (args : List Bytes) (now : Int),
        Written clientLetters l.permute words opts args → given opts ['b'] → ¬ given opts ['d', 'f', 'p', 'o', 'h'] → (∀ a ∈ args, (ix a).isSome) →
        (∀ a, ∀ b ∈ w.ntop6 a, b ≠ 0x27) →
        w.first = 0 → w.connect = 0 → w.time = .ok now → w.input.map (·.2) = (delivered ch d.child.nextId).map CliIn.ofEntry →
      (clientMain l w ix words).how = .ok 0 ∧ (clientMain l w ix words).err = [] ∧
      ∃ shown : List (Option Shown), shown.length = d.child.queue.length ∧
        shellRun (clientMain l w ix words).out = some (batchVars w.ntop6 (shown.filterMap id)) ∧
        ∀ pre x post, d.child.queue = pre ++ x :: post → ∃ s, shown[pre.length]? = some s ∧
          (s ≠ none → EntryAsked opts ix args x ∧ now - x.received ≤ x.ttl) ∧
          (∀ y, s = some y → y.index = x.index ∧ y.name = x.name ∧ y.ttl = x.ttl ∧ (x.received ≤ now → y.hold = (x.ttl - (now - x.received)).toNat) ∧
            y.frame = x.msg.take x.len) ∧
          (EntryAsked opts ix args x → now - x.received ≤ x.ttl → x.received ≤ now →
            (∀ y, DirectlyBefore (EntryAsked opts ix args) y pre → now - y.received ≤ y.ttl) → s = some (display now x)) := by
  obtain ⟨ch, hch, hdel, hst⟩ := serves h0 hc h q hq
  refine ⟨ch, hch, ?_⟩
  intro l w ix words opts args now hwr hb hmode hargs h6 hf hcn htime hin
  obtain ⟨cc, hcc, hcm, hco, hiff⟩ := wanted_script hwr hb hmode hargs
  obtain ⟨shown, hloop, hlen, hall⟩ := clientLoop_any (c := cc) (now := now) hco (by rw [hcm]; decide) d.child.queue {} hst
  have hshell := C21_batch w.ntop6 h6 cc now (d.child.queue.map CliIn.ofEntry) (by
      intro y hy
      obtain ⟨z, hz, rfl⟩ := List.mem_map.mp hy
      exact (hst z hz).dec.msg) (by
      intro y hy
      obtain ⟨z, hz, rfl⟩ := List.mem_map.mp hy
      exact hname z hz) _ hloop (by rw [List.length_map, hlen]; exact hlt)
  have hsh : (shown.map (fun s => (([] : List Bytes), s))).filterMap (·.2) = shown.filterMap id := by
    simp only [List.filterMap_map]
    rfl
  rw [batch_out l w ix words opts args hwr hf hcn now htime cc hcc hcm _ (by rw [hin, hdel]; exact hloop)]
  refine ⟨rfl, rfl, shown, hlen, ?_, ?_⟩
  · rw [hsh] at hshell
    show shellRun (batchAll w.ntop6 0 ((shown.map (fun s => (([] : List Bytes), s))).filterMap (·.2))) = _
    rw [hsh]
    exact hshell
  · intro pre x post hsplit
    have hmem : ∀ z ∈ pre, Stored z := fun z hz => hst z (by rw [hsplit]; exact List.mem_append_left _ hz)
    have hx := hst x (by rw [hsplit]; exact List.mem_append_right _ List.mem_cons_self)
    obtain ⟨s, hs, hout, hskip, hshow⟩ := hall pre x post hsplit
    refine ⟨s, hs, fun hne => ⟨?_, hout.fresh hne⟩, hout.same, fun ha hfr hr hlast => hshow ((hiff x hx).mpr ha) hfr hr (.inl rfl) ?_⟩
    · rw [← hiff x hx]
      cases ha : asked cc x with
      | true => rfl
      | false => exact absurd (hskip ha) hne
    · intro pre1 y mid hp hy hmid
      refine hlast y ⟨pre1, mid, hp, (hiff y (hmem y (by rw [hp]; simp))).mp hy, fun z hz hw => ?_⟩
      have := (hiff z (hmem z (by rw [hp]; exact List.mem_append_right _ (List.mem_cons_of_mem _ hz)))).mpr hw
      rw [hmid z hz] at this
      cases this

/-- So the script finds the neighbour: there is a number such that the twelve variables with that number have the values of the entry. -/
theorem C104_found {c : Conf} {d0 d : Daemon} (h0 : d0.child = {}) {es : List Event} (hc : ∀ e ∈ es, Captured e) (h : daemonRun c es d0 = .ok d)
    (hlt : d.child.queue.length < 2 ^ 32) (hname : ∀ x ∈ d.child.queue, ∀ b ∈ x.name, b ≠ 0x27) (ch : Child)
    (hch : cliWrite d.child.nextId (some (List.replicate d.child.queue.length .ok)) (cliAccept d.child) = .ok ch)
    (l : Libc) (w : CliWorld) (ix : Bytes → Option Nat) (words : List Bytes) (opts : List Opt) (args : List Bytes) (now : Int)
    (hwr : Written clientLetters l.permute words opts args) (hb : given opts ['b']) (hmode : ¬ given opts ['d', 'f', 'p', 'o', 'h'])
    (hargs : ∀ a ∈ args, (ix a).isSome) (h6 : ∀ a, ∀ b ∈ w.ntop6 a, b ≠ 0x27) (hf : w.first = 0) (hcn : w.connect = 0) (htime : w.time = .ok now)
    (hin : w.input.map (·.2) = (delivered ch d.child.nextId).map CliIn.ofEntry)
    (pre post : List Entry) (x : Entry) (hx : d.child.queue = pre ++ x :: post) (ha : EntryAsked opts ix args x) (hfr : now - x.received ≤ x.ttl)
    (hr : x.received ≤ now) (hlast : ∀ y, DirectlyBefore (EntryAsked opts ix args) y pre → now - y.received ≤ y.ttl) :
    ∃ vars i, shellRun (clientMain l w ix words).out = some vars ∧ i ≤ pre.length ∧
      ∀ name value, (name, value) ∈ batchValues w.ntop6 (display now x) → (name ++ lit "_" ++ numeral i, value) ∈ vars := by
  obtain ⟨ch', hch', hall⟩ := C104_script h0 hc h _ (Nat.le_refl _) hlt hname
  rw [hch] at hch'
  cases hch'
  obtain ⟨-, -, shown, -, hsh, hall⟩ := hall l w ix words opts args now hwr hb hmode hargs h6 hf hcn htime hin
  obtain ⟨s, hs, -, -, hshow⟩ := hall pre x post hx
  obtain rfl := hshow ha hfr hr hlast
  have hsplit : shown = shown.take pre.length ++ some (display now x) :: shown.drop (pre.length + 1) := by
    obtain ⟨hl, he⟩ := List.getElem?_eq_some_iff.mp hs
    rw [← he, ← List.drop_eq_getElem_cons hl, List.take_append_drop]
  refine ⟨_, ((shown.take pre.length).filterMap id).length, hsh, ?_, ?_⟩
  · have h1 := List.length_filterMap_le (f := (id : Option Shown → Option Shown)) (l := shown.take pre.length)
    have h2 := List.length_take_le pre.length shown
    omega
  · intro name value hv
    unfold batchVars
    rw [List.mem_flatMap]
    refine ⟨(display now x, ((shown.take pre.length).filterMap id).length), List.mem_zipIdx_iff_getElem?.mpr ?_, List.mem_map.mpr ⟨(name, value), hv, rfl⟩⟩
    show (shown.filterMap id)[((shown.take pre.length).filterMap id).length]? = some (display now x)
    conv => lhs; arg 1; rw [hsplit]
    rw [List.filterMap_append, List.getElem?_append_right (Nat.le_refl _), Nat.sub_self]
    rfl

/-! ## Sample -/

/-- Three neighbours are heard, the first with a lifetime of 10 seconds; thirty seconds later a script evaluates the output of `ladvdc` with these words.  The
names, interfaces and remaining lifetimes it gets. -/
def scripted (words : List Bytes) : Option (List (Bytes × Bytes)) :=
  match typedStart glibcSample (lit "ladvd") typedHost sysSample [lit "-aL"], typedStart glibcSample (lit "ladvd") typedHost sysSample [lit "-a", lit "-F"] with
  | .ok (c, _, d0), .ok (c2, _, b0) =>
    match daemonRun c [.timer sampleKernel {} 0] d0 with
    | .ok d =>
      let frames := (d.tx.take 1).filterMap (fun t =>
        match parentRecv 9 [t.msg.take t.len] with | .ok [fwd] => some (Event.recv (some 1002) (rawOf fwd)) | _ => none)
      match daemonRun c2 ([.timer otherKernel {} 990, .recv (some 1000) (rawOf ⟨9, .cdp, ((cdpEntry 0x31 10).msg).take 62⟩),
          .recv (some 1001) (rawOf ⟨9, .ndp, ndpFrame 77⟩)] ++ frames) b0 with
      | .ok b1 =>
        match cliWrite b1.child.nextId (some (List.replicate 3 .ok)) (cliAccept b1.child) with
        | .ok ch =>
          let said := (delivered ch b1.child.nextId).map (fun x => ((1030 : Int), CliIn.ofEntry x))
          let w : CliWorld := { clientSample with first := 0, connect := 0, time := .ok 1030, input := said }
          let x := clientMain glibcSample w (fun n => if n = lit "em0" then some 9 else none) words
          if x.how = .ok 0 ∧ x.err = [] then (shellRun x.out).map (fun vars => vars.filter (fun v =>
            (lit "INTERFACE").isPrefixOf v.1 || (lit "HOSTNAME").isPrefixOf v.1 || (lit "HOLDTIME").isPrefixOf v.1)) else none
        | _ => none
      | _ => none
    | _ => none
  | _, _ => none

/-- All are asked for: the second neighbour has the name of the expired first, the third is as it is. -/
example : scripted [lit "-b"] = some [(lit "INTERFACE_0", lit "em0"), (lit "HOSTNAME_0", lit "sw1"), (lit "HOLDTIME_0", lit "151"),
    (lit "INTERFACE_1", lit "em0"), (lit "HOSTNAME_1", lit "sw.example.org"), (lit "HOLDTIME_1", lit "152")] := by
  decide +kernel

/-- With the expired one not asked for both are as they are (NDP has no names). -/
example : scripted [lit "-bLN", lit "em0"] = some [(lit "INTERFACE_0", lit "em0"), (lit "HOSTNAME_0", []), (lit "HOLDTIME_0", lit "151"),
    (lit "INTERFACE_1", lit "em0"), (lit "HOSTNAME_1", lit "sw.example.org"), (lit "HOLDTIME_1", lit "152")] := by
  decide +kernel

/-- The words meet the conditions of the theorem. -/
example : Written clientLetters true [lit "-bLN", lit "em0"] [⟨'b', []⟩, ⟨'L', []⟩, ⟨'N', []⟩] [lit "em0"] ∧ given [⟨'b', []⟩, ⟨'L', []⟩, ⟨'N', []⟩] ['b'] :=
  ⟨((C97_written glibcSample _ _ _).2).mp (by decide +kernel), ⟨⟨'b', []⟩, by simp⟩⟩

end Ladvd.Props
