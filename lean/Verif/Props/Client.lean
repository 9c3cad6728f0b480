import Verif.Spec.Client
import Verif.Props.CliText
import Verif.Props.Start
/-!
# C95: the client tells why it cannot list neighbours, and lists them under the right headings
-/

namespace Ladvd.Props

open Ladvd Spec

/-! ## The command line -/

theorem cliOptions_none (opts : List Char) (args : List (Option Nat)) : cliOptions opts args = none ↔ Misused opts args := by
  constructor
  · intro h
    apply Classical.byContradiction
    intro hm
    have h1 : ∀ ch ∈ opts, ch ∈ ['L', 'C', 'E', 'F', 'N', 'b', 'd', 'f', 'p', 'o', 'v'] := by
      intro ch hch
      apply Classical.byContradiction
      intro hn
      refine hm (Or.inl ⟨ch, hch, ?_⟩)
      by_cases hh : ch = 'h'
      · exact Or.inl hh
      · right
        intro hin
        simp only [helpLines, List.map_cons, List.map_nil, List.mem_cons, List.not_mem_nil, or_false] at hin hn
        grind
    have h2 : opts.count 'p' ≤ 1 := by
      apply Classical.byContradiction
      intro hn
      exact hm (Or.inr (Or.inl (by omega)))
    have h3 : ∃ l : List Nat, args = l.map some := by
      have hn : none ∉ args := fun hn => hm (Or.inr (Or.inr hn))
      clear hm h
      induction args with
      | nil => exact ⟨[], rfl⟩
      | cons a as ih =>
        obtain ⟨l, hl⟩ := ih (fun hx => hn (List.mem_cons_of_mem _ hx))
        cases a with
        | none => exact absurd List.mem_cons_self hn
        | some i => exact ⟨i :: l, by rw [hl]; rfl⟩
    obtain ⟨l, rfl⟩ := h3
    obtain ⟨c, hc⟩ := C44_accepted opts l h1 h2
    rw [hc] at h
    cases h
  · intro hm
    cases h : cliOptions opts args with
    | none => rfl
    | some c =>
      exfalso
      obtain ⟨h1, h2, -, -, -, h6, h7⟩ := C44_options opts args c h
      rcases hm with ⟨ch, hch, hx⟩ | hx | hx
      · have := h1 ch hch
        simp only [helpLines, List.map_cons, List.map_nil, List.mem_cons, List.not_mem_nil, or_false] at hx this
        rcases hx with rfl | hx
        · simp at this
        · grind
      · omega
      · have hne : args ≠ [] := fun h => by rw [h] at hx; simp at hx
        obtain ⟨l, -, hl⟩ := h7 hne
        rw [hl] at hx
        simp at hx

theorem helpText_eq (prog : Bytes) : cliUsage prog = helpText prog := by
  have : lit " [-LCEFN] [INTERFACE] [INTERFACE]\n" ++ helpLines.flatMap helpLine = lit " [-LCEFN] [INTERFACE] [INTERFACE]\n\t-L = Print LLDP\n\t-C = Print CDP\n\t-E = Print EDP\n\t-F = Print FDP\n\t-N = Print NDP\n\t-b = Print scriptable output\n\t-d = Dump pcap-compatible packets to stdout\n\t-f = Print full decode\n\t-o = Decode only one packet\n\t-p <url> = Post decode to url\n\t-v = Increase logging verbosity\n\t-h = Print this message\n" := by
    decide +kernel
  unfold cliUsage helpText
  rw [List.append_assoc _ _ (helpLines.flatMap _), this]

/-- The message of a fatal error does not begin like the help. -/
theorem fatal_head {w : CliWorld} {level : Int} {func : Bytes} {e : Nat} {text : Bytes} (hf : func.head? ≠ some 0x6c) (hf0 : func ≠ [])
    (ht : text.head? ≠ some 0x6c) (ht0 : text ≠ []) : (cliFatal w level func e text).err.head? ≠ some 0x6c := by
  unfold cliFatal
  obtain ⟨t, ts, rfl⟩ := List.exists_cons_of_ne_nil ht0
  obtain ⟨f, fs, rfl⟩ := List.exists_cons_of_ne_nil hf0
  by_cases hl : level = 3
  · simpa [hl] using hf
  · simpa [hl] using ht

/-- The message of a fatal error is not empty. -/
theorem fatal_ne {w : CliWorld} {level : Int} {func : Bytes} {e : Nat} {text : Bytes} : (cliFatal w level func e text).err ≠ [] := by
  unfold cliFatal
  simp

/-- Everything behind the options: one message and the exit status 1, or no message. -/
theorem cliShowAll_err (w : CliWorld) (level : Int) (c : CliConf) (now : Int) :
    (cliShowAll w level c now).err = [] ∨
      (c.mode = .debug ∧ w.stdout ≠ .file ∧ (cliShowAll w level c now).err ≠ [] ∧ (cliShowAll w level c now).err.head? ≠ some 0x6c ∧
        (cliShowAll w level c now).out = [] ∧ (cliShowAll w level c now).how = .ok 1) := by
  have ht : ∀ (f : List Shown → Bytes) r, (cliText f r).err = [] := by
    intro f r
    cases r <;> rfl
  unfold cliShowAll
  cases hm : c.mode with
  | table => exact Or.inl (ht _ _)
  | batch => exact Or.inl (ht _ _)
  | print => exact Or.inl rfl
  | debug =>
    dsimp only
    unfold dumpFatal
    cases hs : w.stdout with
    | file => exact Or.inl (ht _ _)
    | missing =>
      right
      refine ⟨rfl, by simp, fatal_ne, fatal_head (by decide +kernel) (by decide +kernel) (by decide +kernel) (by decide +kernel), rfl, rfl⟩
    | terminal =>
      right
      refine ⟨rfl, by simp, fatal_ne, fatal_head (by decide +kernel) (by decide +kernel) (by decide +kernel) (by decide +kernel), rfl, rfl⟩
    | unusable =>
      right
      refine ⟨rfl, by simp, fatal_ne, fatal_head (by decide +kernel) (by decide +kernel) (by decide +kernel) (by decide +kernel), rfl, rfl⟩
  | http =>
    left
    dsimp only
    split
    · rfl
    · exact ht _ _

/-- The help is printed, and nothing else is done, exactly for command lines that are not understood or ask for it. -/
theorem C95_usage (w : CliWorld) (opts : List Char) (args : List (Option Nat)) :
    (Misused opts args → cliMain w opts args = ⟨[], helpText w.prog, [], .ok 1⟩) ∧
    (¬ Misused opts args → (cliMain w opts args).err ≠ helpText w.prog) := by
  constructor
  · intro h
    unfold cliMain
    rw [(cliOptions_none opts args).mpr h, ← helpText_eq]
  · intro h
    have hhead : ∀ b : Bytes, b.head? ≠ some 0x6c → b ≠ helpText w.prog := by
      intro b hb he
      rw [he] at hb
      exact hb rfl
    cases hc : cliOptions opts args with
    | none => exact absurd ((cliOptions_none opts args).mp hc) h
    | some c =>
      unfold cliMain
      rw [hc]
      dsimp only
      split
      · split
        · exact hhead _ (fatal_head (by decide +kernel) (by decide +kernel) (by decide +kernel) (by decide +kernel))
        · exact hhead _ (fatal_head (by decide +kernel) (by decide +kernel) (by decide +kernel) (by decide +kernel))
      · split
        · exact hhead _ (fatal_head (by decide +kernel) (by decide +kernel) (by decide +kernel) (by decide +kernel))
        split
        · exact hhead _ (fatal_head (by decide +kernel) (by decide +kernel) (by decide +kernel) (by decide +kernel))
        split
        · exact hhead _ (fatal_head (by decide +kernel) (by decide +kernel) (by decide +kernel) (by decide +kernel))
        split
        · exact hhead _ (fatal_head (by decide +kernel) (by decide +kernel) (by decide +kernel) (by decide +kernel))
        · rename_i now _
          rcases cliShowAll_err w (logLevel (opts.count 'v')) c now with h0 | ⟨-, -, -, h1, -, -⟩
          · rw [h0]; exact hhead _ (by simp)
          · exact hhead _ h1

/-- The help describes exactly the letters that are accepted, and itself. -/
theorem C95_documented (ch : Char) : ch ∈ helpLines.map (·.1) ↔ ch = 'h' ∨ ¬ Misused [ch] [] := by
  unfold Misused
  by_cases hp : ch = 'p'
  · subst hp; simp [helpLines]
  · have h0 : List.count 'p' [ch] = 0 := by
      rw [List.count_eq_zero]
      simpa using Ne.symm hp
    constructor
    · intro h
      by_cases hh : ch = 'h'
      · exact Or.inl hh
      · right
        rintro (⟨x, hx, hy⟩ | hx | hx)
        · rw [List.mem_singleton.mp hx] at hy
          rcases hy with hy | hy
          · exact hh hy
          · exact hy h
        · omega
        · simp at hx
    · rintro (rfl | h)
      · simp [helpLines]
      · apply Classical.byContradiction
        intro hn
        exact h (Or.inl ⟨ch, List.mem_singleton.mpr rfl, Or.inr hn⟩)

/-! ## Reaching the daemon -/

/-- The command line is understood and a socket can be made, and the client does not say which function complains (`-v` three times). -/
theorem main_connect (w : CliWorld) (opts : List Char) (args : List (Option Nat)) (hm : ¬ Misused opts args) (hf : w.first = 0)
    (hv : opts.count 'v' < 3) :
    (w.connect = 13 → Complains (cliMain w opts args) (lit "please add yourself to the ladvd group")) ∧
    (w.connect = 111 → Complains (cliMain w opts args) (lit "please enable receive mode before using ladvdc")) ∧
    (w.connect ≠ 0 → w.connect ≠ 13 → w.connect ≠ 111 →
      Complains (cliMain w opts args) (lit "failed to open /var/run/ladvd.sock: " ++ w.strerror w.connect)) := by
  have hl : logLevel (opts.count 'v') ≠ 3 := by
    have : opts.count 'v' = 0 ∨ opts.count 'v' = 1 ∨ opts.count 'v' = 2 := by omega
    rcases this with h | h | h <;> rw [h] <;> decide
  have h10 : lit "\n" = [0x0a] := by decide +kernel
  cases hc : cliOptions opts args with
  | none => exact absurd ((cliOptions_none opts args).mp hc) hm
  | some c =>
    have hbase : cliMain w opts args =
        (if w.connect = 13 then cliFatal w (logLevel (opts.count 'v')) (lit "cli_main") 0 (lit "please add yourself to the ladvd group")
      else if w.connect = 111 then cliFatal w (logLevel (opts.count 'v')) (lit "cli_main") 0 (lit "please enable receive mode before using ladvdc")
      else if w.connect ≠ 0 then cliFatal w (logLevel (opts.count 'v')) (lit "cli_main") w.connect (lit "failed to open /var/run/ladvd.sock")
      else
        match w.time with
        | .error e => cliFatal w (logLevel (opts.count 'v')) (lit "cli_main") e (lit "failed to fetch time")
        | .ok now => cliShowAll w (logLevel (opts.count 'v')) c now) := by
      unfold cliMain
      rw [hc]
      simp only [connOpen, hf, if_true]
      rfl
    unfold Complains
    rw [hbase]
    refine ⟨fun h => ?_, fun h => ?_, fun h h1 h2 => ?_⟩
    · rw [if_pos h]
      simp only [cliFatal, if_neg hl, h10, List.nil_append, ne_eq, not_true_eq_false, if_false, List.append_nil]
    · rw [if_neg (by omega), if_pos h]
      simp only [cliFatal, if_neg hl, h10, List.nil_append, ne_eq, not_true_eq_false, if_false, List.append_nil]
    · rw [if_neg h1, if_neg h2, if_pos h]
      simp only [cliFatal, if_neg hl, if_pos h, h10, List.nil_append]
      have : lit "failed to open /var/run/ladvd.sock: " = lit "failed to open /var/run/ladvd.sock" ++ lit ": " := by decide +kernel
      rw [this]
      simp only [List.append_assoc]

/-- While the daemon runs, the client reaches it exactly if its user belongs to the daemon's group (or is root) and the daemon receives; everyone else
is told to join the group, and everyone in it that the daemon does not receive. -/
theorem C95_reason (deny : Nat → Option Nat) (o : Opts) (dir : Bytes) (pwd : Option (Nat × Nat)) (n : Nat) (k k' : World) (hroot : k.root = lit "/")
    (hb : k.bound = false) (hl : k.listening = false) (ho : o.testBit 6 = false) (h1 : o.testBit 4 = false)
    (h : run deny (childInit o dir pwd) n k = (.running, k'))
    (u : User) (w : CliWorld) (hw : w.connect = k'.connect u) (opts : List Char) (args : List (Option Nat)) (hm : ¬ Misused opts args)
    (hf : w.first = 0) (hv : opts.count 'v' < 3) :
    ∃ uid gid, pwd = some (uid, gid) ∧
      (u.uid ≠ 0 → gid ∉ u.groups → Complains (cliMain w opts args) (lit "please add yourself to the ladvd group")) ∧
      (u.uid = 0 ∨ gid ∈ u.groups → o.testBit 2 = false → Complains (cliMain w opts args) (lit "please enable receive mode before using ladvdc")) ∧
      (u.uid = 0 ∨ gid ∈ u.groups → o.testBit 2 = true → w.connect = 0) := by
  obtain ⟨uid, gid, hp, hbound, hsock, hlist, -⟩ := (C45_open deny o dir pwd n k k' hroot hb hl ho h).2 h1
  obtain ⟨m1, m2, -⟩ := main_connect w opts args hm hf hv
  have hin : (u.uid = 0 ∨ gid ∈ u.groups) → w.connect = if k'.listening then 0 else 111 := by
    intro hu
    rw [hw]
    unfold World.connect
    rw [hsock]
    simp only [hbound, true_and]
    rw [if_neg]
    rintro ⟨h1, h2⟩
    rcases hu with hu | hu
    · exact h1 hu
    · rw [if_pos hu] at h2
      exact absurd h2 (by decide)
  refine ⟨uid, gid, hp, ?_, ?_, ?_⟩
  · intro hu hg
    apply m1
    rw [hw]
    unfold World.connect
    rw [hsock]
    simp only
    rw [if_pos ⟨hu, by rw [if_neg hg]⟩]
  · intro hu ho2
    apply m2
    rw [hin hu, if_neg]
    intro hx
    rw [hlist.mp hx] at ho2
    cases ho2
  · intro hu ho2
    rw [hin hu, if_pos (hlist.mpr ho2)]

/-- When the daemon has ended in the usual way there is no control socket left, and the client says so to everyone. -/
theorem C95_ended (deny : Nat → Option Nat) (hd : ∀ i, deny i = none) (sig : Nat) (pid : Int) (n : Nat) (k : World) (u : User) (w : CliWorld)
    (hw : w.connect = (run deny (parentSignal sig pid) n k).2.connect u) (opts : List Char) (args : List (Option Nat)) (hm : ¬ Misused opts args)
    (hf : w.first = 0) (hv : opts.count 'v' < 3) :
    Complains (cliMain w opts args) (lit "failed to open /var/run/ladvd.sock: " ++ w.strerror 2) := by
  have hq : ∀ (m : Nat) (x : World), ((run deny (.call .unlinkSock fun _ => .done (.exited 0)) m x).2).sock = none := by
    intro m x
    simp only [run, World.step, hd, World.sys]
    cases hs : x.sock with
    | none => exact hs
    | some _ => rfl
  have hs : (run deny (parentSignal sig pid) n k).2.sock = none := by
    unfold parentSignal
    rw [run]
    dsimp only
    split
    · exact hq _ _
    · rw [run]; exact hq _ _
  have hc : w.connect = 2 := by
    rw [hw]
    unfold World.connect
    rw [hs]
  obtain ⟨-, -, m3⟩ := main_connect w opts args hm hf hv
  have := m3 (by omega) (by omega) (by omega)
  rw [hc] at this
  exact this

/-- What cannot be told apart: when both processes were killed the control socket remains, and the client asks to enable receive mode although no
daemon is running. -/
theorem C95_killed (k : World) (mode group : Nat) (hk : k.sock = some (mode, group)) (hdead : k.bound = false) (u : User)
    (hu : u.uid = 0 ∨ group ∈ u.groups ∧ mode / 16 % 2 = 1) (w : CliWorld) (hw : w.connect = k.connect u) (opts : List Char)
    (args : List (Option Nat)) (hm : ¬ Misused opts args) (hf : w.first = 0) (hv : opts.count 'v' < 3) :
    Complains (cliMain w opts args) (lit "please enable receive mode before using ladvdc") := by
  obtain ⟨-, m2, -⟩ := main_connect w opts args hm hf hv
  apply m2
  rw [hw]
  unfold World.connect
  rw [hk, hdead]
  simp only [Bool.false_eq_true, false_and, if_false]
  rw [if_neg]
  rintro ⟨h1, h2⟩
  rcases hu with hu | ⟨hu, h3⟩
  · exact h1 hu
  · rw [if_pos hu, h3] at h2
    cases h2

/-! ## Exit status -/

theorem mode_letter (l : List Char) : (l.filterMap modeOf).getLast? = ((l.filter (fun ch => ['b', 'd', 'f', 'p'].contains ch)).getLast?).bind modeOf := by
  rw [← List.reverse_reverse l, List.filterMap_reverse, List.filter_reverse, List.getLast?_reverse, List.getLast?_reverse]
  generalize l.reverse = r
  induction r with
  | nil => rfl
  | cons ch r ih =>
    by_cases hx : ch = 'b' ∨ ch = 'd' ∨ ch = 'f' ∨ ch = 'p'
    · rcases hx with rfl | rfl | rfl | rfl <;> rfl
    · have h1 : modeOf ch = none := by
        unfold modeOf
        rw [if_neg (fun e => hx (Or.inl e)), if_neg (fun e => hx (Or.inr (Or.inl e))), if_neg (fun e => hx (Or.inr (Or.inr (Or.inl e)))),
          if_neg (fun e => hx (Or.inr (Or.inr (Or.inr e))))]
      have h2 : ['b', 'd', 'f', 'p'].contains ch = false := by
        simp only [List.contains_eq_mem, List.mem_cons, List.not_mem_nil, or_false, decide_eq_false_iff_not]
        exact hx
      rw [List.filterMap_cons_none h1, List.filter_cons_of_neg (by rw [h2]; simp)]
      exact ih

/-- A run that ends by itself, without `-p`: its status is 0 exactly if the command line was understood, the daemon was reached, the time is known and, with
`-d`, the standard output can be written to; then there is no message, and otherwise there is one and no output. -/
theorem C95_status_partial (w : CliWorld) (opts : List Char) (args : List (Option Nat)) (s : Nat) (h : (cliMain w opts args).how = .ok s)
    (hp : modeLetter opts ≠ some 'p') :
    (s = 0 ↔ ¬ Misused opts args ∧ (w.first = 0 ∨ w.first = 93 ∧ w.second = 0) ∧ w.connect = 0 ∧ (∃ now, w.time = .ok now) ∧
      (modeLetter opts = some 'd' → w.stdout = .file)) ∧
    (s = 0 → (cliMain w opts args).err = []) ∧ (s ≠ 0 → (cliMain w opts args).err ≠ [] ∧ (cliMain w opts args).out = []) := by
  cases hc : cliOptions opts args with
  | none =>
    have hm := (cliOptions_none opts args).mp hc
    rw [(C95_usage w opts args).1 hm] at h ⊢
    cases h
    refine ⟨⟨fun h => (by cases h), fun h => absurd hm h.1⟩, fun h => (by cases h), fun _ => ⟨?_, rfl⟩⟩
    unfold helpText
    simp [lit]
  | some c =>
    have hm : ¬ Misused opts args := fun hm => by rw [(cliOptions_none opts args).mpr hm] at hc; cases hc
    have hmode : c.mode = ((opts.filterMap modeOf).getLast?).getD .table := (C44_options opts args c hc).2.2.2.1
    rw [mode_letter] at hmode
    have hcm : ∀ m : CliMode, m ≠ .table → (c.mode = m → ∃ ch, modeLetter opts = some ch ∧ modeOf ch = some m) := by
      intro m hmt hcm
      unfold modeLetter
      rw [hmode] at hcm
      cases hg : (opts.filter (fun ch => ['b', 'd', 'f', 'p'].contains ch)).getLast? with
      | none => rw [hg] at hcm; exact absurd hcm.symm hmt
      | some ch =>
        rw [hg] at hcm
        refine ⟨ch, rfl, ?_⟩
        cases hmo : modeOf ch with
        | none => simp only [Option.bind_some, hmo, Option.getD_none] at hcm; exact absurd hcm.symm hmt
        | some m' => simp only [Option.bind_some, hmo, Option.getD_some] at hcm; rw [hcm]
    have hof : ∀ ch m, modeOf ch = some m → (m = .http → ch = 'p') ∧ (m = .debug → ch = 'd') := by
      intro ch m hx
      unfold modeOf at hx
      repeat' split at hx
      all_goals first
        | cases hx
        | skip
      all_goals simp_all
    have hnp : c.mode ≠ .http := by
      intro hx
      obtain ⟨ch, h1, h2⟩ := hcm _ (by simp) hx
      exact hp (by rw [h1, (hof ch _ h2).1 rfl])
    have hdebug : c.mode = .debug ↔ modeLetter opts = some 'd' := by
      constructor
      · intro hx
        obtain ⟨ch, h1, h2⟩ := hcm _ (by simp) hx
        rw [h1, (hof ch _ h2).2 rfl]
      · intro hx
        rw [hmode]
        unfold modeLetter at hx
        rw [hx]
        rfl
    have hshow : ∀ now, (cliShowAll w (logLevel (opts.count 'v')) c now).how = .ok s →
        (s = 0 ↔ (c.mode = .debug → w.stdout = .file)) ∧ (s = 0 → (cliShowAll w (logLevel (opts.count 'v')) c now).err = []) ∧
        (s ≠ 0 → (cliShowAll w (logLevel (opts.count 'v')) c now).err ≠ [] ∧ (cliShowAll w (logLevel (opts.count 'v')) c now).out = []) := by
      intro now hs
      rcases cliShowAll_err w (logLevel (opts.count 'v')) c now with he | ⟨h1, h2, h3, -, h5, h6⟩
      · have h0 : s = 0 := by
          have ht : ∀ (f : List Shown → Bytes) r, (cliText f r).how = .ok s → s = 0 := by
            intro f r hx
            cases r <;> cases hx
            rfl
          unfold cliShowAll at hs
          cases hmd : c.mode with
          | table => rw [hmd] at hs; exact ht _ _ hs
          | batch => rw [hmd] at hs; exact ht _ _ hs
          | print =>
            rw [hmd] at hs
            dsimp only at hs
            cases hr : (reportLoop c w.ntop6 now {} w.input).res <;> rw [hr] at hs <;> cases hs
            rfl
          | debug =>
            rw [hmd] at hs
            dsimp only at hs
            split at hs
            · rename_i r hd
              exfalso
              have : (cliShowAll w (logLevel (opts.count 'v')) c now) = r := by
                unfold cliShowAll
                rw [hmd]
                dsimp only
                rw [hd]
              rw [this] at he
              unfold dumpFatal at hd
              cases hst : w.stdout <;> rw [hst] at hd <;> cases hd <;> exact fatal_ne he
            · exact ht _ _ hs
          | http => exact absurd hmd hnp
        refine ⟨⟨fun _ hd => ?_, fun _ => h0⟩, fun _ => he, fun hx => absurd h0 hx⟩
        apply Classical.byContradiction
        intro hst
        have hd' : (dumpFatal w (logLevel (opts.count 'v'))).isSome = true := by
          unfold dumpFatal
          cases hst' : w.stdout <;> first | rfl | exact absurd hst' hst
        obtain ⟨r, hr⟩ := Option.isSome_iff_exists.mp hd'
        have : (cliShowAll w (logLevel (opts.count 'v')) c now) = r := by
          unfold cliShowAll
          rw [hd]
          dsimp only
          rw [hr]
        rw [this] at he
        unfold dumpFatal at hr
        cases hst : w.stdout <;> rw [hst] at hr <;> cases hr <;> exact fatal_ne he
      · rw [h6] at hs
        cases hs
        exact ⟨⟨fun h => (by cases h), fun h => absurd (h h1) h2⟩, fun h => (by cases h), fun _ => ⟨h3, h5⟩⟩
    have hfatal : ∀ (func : Bytes) (e : Nat) (text : Bytes) (P : Prop), (cliFatal w (logLevel (opts.count 'v')) func e text).how = .ok s → ¬ P →
        (s = 0 ↔ P) ∧ (s = 0 → (cliFatal w (logLevel (opts.count 'v')) func e text).err = []) ∧
        (s ≠ 0 → (cliFatal w (logLevel (opts.count 'v')) func e text).err ≠ [] ∧ (cliFatal w (logLevel (opts.count 'v')) func e text).out = []) := by
      intro func e text P hs hP
      cases hs
      exact ⟨⟨fun h => (by cases h), fun h => absurd h hP⟩, fun h => (by cases h), fun _ => ⟨fatal_ne, rfl⟩⟩
    unfold cliMain at h ⊢
    rw [hc] at h ⊢
    dsimp only at h ⊢
    cases hco : connOpen w.first w.second with
    | none =>
      rw [hco] at h
      dsimp only at h ⊢
      have hno : ¬ (w.first = 0 ∨ w.first = 93 ∧ w.second = 0) := by
        rintro (hx | ⟨hx, hy⟩)
        · simp [connOpen, hx] at hco
        · simp [connOpen, hx, hy] at hco
      split at h
      · rename_i hx
        rw [if_pos hx]
        exact hfatal _ _ _ _ h (fun hP => hno hP.2.1)
      · rename_i hx
        rw [if_neg hx]
        exact hfatal _ _ _ _ h (fun hP => hno hP.2.1)
    | some kind =>
      rw [hco] at h
      dsimp only at h ⊢
      have hyes : w.first = 0 ∨ w.first = 93 ∧ w.second = 0 := by
        unfold connOpen at hco
        repeat' split at hco
        all_goals first
          | cases hco
          | skip
        · rename_i hx; exact Or.inl hx
        · rename_i hx hy; exact Or.inr ⟨hx, hy⟩
      split at h
      · rename_i hx
        rw [if_pos hx]
        exact hfatal _ _ _ _ h (fun hP => by have := hP.2.2.1; omega)
      rename_i hx1
      rw [if_neg hx1]
      split at h
      · rename_i hx
        rw [if_pos hx]
        exact hfatal _ _ _ _ h (fun hP => by have := hP.2.2.1; omega)
      rename_i hx2
      rw [if_neg hx2]
      split at h
      · rename_i hx
        rw [if_pos hx]
        exact hfatal _ _ _ _ h (fun hP => hx hP.2.2.1)
      rename_i hx3
      rw [if_neg hx3]
      cases ht : w.time with
      | error e =>
        rw [ht] at h
        exact hfatal _ _ _ _ h (fun hP => by obtain ⟨now, hn⟩ := hP.2.2.2.1; cases hn)
      | ok now =>
        rw [ht] at h
        obtain ⟨s1, s2, s3⟩ := hshow now h
        refine ⟨?_, s2, s3⟩
        rw [s1, hdebug]
        exact ⟨fun hx => ⟨hm, hyes, Classical.not_not.mp hx3, ⟨now, rfl⟩, hx⟩, fun hx => hx.2.2.2.2⟩

/-! ## The end of the list -/

theorem clientLoop_take (c : CliConf) (now : Int) : ∀ (es : List CliIn) (n : Nat) (st : CliSt) (l : List (List Bytes × Option Shown)),
    clientLoop c now st es = .ok l → clientLoop c now st (es.take n) = .ok (l.take n) := by
  intro es
  induction es with
  | nil => intro n st l h; cases h; simp [clientLoop]
  | cons e es ih =>
    intro n st l h
    cases n with
    | zero => simp [clientLoop]
    | succ n =>
      rw [List.take_succ_cons, clientLoop]
      rw [clientLoop] at h
      cases hc : clientMsg c now st e with
      | ok x =>
        obtain ⟨st', texts, s⟩ := x
        rw [hc] at h
        simp only [Res.bind_eq, Res.bind_ok, Res.pure_eq] at h ⊢
        split at h
        · rename_i ho
          rw [if_pos ho]
          cases h
          simp
        · rename_i ho
          rw [if_neg ho]
          cases hr : clientLoop c now st' es with
          | ok r =>
            rw [hr] at h
            cases h
            rw [ih n st' r hr]
            rfl
          | fail => rw [hr] at h; cases h
          | oob => rw [hr] at h; cases h
          | abort => rw [hr] at h; cases h
          | stuck => rw [hr] at h; cases h
      | fail => rw [hc] at h; cases h
      | oob => rw [hc] at h; cases h
      | abort => rw [hc] at h; cases h
      | stuck => rw [hc] at h; cases h

theorem batchAll_prefix (ntop6 : Bytes → Bytes) : ∀ (a b : List Shown) (n : Nat), batchAll ntop6 n a <+: batchAll ntop6 n (a ++ b) := by
  intro a
  induction a with
  | nil => intro b n; exact List.nil_prefix
  | cons s a ih =>
    intro b n
    rw [List.cons_append, batchAll, batchAll]
    exact List.prefix_append_right_inj _ |>.mpr (ih b _)

/-- What the exit status does not tell: if the connection ends early, after any number of entries, the table or the variables simply end there, and the
client reports success all the same. -/
theorem C95_cut (w : CliWorld) (opts : List Char) (args : List (Option Nat)) (hmode : modeLetter opts = none ∨ modeLetter opts = some 'b')
    (h : (cliMain w opts args).how = .ok 0) (n : Nat) :
    (cliMain { w with input := w.input.take n } opts args).how = .ok 0 ∧ (cliMain { w with input := w.input.take n } opts args).err = [] ∧
    (cliMain { w with input := w.input.take n } opts args).out <+: (cliMain w opts args).out := by
  have hne : modeLetter opts ≠ some 'p' := by rcases hmode with h | h <;> rw [h] <;> simp
  obtain ⟨⟨hs, -⟩, -, -⟩ := C95_status_partial w opts args 0 h hne
  obtain ⟨hm, hs1, hs2, ⟨now, hs3⟩, -⟩ := hs rfl
  cases hc : cliOptions opts args with
  | none => exact absurd ((cliOptions_none opts args).mp hc) hm
  | some c =>
    have hco : ∃ k, connOpen w.first w.second = some k := by
      rcases hs1 with h | ⟨h1, h2⟩
      · exact ⟨.packets, by simp [connOpen, h]⟩
      · exact ⟨.stream, by simp [connOpen, h1, h2]⟩
    obtain ⟨kind, hco⟩ := hco
    have hmain : ∀ inp, cliMain { w with input := inp } opts args = cliShowAll { w with input := inp } (logLevel (opts.count 'v')) c now := by
      intro inp
      unfold cliMain
      rw [hc]
      dsimp only
      rw [hco, hs2, hs3]
      rfl
    have hmd : c.mode = .table ∨ c.mode = .batch := by
      have hcm : c.mode = ((opts.filterMap modeOf).getLast?).getD .table := (C44_options opts args c hc).2.2.2.1
      rw [mode_letter] at hcm
      unfold modeLetter at hmode
      rcases hmode with h | h <;> rw [h] at hcm
      · exact Or.inl hcm
      · exact Or.inr hcm
    have hw := hmain w.input
    rw [show ({ w with input := w.input } : CliWorld) = w from rfl] at hw
    rw [hw] at h ⊢
    rw [hmain]
    have hcut : ∀ (f : List Shown → Bytes) (hf : ∀ a b, f a <+: f (a ++ b)),
        (cliText f (clientLoop c now {} (w.input.map (·.2)))).how = .ok 0 →
        (cliText f (clientLoop c now {} ((w.input.take n).map (·.2)))).how = .ok 0 ∧
        (cliText f (clientLoop c now {} ((w.input.take n).map (·.2)))).err = [] ∧
        (cliText f (clientLoop c now {} ((w.input.take n).map (·.2)))).out <+: (cliText f (clientLoop c now {} (w.input.map (·.2)))).out := by
      intro f hf hx
      cases hl : clientLoop c now {} (w.input.map (·.2)) with
      | ok l =>
        have ht := clientLoop_take c now _ n {} l hl
        rw [← List.map_take] at ht
        rw [ht]
        refine ⟨rfl, rfl, ?_⟩
        show f _ <+: f _
        have : l.filterMap (·.2) = (l.take n).filterMap (·.2) ++ (l.drop n).filterMap (·.2) := by
          rw [← List.filterMap_append, List.take_append_drop]
        rw [this]
        exact hf _ _
      | fail => rw [hl] at hx; cases hx
      | oob => rw [hl] at hx; cases hx
      | abort => rw [hl] at hx; cases hx
      | stuck => rw [hl] at hx; cases hx
    unfold cliShowAll at h ⊢
    rcases hmd with hmd | hmd
    · rw [hmd] at h ⊢
      refine hcut _ (fun a b => ?_) h
      rw [List.flatMap_append, ← List.append_assoc]
      exact List.prefix_append _ _
    · rw [hmd] at h ⊢
      exact hcut _ (fun a b => batchAll_prefix _ _ _ _) h

/-! ## Headings -/

theorem cell_length (w : Nat) (t : Bytes) : (cell w t).length = w := by
  unfold cell
  rw [List.length_take, List.length_append, List.length_replicate]
  omega

/-- Six texts separated by spaces. -/
def sixCells (a b c d e f : Bytes) : Bytes := a ++ 0x20 :: (b ++ 0x20 :: (c ++ 0x20 :: (d ++ 0x20 :: (e ++ 0x20 :: f))))

theorem behind (pre post : Bytes) (n : Nat) (h : pre.length = n) : (pre ++ 0x20 :: post)[n + 1 - 1]? = some 0x20 ∧ (pre ++ 0x20 :: post).drop (n + 1) = post := by
  subst h
  constructor
  · simp
  · simp [List.drop_append]

theorem six_drop {a b c d e f : Bytes} {hw : Nat} (ha : a.length = hw) (hb : b.length = 13) (hc : c.length = 7) (hd : d.length = 12)
    (he : e.length = 13) :
    sixCells a b c d e f = a ++ 0x20 :: (b ++ 0x20 :: (c ++ 0x20 :: (d ++ 0x20 :: (e ++ 0x20 :: f)))) ∧
    ((sixCells a b c d e f)[hw + 1 - 1]? = some 0x20 ∧ (sixCells a b c d e f).drop (hw + 1) = b ++ 0x20 :: (c ++ 0x20 :: (d ++ 0x20 :: (e ++ 0x20 :: f)))) ∧
    ((sixCells a b c d e f)[hw + 15 - 1]? = some 0x20 ∧ (sixCells a b c d e f).drop (hw + 15) = c ++ 0x20 :: (d ++ 0x20 :: (e ++ 0x20 :: f))) ∧
    ((sixCells a b c d e f)[hw + 23 - 1]? = some 0x20 ∧ (sixCells a b c d e f).drop (hw + 23) = d ++ 0x20 :: (e ++ 0x20 :: f)) ∧
    ((sixCells a b c d e f)[hw + 36 - 1]? = some 0x20 ∧ (sixCells a b c d e f).drop (hw + 36) = e ++ 0x20 :: f) ∧
    ((sixCells a b c d e f)[hw + 50 - 1]? = some 0x20 ∧ (sixCells a b c d e f).drop (hw + 50) = f) := by
  have e2 : sixCells a b c d e f = (a ++ 0x20 :: b) ++ 0x20 :: (c ++ 0x20 :: (d ++ 0x20 :: (e ++ 0x20 :: f))) := by simp [sixCells]
  have e3 : sixCells a b c d e f = (a ++ 0x20 :: (b ++ 0x20 :: c)) ++ 0x20 :: (d ++ 0x20 :: (e ++ 0x20 :: f)) := by simp [sixCells]
  have e4 : sixCells a b c d e f = (a ++ 0x20 :: (b ++ 0x20 :: (c ++ 0x20 :: d))) ++ 0x20 :: (e ++ 0x20 :: f) := by simp [sixCells]
  have e5 : sixCells a b c d e f = (a ++ 0x20 :: (b ++ 0x20 :: (c ++ 0x20 :: (d ++ 0x20 :: e)))) ++ 0x20 :: f := by simp [sixCells]
  refine ⟨rfl, behind _ _ hw ha, ?_, ?_, ?_, ?_⟩
  · rw [e2]; exact behind _ _ (hw + 14) (by simp; omega)
  · rw [e3]; exact behind _ _ (hw + 22) (by simp; omega)
  · rw [e4]; exact behind _ _ (hw + 35) (by simp; omega)
  · rw [e5]; exact behind _ _ (hw + 49) (by simp; omega)

/-- In the table every column has its heading above it: at the position where a heading starts, each neighbour's line has its text for that heading, cut
or filled to the width of the column, and what separates the columns is a space. -/
theorem C95_headings (cols : Nat) (hc : 0 < cols) (s : Shown) (hh : s.hold < 65536) :
    ∀ x ∈ columns (hostWidth cols) (max 80 cols - 50 - hostWidth cols) s,
      (x.1 <+: (headings (cliHeader (cliWidths (some cols)))).drop x.2.1) ∧
      ((tableLine (cliWidths (some cols)) s).drop x.2.1).take x.2.2.1 = cell x.2.2.1 x.2.2.2 ∧
      (0 < x.2.1 → (headings (cliHeader (cliWidths (some cols))))[x.2.1 - 1]? = some 0x20 ∧
        (tableLine (cliWidths (some cols)) s)[x.2.1 - 1]? = some 0x20) := by
  have hhost : (cliWidths (some cols)).host = hostWidth cols := by
    unfold hostWidth
    show (if cols > 80 then (if cols - 80 > 20 then (⟨cols, 30, cols - 80⟩ : Widths)
      else ⟨cols, 20 + (cols - 80) / 2, 10 + ((cols - 80) - (cols - 80) / 2)⟩) else ⟨cols, 20, 10⟩).host = _
    repeat' split
    all_goals dsimp only
    all_goals omega
  have hw20 : 20 ≤ hostWidth cols := by unfold hostWidth; omega
  rw [C42_columns cols s hc hh]
  generalize max 80 cols - 50 - hostWidth cols = pw
  generalize hostWidth cols = hw at *
  have hhead : headings (cliHeader (cliWidths (some cols))) =
      (lit "Device ID" ++ List.replicate (hw - 9) 0x20) ++ lit " Local Intf    Proto   Hold-time    Capability    Port ID" := by
    unfold headings cliHeader
    rw [hhost]
    have e1 : lit " Local Intf    Proto   Hold-time    Capability    Port ID\n" = lit " Local Intf    Proto   Hold-time    Capability    Port ID" ++ [0x0a] := by
      decide +kernel
    have e0 : lit "Capability Codes:\n\tr - Repeater, B - Bridge, H - Host, R - Router, S - Switch,\n\tW - WLAN Access Point, C - DOCSIS Device, T - Telephone, O - Other\n\n" =
        lit "Capability Codes:\n\tr - Repeater, B - Bridge, H - Host, R - Router, S - Switch,\n\tW - WLAN Access Point, C - DOCSIS Device, T - Telephone, O - Other\n" ++ [0x0a] := by
      decide +kernel
    rw [e1, e0]
    generalize lit "Capability Codes:\n\tr - Repeater, B - Bridge, H - Host, R - Router, S - Switch,\n\tW - WLAN Access Point, C - DOCSIS Device, T - Telephone, O - Other\n" = g
    have hne : ∀ b ∈ (lit "Device ID" ++ List.replicate (hw - 9) 0x20) ++ lit " Local Intf    Proto   Hold-time    Capability    Port ID", b ≠ 0x0a := by
      intro b hb
      rcases List.mem_append.mp hb with hb | hb
      · rcases List.mem_append.mp hb with hb | hb
        · exact (show ∀ b ∈ lit "Device ID", b ≠ 0x0a by decide +kernel) b hb
        · rw [(List.mem_replicate.mp hb).2]; decide
      · exact (show ∀ b ∈ lit " Local Intf    Proto   Hold-time    Capability    Port ID", b ≠ 0x0a by decide +kernel) b hb
    generalize lit "Device ID" ++ List.replicate (hw - 9) 0x20 = a at *
    generalize lit " Local Intf    Proto   Hold-time    Capability    Port ID" = b at *
    have e2 : (g ++ [0x0a] ++ a ++ (b ++ [0x0a])).reverse = 0x0a :: ((a ++ b).reverse ++ (0x0a :: g.reverse)) := by simp
    rw [e2, List.drop_succ_cons, List.drop_zero, List.takeWhile_append_of_pos (by
      intro x hx
      simpa using hne x (List.mem_reverse.mp hx)), List.takeWhile_cons_of_neg (by simp), List.append_nil, List.reverse_reverse]
  have hcells : (lit "Device ID" ++ List.replicate (hw - 9) 0x20) ++ lit " Local Intf    Proto   Hold-time    Capability    Port ID" =
      sixCells (lit "Device ID" ++ List.replicate (hw - 9) 0x20) (lit "Local Intf   ") (lit "Proto  ") (lit "Hold-time   ") (lit "Capability   ")
        (lit "Port ID") := by
    unfold sixCells
    congr 1
  rw [hhead, hcells]
  have hline : ((tableCells hw s).1.flatMap (· ++ lit " ")) ++ cell pw (tableCells hw s).2 ++ lit "\n" =
      sixCells (cell hw (shortHost hw (s.peer.hostname.getD []))) (cell 13 s.name) (cell 7 (protocolName s.proto)) (cell 12 (numeral s.hold))
        (cell 13 (s.peer.cap.getD [])) (cell pw (shortPort ((s.peer.portname.or s.peer.portdescr).getD [])) ++ lit "\n") := by
    have h20 : lit " " = [0x20] := by decide +kernel
    simp only [tableCells, sixCells, h20, List.flatMap_cons, List.flatMap_nil, List.append_assoc, List.nil_append,
      List.cons_append]
  rw [hline]
  have hl1 : (lit "Device ID" ++ List.replicate (hw - 9) 0x20).length = hw := by
    rw [List.length_append, List.length_replicate, show (lit "Device ID").length = 9 from by decide +kernel]
    omega
  obtain ⟨-, a2, a3, a4, a5, a6⟩ := six_drop (f := lit "Port ID") hl1 (b := lit "Local Intf   ") (c := lit "Proto  ") (d := lit "Hold-time   ")
    (e := lit "Capability   ") (by decide +kernel) (by decide +kernel) (by decide +kernel) (by decide +kernel)
  obtain ⟨b1, b2, b3, b4, b5, b6⟩ := six_drop (f := cell pw (shortPort ((s.peer.portname.or s.peer.portdescr).getD [])) ++ lit "\n")
    (cell_length hw (shortHost hw (s.peer.hostname.getD []))) (cell_length 13 s.name) (cell_length 7 (protocolName s.proto))
    (cell_length 12 (numeral s.hold)) (cell_length 13 (s.peer.cap.getD []))
  have htake : ∀ (n : Nat) (t r : Bytes), (cell n t ++ r).take n = cell n t := by
    intro n t r
    exact List.take_left' (cell_length n t)
  intro x hx
  simp only [columns, List.mem_cons, List.not_mem_nil, or_false] at hx
  rcases hx with rfl | rfl | rfl | rfl | rfl | rfl
  · refine ⟨?_, ?_, fun h => absurd h (by simp)⟩
    · dsimp only
      rw [List.drop_zero]
      unfold sixCells
      rw [List.append_assoc]
      exact List.prefix_append _ _
    · dsimp only
      rw [List.drop_zero, b1]
      exact htake _ _ _
  · refine ⟨?_, ?_, fun _ => ⟨a2.1, b2.1⟩⟩
    · dsimp only
      rw [a2.2]
      exact ⟨_, show lit "Local Intf" ++ (lit "   " ++ _) = _ by rw [← List.append_assoc]; congr 1⟩
    · dsimp only
      rw [b2.2]
      exact htake _ _ _
  · refine ⟨?_, ?_, fun _ => ⟨a3.1, b3.1⟩⟩
    · dsimp only
      rw [a3.2]
      exact ⟨_, show lit "Proto" ++ (lit "  " ++ _) = _ by rw [← List.append_assoc]; congr 1⟩
    · dsimp only
      rw [b3.2]
      exact htake _ _ _
  · refine ⟨?_, ?_, fun _ => ⟨a4.1, b4.1⟩⟩
    · dsimp only
      rw [a4.2]
      exact ⟨_, show lit "Hold-time" ++ (lit "   " ++ _) = _ by rw [← List.append_assoc]; congr 1⟩
    · dsimp only
      rw [b4.2]
      exact htake _ _ _
  · refine ⟨?_, ?_, fun _ => ⟨a5.1, b5.1⟩⟩
    · dsimp only
      rw [a5.2]
      exact ⟨_, show lit "Capability" ++ (lit "   " ++ _) = _ by rw [← List.append_assoc]; congr 1⟩
    · dsimp only
      rw [b5.2]
      exact htake _ _ _
  · refine ⟨?_, ?_, fun _ => ⟨a6.1, b6.1⟩⟩
    · dsimp only
      rw [a6.2]
      exact List.prefix_refl _
    · dsimp only
      rw [b6.2]
      exact htake _ _ _

/-! ## Examples -/

/-- A client on a terminal of 80 columns, with one neighbour to show. -/
def clientSample : CliWorld where
  prog := lit "ladvdc"
  cols := some 80
  first := 0
  second := 0
  connect := 0
  time := .ok 2
  strerror := fun e => if e = 2 then lit "No such file or directory" else lit "error"
  ntop6 := id
  input := [(2, cdpEntry 0x31 180), (2, cdpEntry 0x32 180)]
  stdout := .terminal
  clock := fun _ => none
  url := []
  port := 80
  own := lit "me"
  server := fun _ => some 200

/-- The whole output. -/
example : cliMain clientSample [] [] = { out := lit "Capability Codes:\n\tr - Repeater, B - Bridge, H - Host, R - Router, S - Switch,\n\tW - WLAN Access Point, C - DOCSIS Device, T - Telephone, O - Other\n\nDevice ID            Local Intf    Proto   Hold-time    Capability    Port ID\nsw1                  eth0          CDP     178                        eeeeeeeeee\nsw2                  eth0          CDP     178                        eeeeeeeeee\n" } := by
  decide +kernel

/-- Help, a wrong interface, a dump to a terminal and the messages about the connection. -/
example : Misused ['L', 'h'] [] ∧ Misused ['L'] [some 1, none] ∧ ¬ Misused ['L', 'b', 'v'] [some 1] ∧
    (cliMain clientSample ['L', 'h'] []).how = .ok 1 ∧
    (cliMain clientSample ['d'] []).err = lit "please redirect stdout to tcpdump or a file\n" ∧
    (cliMain clientSample ['d', 'b'] []).how = .ok 0 ∧ modeLetter ['d', 'b'] = some 'b' ∧
    (cliMain { clientSample with connect := 13 } ['v', 'v', 'v'] []).err = lit "cli_main: please add yourself to the ladvd group\n" ∧
    (cliMain { clientSample with connect := 2 } [] []).err = lit "failed to open /var/run/ladvd.sock: No such file or directory\n" := by
  refine ⟨Or.inl ⟨'h', by decide, Or.inl rfl⟩, Or.inr (Or.inr (by decide)), ?_, by decide +kernel, by decide +kernel, by decide +kernel,
    by decide +kernel, by decide +kernel, by decide +kernel⟩
  rintro (⟨ch, h, hx⟩ | h | h)
  · revert ch; decide
  · revert h; decide
  · revert h; decide

/-- The connection ends after the first entry. -/
example : (cliMain clientSample ['b'] []).how = .ok 0 ∧ (cliMain { clientSample with input := clientSample.input.take 1 } ['b'] []).how = .ok 0 ∧
    (cliMain { clientSample with input := clientSample.input.take 1 } ['b'] []).out.length < (cliMain clientSample ['b'] []).out.length := by
  decide +kernel

/-- A user in the daemon's group, one outside, root; while the daemon runs, with and without receiving, when it has been killed, and when it has ended. -/
example :
    let k : World := { sock := some (0o770, 7), bound := true, listening := true }
    k.connect ⟨1000, [100, 7]⟩ = 0 ∧ k.connect ⟨1000, [100]⟩ = 13 ∧ k.connect ⟨0, [0]⟩ = 0 ∧
    { k with listening := false }.connect ⟨1000, [7]⟩ = 111 ∧ { k with bound := false }.connect ⟨1000, [7]⟩ = 111 ∧
    { k with sock := none }.connect ⟨1000, [7]⟩ = 2 ∧
    (run (fun _ => none) (parentSignal 15 2) 0 { k with forked := 2 }).2.sock = none := by
  decide +kernel

/-- The columns of a line. -/
example : (columns (hostWidth 100) (max 80 100 - 50 - hostWidth 100) ⟨3, lit "eth0", 1, 180, 178, { hostname := some (lit "sw1") }, []⟩).map
    (fun x => (x.2.1, x.2.2.1)) = [(0, 30), (31, 13), (45, 7), (53, 12), (66, 13), (80, 20)] := by decide +kernel

end Ladvd.Props
