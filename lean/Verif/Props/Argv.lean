import Verif.Lemmas.Argv
import Verif.Props.Client
/-!
# C97: the command line as typed
-/

namespace Ladvd.Props

open Ladvd Spec

/-! ## Writing options -/

/-- Options and operands are understood exactly if the command line can be read according to the rules, and then as it reads, for every order and grouping. -/
theorem C97_written (l : Libc) (ws : List Bytes) (os : List Opt) (args : List Bytes) :
    (getoptAll l daemonSpec none ws = (os, args) ∧ (∀ o ∈ os, o.ch ≠ '?') ↔ Written daemonLetters l.permute ws os args) ∧
    (getoptAll l clientSpec none ws = (os, args) ∧ (∀ o ∈ os, o.ch ≠ '?') ↔ Written clientLetters l.permute ws os args) := by
  refine ⟨⟨?_, written_all l daemon_fits⟩, ⟨?_, written_all l client_fits⟩⟩
  · rintro ⟨h, hc⟩
    have := all_written l daemon_fits ws.length ws (Nat.le_refl _) (by rw [h]; exact hc)
    rwa [h] at this
  · rintro ⟨h, hc⟩
    have := all_written l client_fits ws.length ws (Nat.le_refl _) (by rw [h]; exact hc)
    rwa [h] at this

theorem told_loop (h : Host) (os : List Opt) : ∀ s vs, (loopTold h os s vs).2.2 = mainLoop h os s := by
  induction os with
  | nil => intro s vs; rfl
  | cons o os ih =>
    intro s vs
    unfold loopTold mainLoop
    cases h1 : mainOpt h s o with
    | ok s1 => exact ih s1 _
    | _ => rfl

theorem told_count (h : Host) (os : List Opt) : ∀ s vs, (∃ s', mainLoop h os s = .ok s') → ¬ given os ['v'] → (loopTold h os s vs).2.1 = vs := by
  induction os with
  | nil => intro s vs _ _; rfl
  | cons o os ih =>
    intro s vs ⟨s', hs⟩ hg
    unfold loopTold
    unfold mainLoop at hs
    have hv : o.ch ≠ 'v' := by
      intro e
      exact hg ⟨o, List.mem_cons_self .., by rw [e]; decide⟩
    cases h1 : mainOpt h s o with
    | ok s1 =>
      rw [h1] at hs
      simp only [if_neg hv]
      exact ih s1 vs ⟨s', hs⟩ (fun ⟨x, hx, hc⟩ => hg ⟨x, List.mem_cons_of_mem _ hx, hc⟩)
    | _ => rw [h1] at hs

theorem valid_known (h : Host) (o : Opt) (hv : ValidOpt h o) : o.ch ≠ '?' := by
  intro e
  rcases hv with h1 | ⟨h1, _⟩ | ⟨h1, _⟩ | ⟨h1, _⟩ | ⟨h1, _⟩
  · rw [e] at h1; revert h1; decide
  all_goals exact absurd (e.symm.trans h1) (by decide)

/-- The settings after the options. -/
def settled (s : MainSt) (args : List Bytes) : MainSt := if args.length ≠ 0 then s.on OPT_ARGV else s

theorem settled_bit (s : MainSt) (args : List Bytes) (k : Nat) (hk : k ≠ 5) : (settled s args).opts.testBit k = s.opts.testBit k := by
  unfold settled
  split
  · rw [on_bit]; simp [OPT_ARGV, hk]
  · rfl

theorem settled_protos (s : MainSt) (args : List Bytes) : (settled s args).protos = s.protos ∧ (settled s args).user = s.user := by
  unfold settled
  split
  · exact ⟨rfl, rfl⟩
  · exact ⟨rfl, rfl⟩

theorem daemonMain_ok (l : Libc) (prog : Bytes) (h : Host) (ws : List Bytes) (os : List Opt) (args : List Bytes)
    (hg : getoptAll l daemonSpec none ws = (os, args)) (s : MainSt) (hs : mainLoop h os {} = .ok s) :
    daemonMain l prog h ws =
      if (!(settled s args).opts.has OPT_AUTO && (settled s args).protos == 0) = true then
        ⟨(loopTold h os {} 0).1 ++ myLog (settled s args).opts (logLevel (loopTold h os {} 0).2.1) 0 (lit "main") (lit "no protocols enabled") ++
          [.stderr (mainUsage prog)], .ok (.exits 1)⟩
      else if (settled s args).opts.has OPT_DEBUG = true then ⟨(loopTold h os {} 0).1, .ok (.starts (settled s args) none)⟩
      else match h.user (settled s args).user with
        | some pwd => ⟨(loopTold h os {} 0).1, .ok (.starts (settled s args) (some pwd))⟩
        | none => ⟨(loopTold h os {} 0).1 ++ myLog (settled s args).opts (max 0 (logLevel (loopTold h os {} 0).2.1)) 0 (lit "main")
            (lit "user " ++ (settled s args).user ++ lit " does not exist"), .ok (.exits 1)⟩ := by
  unfold daemonMain
  simp only [hg, told_loop, hs]
  rfl

theorem mainStart_ok (h : Host) (os : List Opt) (args : List Bytes) (s : MainSt) (hs : mainLoop h os {} = .ok s) :
    mainStart h os args =
      if (!(settled s args).opts.has OPT_AUTO && (settled s args).protos == 0) = true then .fail
      else if (settled s args).opts.has OPT_DEBUG = true then .ok (settled s args, none)
      else match h.user (settled s args).user with
        | none => .abort
        | some pwd => .ok (settled s args, some pwd) := by
  unfold mainStart
  simp only [hs, Res.bind_eq, Res.bind_ok]
  rfl

/-- The daemon starts exactly if the command line can be read, with the settings that its options mean (see C35). -/
theorem C97_starts (l : Libc) (prog : Bytes) (h : Host) (ws : List Bytes) (s : MainSt) (pwd : Option (Nat × Nat)) :
    (daemonMain l prog h ws).how = .ok (.starts s pwd) ↔
      ∃ os args, Written daemonLetters l.permute ws os args ∧ mainStart h os args = .ok (s, pwd) := by
  have key : (daemonMain l prog h ws).how = .ok (.starts s pwd) ↔
      mainStart h (getoptAll l daemonSpec none ws).1 (getoptAll l daemonSpec none ws).2 = .ok (s, pwd) := by
    cases hl : mainLoop h (getoptAll l daemonSpec none ws).1 {} with
    | ok s1 =>
      rw [daemonMain_ok l prog h ws _ _ rfl s1 hl, mainStart_ok h _ _ s1 hl]
      split
      · simp
      · split
        · simp
        · cases h.user (settled s1 (getoptAll l daemonSpec none ws).2).user with
          | none => simp
          | some p => simp
    | _ =>
      unfold daemonMain mainStart
      simp only [told_loop, hl, Res.bind_eq]
      constructor <;> (intro h; cases h)
  rw [key]
  constructor
  · intro hs
    refine ⟨_, _, ((C97_written l ws _ _).1).mp ⟨rfl, ?_⟩, hs⟩
    intro o ho
    exact valid_known h o (((C35_starts h _ _).mp ⟨s, pwd, hs⟩).1 o ho)
  · rintro ⟨os, args, hw, hs⟩
    rw [(((C97_written l ws os args).1).mpr hw).1]
    exact hs

/-- The client does what it does for the options and operands that the command line means; otherwise it prints the help, behind a complaint. -/
theorem C97_client (l : Libc) (w : CliWorld) (ix : Bytes → Option Nat) (ws : List Bytes) :
    (∀ os args, Written clientLetters l.permute ws os args →
      clientMain l w ix ws = cliMain { w with url := (argsOf 'p' os).head?.getD [] } (os.map (·.ch)) (args.map ix)) ∧
    ((¬ ∃ os args, Written clientLetters l.permute ws os args) →
      ∃ complaint, clientMain l w ix ws = ⟨[], complaint ++ helpText w.prog, [], .ok 1⟩) := by
  have hnone : ∀ os : List Opt, (∀ o ∈ os, o.ch ≠ '?') → ∀ c, cliTold os c = [] := by
    intro os
    induction os with
    | nil => intro _ c; rfl
    | cons o os ih =>
      intro h c
      unfold cliTold
      split
      · exact ih (fun x hx => h x (List.mem_cons_of_mem _ hx)) _
      · rw [if_neg (h o (List.mem_cons_self ..))]
  constructor
  · intro os args hw
    obtain ⟨hg, hc⟩ := ((C97_written l ws os args).2).mpr hw
    unfold clientMain
    simp only [hg, hnone os hc, List.nil_append]
    have : (argsOf 'p' os).head? = (os.find? (fun o => o.ch = 'p')).map (·.arg) := by
      unfold argsOf
      rw [List.head?_map, List.head?_filter]
    rw [this]
  · intro hn
    have hbad : ¬ Clean (getoptAll l clientSpec none ws).1 := by
      intro hc
      exact hn ⟨_, _, ((C97_written l ws _ _).2).mp ⟨rfl, hc⟩⟩
    unfold clientMain
    refine ⟨cliTold (getoptAll l clientSpec none ws).1 {}, ?_⟩
    have hm : Misused ((getoptAll l clientSpec none ws).1.map (·.ch)) ((getoptAll l clientSpec none ws).2.map ix) := by
      left
      false_or_by_contra
      rename_i hx
      apply hbad
      intro o ho e
      exact hx ⟨'?', List.mem_map.mpr ⟨o, ho, e⟩, Or.inr (by decide)⟩
    simp only
    rw [(C95_usage _ _ _).1 hm]

/-! ## What the user is told -/

/-- The help shown is the one that describes the options. -/
theorem usage_text (prog : Bytes) : mainUsage prog = daemonHelpText prog := by
  have h1 : ∀ (a b : Bytes) (l m : List Bytes), a = b → l = m → a :: l = b :: m := by intro a b l m h1 h2; rw [h1, h2]
  unfold mainUsage daemonHelpText
  rw [List.flatMap_def]
  refine congrArg (fun l => (lit "ladvd version 1.1.3\nUsage: " ++ prog ++ lit " [-a] [INTERFACE] [INTERFACE]\n") ++ List.flatten l) ?_
  unfold daemonHelp
  simp only [List.map_cons, List.map_nil]
  repeat refine h1 _ _ _ _ (by decide +kernel) ?_
  rfl

/-- The message about a missing user is not the help. -/
theorem not_help (prog : Bytes) (o : Opts) (level : Int) (x : Bytes) (r told : List LogOut) :
    r ++ myLog o (max 0 level) 0 (lit "main") (lit "user " ++ x ++ lit " does not exist") ≠ told ++ [.stderr (daemonHelpText prog)] := by
  unfold myLog
  rw [if_neg (by omega)]
  intro h
  split at h
  · have := (List.append_inj_right' h rfl)
    cases this
  · have h2 := (List.append_inj_right' h rfl)
    injection h2 with h2 _
    injection h2 with h2
    have h3 := congrArg List.head? h2
    have e1 : (daemonHelpText prog).head? = some 0x6c := by
      have e2 : (lit "ladvd version 1.1.3\nUsage: ") = 0x6c :: (lit "advd version 1.1.3\nUsage: ") := by decide +kernel
      unfold daemonHelpText
      rw [e2, List.cons_append, List.cons_append, List.cons_append, List.head?_cons]
    rw [e1] at h3
    split at h3
    · exact absurd h3 (by simp [lit])
    · exact absurd h3 (by simp [lit])

theorem opt_user (h : Host) (u : Bytes → Option (Nat × Nat)) (s : MainSt) (o : Opt) : mainOpt { h with user := u } s o = mainOpt h s o := by
  unfold mainOpt
  split <;> rfl

theorem loop_user (h : Host) (u : Bytes → Option (Nat × Nat)) (os : List Opt) : ∀ s, mainLoop { h with user := u } os s = mainLoop h os s := by
  induction os with
  | nil => intro s; rfl
  | cons o os ih =>
    intro s
    unfold mainLoop
    rw [opt_user]
    cases mainOpt h s o with
    | ok s1 => exact ih s1
    | _ => rfl

theorem no_protocols (h : Host) (os : List Opt) (args : List Bytes) (s : MainSt) (hs : mainLoop h os {} = .ok s) :
    (!(settled s args).opts.has OPT_AUTO && (settled s args).protos == 0) = true ↔ ¬ given os ['a', 'L', 'C', 'E', 'F', 'N'] := by
  have hv := (loop_ok h os {}).mp ⟨s, hs⟩
  by_cases hd : given os ['d']
  · have := C35_starts h os args
    rw [mainStart_ok h os args s hs] at this
    have hb : (settled s args).opts.has OPT_DEBUG = true := by
      unfold Opts.has
      rw [settled_bit _ _ _ (by decide), (loop_run h os {} s hs).bits]
      obtain ⟨o, ho, hc⟩ := hd
      have hc : o.ch = 'd' := by simpa using hc
      have h1 : os.any (fun o => decide (OPT_DEBUG ∈ optOn o.ch)) = true := List.any_eq_true.mpr ⟨o, ho, by rw [hc]; decide⟩
      have h2 : os.any (fun o => decide (OPT_DEBUG ∈ optOff o.ch)) = false := by
        rw [List.any_eq_false]
        intro x _ hx
        exact on_off 'd' x.ch OPT_DEBUG (by decide) (of_decide_eq_true hx)
      rw [h1, h2]
      simp
    constructor
    · intro h1 h2
      rw [if_pos h1] at this
      obtain ⟨_, _, h3⟩ := this.mpr ⟨hv, h2, Or.inl hd⟩
      cases h3
    · intro h2
      false_or_by_contra
      rename_i h1
      rw [if_neg h1, if_pos hb] at this
      exact h2 (this.mp ⟨_, _, rfl⟩).2.1
  · -- the same command line on a host that has every user
    have := C35_starts { h with user := fun _ => some (0, 0) } os args
    have hs' : mainLoop { h with user := fun _ => some (0, 0) } os {} = .ok s := by
      rw [← hs]
      exact loop_user h _ os {}
    rw [mainStart_ok _ os args s hs'] at this
    have hv' : ∀ o ∈ os, ValidOpt { h with user := fun _ => some (0, 0) } o := hv
    constructor
    · intro h1 h2
      rw [if_pos h1] at this
      obtain ⟨_, _, h3⟩ := this.mpr ⟨hv', h2, Or.inr rfl⟩
      cases h3
    · intro h2
      false_or_by_contra
      rename_i h1
      rw [if_neg h1] at this
      refine h2 (this.mp ?_).2.1
      split
      · exact ⟨_, _, rfl⟩
      · exact ⟨_, _, rfl⟩

/-- Unless the behaviour is undefined (see C35): the program ends with status 1 showing the help exactly if the command line cannot be read, contains an
option that is not acceptable, or requests no protocol; the help is then the last thing it shows. -/
theorem C97_help (l : Libc) (prog : Bytes) (h : Host) (ws : List Bytes) (e : MainEnd) (he : (daemonMain l prog h ws).how = .ok e) :
    (¬ ∃ os args, Written daemonLetters l.permute ws os args ∧ Acceptable h os) ↔
      e = .exits 1 ∧ ∃ told, (daemonMain l prog h ws).told = told ++ [.stderr (daemonHelpText prog)] := by
  obtain ⟨os, args, hg⟩ : ∃ os args, getoptAll l daemonSpec none ws = (os, args) := ⟨_, _, rfl⟩
  have uniq : ∀ os' args', Written daemonLetters l.permute ws os' args' → os' = os := by
    intro os' args' hw
    have := (((C97_written l ws os' args').1).mpr hw).1
    rw [hg] at this
    injection this with h1 _
    exact h1.symm
  cases hl : mainLoop h os {} with
  | ok s =>
    have hv := (loop_ok h os {}).mp ⟨s, hl⟩
    have hw : Written daemonLetters l.permute ws os args := ((C97_written l ws os args).1).mp ⟨hg, fun o ho => valid_known h o (hv o ho)⟩
    have hn := no_protocols h os args s hl
    rw [daemonMain_ok l prog h ws os args hg s hl] at he ⊢
    split at he
    · rename_i h1
      rw [if_pos h1]
      injection he with he
      subst he
      rw [← usage_text]
      exact ⟨fun _ => ⟨rfl, _, rfl⟩, fun _ ⟨os', args', hw', ha⟩ => hn.mp h1 (uniq os' args' hw' ▸ ha.2)⟩
    · rename_i h1
      rw [if_neg h1]
      have hgiven : given os ['a', 'L', 'C', 'E', 'F', 'N'] := by
        false_or_by_contra
        rename_i h2
        exact h1 (hn.mpr h2)
      have hl0 : ∃ os args, Written daemonLetters l.permute ws os args ∧ Acceptable h os := ⟨os, args, hw, hv, hgiven⟩
      refine ⟨fun h2 => absurd hl0 h2, ?_⟩
      rintro ⟨he1, told, htold⟩
      subst he1
      exfalso
      split at he
      · injection he with he
        cases he
      · rename_i h2
        rw [if_neg h2] at htold
        cases hu : h.user (settled s args).user with
        | some p => rw [hu] at he; injection he with he; cases he
        | none => rw [hu] at htold; exact not_help _ _ _ _ _ _ htold
  | fail =>
    unfold daemonMain at he ⊢
    simp only [hg, told_loop, hl] at he ⊢
    injection he with he
    subst he
    rw [← usage_text]
    refine ⟨fun _ => ⟨rfl, _, rfl⟩, fun _ ⟨os', args', hw', ha⟩ => ?_⟩
    obtain ⟨s, hs⟩ := (loop_ok h os {}).mpr (uniq os' args' hw' ▸ ha.1)
    rw [hl] at hs
    cases hs
  | oob => unfold daemonMain at he; simp only [hg, told_loop, hl] at he; cases he
  | abort => unfold daemonMain at he; simp only [hg, told_loop, hl] at he; cases he
  | stuck => unfold daemonMain at he; simp only [hg, told_loop, hl] at he; cases he

/-! ### In the foreground -/

/-- Acceptable options leave no message, without `-v`. -/
theorem valid_quiet (h : Host) (s : MainSt) (o : Opt) (hv : ValidOpt h o) : optTold h s 0 o = [] := by
  unfold optTold
  split
  · rename_i hc; exact absurd hc (valid_known h o hv)
  · rename_i hc
    have : h.hasIf o.arg = true := by
      rcases hv with h1 | ⟨h1, h2⟩ | ⟨h1, _⟩ | ⟨h1, _⟩ | ⟨h1, _⟩
      · rw [hc] at h1; exact absurd h1 (by decide)
      · exact h2
      all_goals exact absurd (hc.symm.trans h1) (by decide)
    rw [if_pos this]
  · rename_i hc
    have : h.hasIf o.arg = true ∨ (h.pton4 o.arg).isSome ∨ (h.pton6 o.arg).isSome := by
      rcases hv with h1 | ⟨h1, _⟩ | ⟨h1, h2⟩ | ⟨h1, _⟩ | ⟨h1, _⟩
      · rw [hc] at h1; exact absurd h1 (by decide)
      · exact absurd (hc.symm.trans h1) (by decide)
      · exact h2
      all_goals exact absurd (hc.symm.trans h1) (by decide)
    dsimp only
    split
    · rfl
    · rename_i hn
      rw [if_neg]
      · unfold myLog
        rw [if_pos (by decide)]
      · rintro ⟨h4, h6⟩
        rcases this with h1 | h1 | h1
        · exact hn h1
        · rw [Option.isNone_iff_eq_none] at h4; rw [h4] at h1; cases h1
        · rw [Option.isNone_iff_eq_none] at h6; rw [h6] at h1; cases h1
  · rfl

/-- What follows acceptable options. -/
theorem told_append (h : Host) (os rest : List Opt) : ∀ s, (∀ o ∈ os, ValidOpt h o) → ¬ given os ['v'] →
    ∃ s', mainLoop h os s = .ok s' ∧ loopTold h (os ++ rest) s 0 = loopTold h rest s' 0 := by
  induction os with
  | nil => intro s _ _; exact ⟨s, rfl, rfl⟩
  | cons o os ih =>
    intro s hv hg
    obtain ⟨s1, h1⟩ := opt_ok h s o (hv o (List.mem_cons_self ..))
    obtain ⟨s2, h2, h3⟩ := ih s1 (fun x hx => hv x (List.mem_cons_of_mem _ hx)) (fun ⟨x, hx, hc⟩ => hg ⟨x, List.mem_cons_of_mem _ hx, hc⟩)
    have hn : o.ch ≠ 'v' := by
      intro e
      exact hg ⟨o, List.mem_cons_self .., by rw [e]; decide⟩
    refine ⟨s2, ?_, ?_⟩
    · unfold mainLoop; rw [h1]; exact h2
    · rw [List.cons_append, loopTold, h1]
      simp only [if_neg hn]
      rw [valid_quiet h s o (hv o (List.mem_cons_self ..)), h3]
      rfl

/-- `-d` and `-f` end the background. -/
theorem fg_bit (h : Host) (os : List Opt) (s : MainSt) (hs : mainLoop h os {} = .ok s) : s.opts.testBit 0 = true ↔ ¬ given os ['d', 'f'] := by
  rw [(loop_run h os {} s hs).bits]
  have h1 : ∀ c, (0 ∈ optOff c) ↔ c ∈ ['d', 'f'] := by
    intro c
    constructor
    · intro hc
      unfold optOff at hc
      split at hc
      · decide
      · decide
      · exact absurd hc (by decide)
      · cases hc
    · intro hc
      rcases List.mem_cons.mp hc with rfl | hc
      · decide
      · rcases List.mem_cons.mp hc with rfl | hc
        · decide
        · cases hc
  have h2 : os.any (fun o => decide (0 ∈ optOff o.ch)) = true ↔ given os ['d', 'f'] := by
    rw [List.any_eq_true]
    constructor
    · rintro ⟨o, ho, hc⟩
      exact ⟨o, ho, (h1 _).mp (of_decide_eq_true hc)⟩
    · rintro ⟨o, ho, hc⟩
      exact ⟨o, ho, decide_eq_true ((h1 _).mpr hc)⟩
  have h3 : (({} : MainSt).opts.testBit 0) = true := by decide
  rw [h3, Bool.true_or, Bool.true_and, ← h2]
  cases os.any (fun o => decide (0 ∈ optOff o.ch)) <;> simp

/-- A message in the foreground. -/
theorem fg_log (o : Opts) (text : Bytes) (h : o.testBit 0 = false) : myLog o 0 0 (lit "main") text = [.stderr (text ++ [0x0a])] := by
  unfold myLog Opts.has
  rw [if_neg (by decide), if_neg (by rw [show OPT_DAEMON = 0 from rfl, h]; decide)]
  rfl

/-- A message in the background. -/
theorem bg_log (o : Opts) (level prio : Int) (func text : Bytes) (h : o.testBit 0 = true) : onTerminal (myLog o level prio func text) = [] := by
  unfold myLog Opts.has
  split
  · rfl
  · rw [if_pos (by rw [show OPT_DAEMON = 0 from rfl, h])]
    rfl

/-- In the foreground, the terminal shows why the command line is not accepted: the interface or address that does not exist, behind an option for the
foreground, or that no protocol is requested; then the help. -/
theorem C97_reason (l : Libc) (prog : Bytes) (h : Host) (ws : List Bytes) (args : List Bytes) :
    (∀ os₁ o os₂, Written daemonLetters l.permute ws (os₁ ++ o :: os₂) args → (∀ x ∈ os₁, ValidOpt h x) → given os₁ ['d', 'f'] → ¬ given os₁ ['v'] →
      (o.ch = 'e' → h.hasIf o.arg = false →
        onTerminal (daemonMain l prog h ws).told = lit "invalid exclude interface " ++ o.arg ++ lit "\n" ++ daemonHelpText prog) ∧
      (o.ch = 'm' → h.hasIf o.arg = false → h.pton4 o.arg = none → h.pton6 o.arg = none →
        onTerminal (daemonMain l prog h ws).told = lit "invalid management address " ++ o.arg ++ lit "\n" ++ daemonHelpText prog)) ∧
    (∀ os, Written daemonLetters l.permute ws os args → (∀ x ∈ os, ValidOpt h x) → given os ['d', 'f'] → ¬ given os ['v'] →
      ¬ given os ['a', 'L', 'C', 'E', 'F', 'N'] →
      onTerminal (daemonMain l prog h ws).told = lit "no protocols enabled\n" ++ daemonHelpText prog) := by
  constructor
  · intro os₁ o os₂ hw hv hd hg
    obtain ⟨hgo, _⟩ := ((C97_written l ws _ args).1).mpr hw
    obtain ⟨s, h1, h2⟩ := told_append h os₁ (o :: os₂) {} hv hg
    have hb : s.opts.testBit 0 = false := by
      cases hx : s.opts.testBit 0 with
      | false => rfl
      | true => exact absurd hd ((fg_bit h os₁ s h1).mp hx)
    have fin : ∀ text, mainOpt h s o = .fail → optTold h s 0 o = [.stderr (text ++ [0x0a])] →
        onTerminal (daemonMain l prog h ws).told = text ++ lit "\n" ++ daemonHelpText prog := by
      intro text hf ht
      have e : loopTold h (os₁ ++ o :: os₂) {} 0 = ([.stderr (text ++ [0x0a])], 0, .fail) := by
        rw [h2, loopTold, hf, ht]
      unfold daemonMain
      simp only [hgo, e, usage_text]
      unfold onTerminal
      simp only [List.singleton_append, List.flatMap_cons, List.flatMap_nil, List.append_nil]
      rfl
    constructor
    · intro hc hi
      refine fin (lit "invalid exclude interface " ++ o.arg) ?_ ?_
      · unfold mainOpt; rw [hc]; simp [hi]
      · unfold optTold; rw [hc]; simp only [hi]
        exact fg_log _ _ hb
    · intro hc hi h4 h6
      refine fin (lit "invalid management address " ++ o.arg) ?_ ?_
      · unfold mainOpt mainMgmt; rw [hc]; simp [hi, h4, h6]
      · unfold optTold; rw [hc]; simp only [hi, h4, h6, Option.isNone_none, and_self, if_true]
        exact fg_log _ _ (by rw [on_bit, hb]; rfl)
  · intro os hw hv hd hg hn
    obtain ⟨hgo, _⟩ := ((C97_written l ws _ args).1).mpr hw
    obtain ⟨s, h1, h2⟩ := told_append h os [] {} hv hg
    rw [List.append_nil] at h2
    have hb : s.opts.testBit 0 = false := by
      cases hx : s.opts.testBit 0 with
      | false => rfl
      | true => exact absurd hd ((fg_bit h os s h1).mp hx)
    rw [daemonMain_ok l prog h ws os args hgo s h1, if_pos ((no_protocols h os args s h1).mpr hn), h2]
    simp only [loopTold]
    rw [show logLevel 0 = 0 from by decide, fg_log _ _ (by rw [settled_bit _ _ _ (by decide)]; exact hb), usage_text]
    unfold onTerminal
    simp only [List.nil_append, List.singleton_append, List.flatMap_cons, List.flatMap_nil, List.append_nil]
    have : lit "no protocols enabled\n" = lit "no protocols enabled" ++ [0x0a] := by decide +kernel
    rw [this]

/-! ### In the background -/

theorem terminal_append (a b : List LogOut) : onTerminal (a ++ b) = onTerminal a ++ onTerminal b := by
  unfold onTerminal
  rw [List.flatMap_append]

/-- Without `-d` and `-f` no option leads to a message on the terminal. -/
theorem bg_loop (h : Host) (os : List Opt) : ∀ s vs, s.opts.testBit 0 = true → (∀ o ∈ os, o.ch ≠ '?') → ¬ given os ['d', 'f'] →
    onTerminal (loopTold h os s vs).1 = [] := by
  have one : ∀ (s : MainSt) vs (o : Opt), s.opts.testBit 0 = true → o.ch ≠ '?' → onTerminal (optTold h s vs o) = [] := by
    intro s vs o hs hc
    unfold optTold
    split
    · rename_i h1; exact absurd h1 hc
    · split
      · rfl
      · exact bg_log _ _ _ _ _ hs
    · dsimp only
      have hs' : (s.on OPT_MNETIF).opts.testBit 0 = true := by rw [on_bit, hs]; rfl
      split
      · rfl
      · split
        · exact bg_log _ _ _ _ _ hs'
        · exact bg_log _ _ _ _ _ hs'
    · rfl
  induction os with
  | nil => intro s vs _ _ _; rfl
  | cons o os ih =>
    intro s vs hs hc hg
    unfold loopTold
    have h0 := one s vs o hs (hc o (List.mem_cons_self ..))
    cases h1 : mainOpt h s o with
    | ok s1 =>
      simp only
      rw [terminal_append, h0, List.nil_append]
      refine ih s1 _ ?_ (fun x hx => hc x (List.mem_cons_of_mem _ hx)) (fun ⟨x, hx, hd⟩ => hg ⟨x, List.mem_cons_of_mem _ hx, hd⟩)
      rw [(opt_step h s s1 o h1).bits, hs]
      have : 0 ∉ optOff o.ch := by
        intro hx
        apply hg
        refine ⟨o, List.mem_cons_self .., ?_⟩
        unfold optOff at hx
        split at hx
        · rename_i e; rw [e]; decide
        · rename_i e; rw [e]; decide
        · exact absurd hx (by decide)
        · cases hx
      simp [this]
    | _ => exact h0

/-- Without `-d` and `-f` the terminal never shows a reason: nothing at all if the options are acceptable, even if the daemon does not start, and otherwise
only the help. -/
theorem C97_untold (l : Libc) (prog : Bytes) (h : Host) (ws : List Bytes) (os : List Opt) (args : List Bytes)
    (hw : Written daemonLetters l.permute ws os args) (hd : ¬ given os ['d', 'f']) (e : MainEnd) (he : (daemonMain l prog h ws).how = .ok e) :
    (Acceptable h os → onTerminal (daemonMain l prog h ws).told = []) ∧
    (¬ Acceptable h os → onTerminal (daemonMain l prog h ws).told = daemonHelpText prog) := by
  obtain ⟨hgo, hc⟩ := ((C97_written l ws _ args).1).mpr hw
  have hq := bg_loop h os {} 0 (by decide) hc hd
  have hhelp : onTerminal [.stderr (mainUsage prog)] = daemonHelpText prog := by
    rw [usage_text]
    unfold onTerminal
    simp
  cases hl : mainLoop h os {} with
  | ok s =>
    have hb : (settled s args).opts.testBit 0 = true := by
      rw [settled_bit _ _ _ (by decide)]
      exact (fg_bit h os s hl).mpr hd
    have hn := no_protocols h os args s hl
    have hv := (loop_ok h os {}).mp ⟨s, hl⟩
    rw [daemonMain_ok l prog h ws os args hgo s hl]
    split
    · rename_i h1
      refine ⟨fun ha => absurd ha.2 (hn.mp h1), fun _ => ?_⟩
      dsimp only
      rw [terminal_append, terminal_append, hq, bg_log _ _ _ _ _ hb, hhelp]
      rfl
    · rename_i h1
      refine ⟨fun _ => ?_, fun ha => ?_⟩
      · split
        · exact hq
        · split
          · exact hq
          · dsimp only
            rw [terminal_append, hq, bg_log _ _ _ _ _ hb]
            rfl
      · exfalso
        apply ha
        refine ⟨hv, ?_⟩
        false_or_by_contra
        rename_i h2
        exact h1 (hn.mpr h2)
  | fail =>
    have hn : ¬ Acceptable h os := by
      intro ha
      obtain ⟨s, hs⟩ := (loop_ok h os {}).mpr ha.1
      rw [hl] at hs
      cases hs
    refine ⟨fun ha => absurd ha hn, fun _ => ?_⟩
    unfold daemonMain
    simp only [hgo, told_loop, hl]
    rw [terminal_append, hq, hhelp]
    rfl
  | oob => unfold daemonMain at he; simp only [hgo, told_loop, hl] at he; cases he
  | abort => unfold daemonMain at he; simp only [hgo, told_loop, hl] at he; cases he
  | stuck => unfold daemonMain at he; simp only [hgo, told_loop, hl] at he; cases he

/-- A user that does not exist: the exit status is 1, and the reason is on the terminal with `-f` only. -/
theorem C97_user (l : Libc) (prog : Bytes) (h : Host) (ws : List Bytes) (os : List Opt) (args : List Bytes)
    (hw : Written daemonLetters l.permute ws os args) (ha : Acceptable h os) (hd : ¬ given os ['d'])
    (hu : h.user ((argsOf 'u' os).getLast?.getD (lit "ladvd")) = none) :
    (daemonMain l prog h ws).how = .ok (.exits 1) ∧
    (given os ['f'] → ¬ given os ['v'] → onTerminal (daemonMain l prog h ws).told =
      lit "user " ++ (argsOf 'u' os).getLast?.getD (lit "ladvd") ++ lit " does not exist\n") ∧
    (¬ given os ['f'] → onTerminal (daemonMain l prog h ws).told = []) := by
  obtain ⟨hgo, hc⟩ := ((C97_written l ws _ args).1).mpr hw
  obtain ⟨s, hl⟩ := (loop_ok h os {}).mpr ha.1
  have hn : ¬ _ := fun h1 => (no_protocols h os args s hl).mp h1 ha.2
  have hdb : ¬ (settled s args).opts.has OPT_DEBUG = true := by
    unfold Opts.has
    rw [settled_bit _ _ _ (by decide), (loop_run h os {} s hl).bits]
    have h1 : os.any (fun o => decide (OPT_DEBUG ∈ optOn o.ch)) = false := by
      rw [List.any_eq_false]
      intro x hx hc
      apply hd
      refine ⟨x, hx, ?_⟩
      have hc := of_decide_eq_true hc
      unfold optOn at hc
      split at hc <;> first | (rename_i e; rw [e]; decide) | (exact absurd hc (by decide))
    rw [h1]
    simp [show (({} : MainSt).opts.testBit OPT_DEBUG) = false from by decide]
  have hus : (settled s args).user = (argsOf 'u' os).getLast?.getD (lit "ladvd") := by
    rw [(settled_protos s args).2, (loop_run h os {} s hl).user]
  have hm : daemonMain l prog h ws = ⟨(loopTold h os {} 0).1 ++ myLog (settled s args).opts (max 0 (logLevel (loopTold h os {} 0).2.1)) 0 (lit "main")
      (lit "user " ++ (argsOf 'u' os).getLast?.getD (lit "ladvd") ++ lit " does not exist"), .ok (.exits 1)⟩ := by
    rw [daemonMain_ok l prog h ws os args hgo s hl, if_neg hn, if_neg hdb, hus, hu]
  refine ⟨by rw [hm], ?_, ?_⟩
  · intro hf hv
    obtain ⟨s', h1, h2⟩ := told_append h os [] {} ha.1 hv
    rw [List.append_nil] at h2
    have hb : (settled s args).opts.testBit 0 = false := by
      rw [settled_bit _ _ _ (by decide)]
      cases hx : s.opts.testBit 0 with
      | false => rfl
      | true =>
        obtain ⟨o, ho, hc⟩ := hf
        exact absurd ⟨o, ho, by rw [show o.ch = 'f' from by simpa using hc]; decide⟩ ((fg_bit h os s hl).mp hx)
    rw [hm, h2]
    simp only [loopTold]
    rw [show max 0 (logLevel 0) = 0 from by decide, fg_log _ _ hb]
    have : lit " does not exist\n" = lit " does not exist" ++ [0x0a] := by decide +kernel
    rw [this]
    unfold onTerminal
    simp [List.append_assoc]
  · intro hf
    refine (C97_untold l prog h ws os args hw ?_ (.exits 1) (by rw [hm])).1 ha
    rintro ⟨o, ho, hx⟩
    rcases List.mem_cons.mp hx with hx | hx
    · exact hd ⟨o, ho, by rw [hx]; decide⟩
    · exact hf ⟨o, ho, hx⟩

/-! ## What the manuals say -/

/-- The help describes the letters that the daemon accepts, with an argument exactly where one is taken, itself, and all but one of those in the manual. -/
theorem C97_documented_partial :
    (∀ ch : Char, ch ≠ 'y' → (ch ∈ daemonHelp.map (·.1) ↔ ch = 'h' ∨ ∃ h s arg s', mainOpt h s ⟨ch, arg⟩ = .ok s')) ∧
    (∀ x ∈ daemonHelp, x.2.1 ≠ [] ↔ x.1 ∈ daemonLetters.valued) ∧
    (∀ ch : Char, ch ≠ 'y' → (ch ∈ daemonHelp.map (·.1) ↔ ch ∈ daemonLetters.flags ∨ ch ∈ daemonLetters.valued)) := by
  have hin : ∀ ch : Char, ch ≠ 'y' → (ch ∈ daemonHelp.map (·.1) ↔ ch ∈ daemonLetters.flags ∨ ch ∈ daemonLetters.valued) := by
    intro ch hy
    have h1 : ∀ ch ∈ daemonHelp.map (·.1), ch ∈ daemonLetters.flags ∨ ch ∈ daemonLetters.valued := by decide +kernel
    have h2 : ∀ ch ∈ daemonLetters.flags ++ daemonLetters.valued, ch ≠ 'y' → ch ∈ daemonHelp.map (·.1) := by decide +kernel
    exact ⟨h1 ch, fun h => h2 ch (List.mem_append.mpr h) hy⟩
  refine ⟨?_, by decide +kernel, hin⟩
  intro ch hy
  rw [hin ch hy]
  constructor
  · intro h
    by_cases hh : ch = 'h'
    · exact Or.inl hh
    · right
      refine ⟨{ hasIf := fun _ => true }, {}, lit "nl", ?_⟩
      apply opt_ok
      rcases h with h | h
      · left
        have h1 : ∀ ch ∈ daemonLetters.flags, ch ≠ 'h' →
            ch ∈ ['a', 'd', 'f', 'n', 'o', 'q', 'r', 's', 't', 'u', 'v', 'w', 'y', 'z', 'L', 'C', 'E', 'F', 'N'] := by decide +kernel
        exact h1 ch h hh
      · rcases List.mem_cons.mp h with rfl | h
        · exact Or.inr (Or.inl ⟨rfl, rfl⟩)
        · rcases List.mem_cons.mp h with rfl | h
          · exact Or.inr (Or.inr (Or.inl ⟨rfl, Or.inl rfl⟩))
          · rcases List.mem_cons.mp h with rfl | h
            · left; decide
            · rcases List.mem_cons.mp h with rfl | h
              · exact Or.inr (Or.inr (Or.inr (Or.inl ⟨rfl, by decide +kernel, by decide +kernel⟩)))
              · rcases List.mem_cons.mp h with rfl | h
                · exact Or.inr (Or.inr (Or.inr (Or.inr ⟨rfl, by decide +kernel⟩)))
                · cases h
  · rintro (rfl | ⟨h, s, arg, s', ho⟩)
    · exact Or.inl (by decide)
    · rcases (opt_step h s s' _ ho).valid with h1 | ⟨h1, _⟩ | ⟨h1, _⟩ | ⟨h1, _⟩ | ⟨h1, _⟩
      · have h2 : ∀ ch ∈ ['a', 'd', 'f', 'n', 'o', 'q', 'r', 's', 't', 'u', 'v', 'w', 'y', 'z', 'L', 'C', 'E', 'F', 'N'],
            ch ∈ daemonLetters.flags ∨ ch ∈ daemonLetters.valued := by decide +kernel
        exact h2 ch h1
      all_goals (right; dsimp only at h1; rw [h1]; decide)

/-- `-y` is accepted and in the manual, but not in the help. -/
theorem C97_undocumented : 'y' ∈ daemonLetters.flags ∧ 'y' ∉ daemonHelp.map (·.1) ∧ ∀ h s arg, ∃ s', mainOpt h s ⟨'y', arg⟩ = .ok s' := by
  refine ⟨by decide, by decide, fun h s arg => opt_ok h s _ (Or.inl ?_)⟩
  have h1 : 'y' ∈ ['a', 'd', 'f', 'n', 'o', 'q', 'r', 's', 't', 'u', 'v', 'w', 'y', 'z', 'L', 'C', 'E', 'F', 'N'] := by decide
  exact h1

/-- The manual's default of LLDP does not exist: without options the daemon does not start, and the terminal does not say why. -/
theorem C97_no_default (l : Libc) (prog : Bytes) (h : Host) :
    (daemonMain l prog h []).how = .ok (.exits 1) ∧ onTerminal (daemonMain l prog h []).told = daemonHelpText prog := by
  have hw : Written daemonLetters l.permute [] [] [] := .none
  have hna : ¬ Acceptable h [] := fun ha => (by obtain ⟨o, ho, _⟩ := ha.2; cases ho)
  have he : (daemonMain l prog h []).how = .ok (.exits 1) := by
    rw [daemonMain_ok l prog h [] [] [] (by rw [getoptAll]) {} rfl, if_pos (by decide)]
  exact ⟨he, (C97_untold l prog h [] [] [] hw (by rintro ⟨o, ho, _⟩; cases ho) _ he).2 hna⟩

/-- The place of `-f` decides whether the terminal shows the reason. -/
theorem C97_order : let l : Libc := ⟨true, fun _ => [], fun _ => []⟩
    (daemonMain l (lit "ladvd") {} [lit "-Lf", lit "-e", lit "eth9"]).told.head? = some (.stderr (lit "invalid exclude interface eth9\n")) ∧
    (daemonMain l (lit "ladvd") {} [lit "-L", lit "-e", lit "eth9", lit "-f"]).told.head? = some (.syslog 6 (lit "invalid exclude interface eth9")) := by
  decide +kernel

/-- In the background the shell is told that all is well although nothing was started, because a daemon is running already. -/
theorem C97_status (o : Opts) (ho : o.testBit 0 = true) (dir : Bytes) (pwd : Option (Nat × Nat)) (w : World) (hw : w.lockedElse = true) :
    (run (fun _ => none) (startProg o dir pwd) 0 w).1 = .exited 1 ∧
    shellStatus (fun _ => none) o (run (fun _ => none) (startProg o dir pwd) 0 w).1 = some 0 := by
  refine ⟨?_, by unfold shellStatus; rw [if_pos ⟨ho, rfl⟩]⟩
  unfold startProg
  have : o.has OPT_DAEMON = true := ho
  simp [this, must, run, World.step, World.sys, hw, myFatal]

/-! ## Examples -/

/-- glibc, for a program called `ladvd`. -/
def glibcSample : Libc where
  permute := true
  invalid c := lit "ladvd: invalid option -- '" ++ [c] ++ lit "'\n"
  lacking c := lit "ladvd: option requires an argument -- '" ++ [c] ++ lit "'\n"

/-- One command line in three ways: grouped with an attached argument, an operand in front, and separate words with the end of the options marked. -/
example : Written daemonLetters true [lit "-Lfebr0", lit "eth0"] [⟨'L', []⟩, ⟨'f', []⟩, ⟨'e', lit "br0"⟩] [lit "eth0"] ∧
    Written daemonLetters true [lit "eth0", lit "-Lfe", lit "br0"] [⟨'L', []⟩, ⟨'f', []⟩, ⟨'e', lit "br0"⟩] [lit "eth0"] ∧
    Written daemonLetters false [lit "-L", lit "-f", lit "-e", lit "br0", lit "--", lit "eth0"] [⟨'L', []⟩, ⟨'f', []⟩, ⟨'e', lit "br0"⟩] [lit "eth0"] := by
  refine ⟨?_, ?_, ?_⟩
  · exact ((C97_written glibcSample _ _ _).1).mp (by decide +kernel)
  · exact ((C97_written glibcSample _ _ _).1).mp (by decide +kernel)
  · exact ((C97_written { glibcSample with permute := false } _ _ _).1).mp (by decide +kernel)

/-- Elsewhere than with glibc, options behind an operand are operands. -/
example : Written daemonLetters false [lit "eth0", lit "-L"] [] [lit "eth0", lit "-L"] := .rest _ (Or.inl (by decide +kernel)) rfl _

/-- The daemon starts; a letter that does not exist, one without its argument, and a user that does not exist. -/
example : (daemonMain glibcSample (lit "ladvd") sampleHost [lit "-Lfebr0", lit "eth0"]).how =
      .ok (.starts { opts := 2 + 32, excl := [lit "br0"], protos := 1 } (some (110, 120))) ∧
    onTerminal (daemonMain glibcSample (lit "ladvd") sampleHost [lit "-Lx"]).told = lit "ladvd: invalid option -- 'x'\n" ++ daemonHelpText (lit "ladvd") ∧
    (daemonMain glibcSample (lit "ladvd") sampleHost [lit "-L", lit "-e"]).told.head? =
      some (.stderr (lit "ladvd: option requires an argument -- 'e'\n")) ∧
    onTerminal (daemonMain glibcSample (lit "ladvd") sampleHost [lit "-fLu", lit "bob"]).told = lit "user bob does not exist\n" ∧
    daemonMain glibcSample (lit "ladvd") sampleHost [lit "-Lu", lit "bob"] = ⟨[.syslog 6 (lit "user bob does not exist")], .ok (.exits 1)⟩ := by
  refine ⟨by decide +kernel, ?_, by decide +kernel, by decide +kernel, by decide +kernel⟩
  rw [← usage_text]
  decide +kernel

/-- An interface that does not exist behind `-f`, and none of the protocols. -/
example : onTerminal (daemonMain glibcSample (lit "ladvd") sampleHost [lit "-f", lit "-e", lit "eth9", lit "-L"]).told =
    lit "invalid exclude interface eth9\n" ++ daemonHelpText (lit "ladvd") := by
  have := ((C97_reason glibcSample (lit "ladvd") sampleHost [lit "-f", lit "-e", lit "eth9", lit "-L"] []).1 [⟨'f', []⟩] ⟨'e', lit "eth9"⟩ [⟨'L', []⟩]
    (((C97_written glibcSample _ _ _).1).mp (by decide +kernel)) (fun x hx => Or.inl (by rw [List.mem_singleton.mp hx]; decide)) (by decide) (by decide)).1
    rfl (by decide +kernel)
  have e : lit "invalid exclude interface eth9\n" = lit "invalid exclude interface " ++ lit "eth9" ++ lit "\n" := by decide +kernel
  rw [this, e]

/-- The client, posting to a server; and an option it does not have. -/
example : (clientMain glibcSample clientSample (fun _ => some 3) [lit "-phttp://h/x", lit "-C"]).posts.length = 2 ∧
    (clientMain glibcSample clientSample (fun _ => some 3) [lit "-x"]).how = .ok 1 ∧
    clientMain glibcSample clientSample (fun _ => some 3) [lit "eth0", lit "-b"] = cliMain clientSample ['b'] [some 3] := by
  decide +kernel

/-- The program decides by its name. -/
example : mainOf glibcSample clientSample (fun _ => some 3) sampleHost [lit "-b"] = .inl (cliMain clientSample ['b'] []) ∧
    mainOf glibcSample { clientSample with prog := lit "ladvd" } (fun _ => some 3) sampleHost [lit "-Lu", lit "bob"] =
      .inr ⟨[.syslog 6 (lit "user bob does not exist")], .ok (.exits 1)⟩ := by
  decide +kernel

/-- A daemon in the background although another one is running. -/
example : (run (fun _ => none) (startProg 1 (lit "/var/run/ladvd") (some (110, 120))) 0 { files := sampleFiles, lockedElse := true }).1 = .exited 1 := by
  decide +kernel

end Ladvd.Props
