import Verif.Spec.Site
import Verif.Props.Start
/-!
# C96: starting and ending other daemons leaves the control socket of a running one alone
-/

namespace Ladvd.Props

open Ladvd Spec

/-- A start in the background while the lock is held ends before it has done anything. -/
theorem locked_start (deny : Nat → Option Nat) (o : Opts) (dir : Bytes) (pwd : Option (Nat × Nat)) (n : Nat) (w : World) (ho : o.testBit 0 = true)
    (hl : w.lockedElse = true) : run deny (startProg o dir pwd) n w = (.exited 1, w) := by
  have hd : o.has OPT_DAEMON = true := ho
  unfold startProg
  dsimp only
  rw [if_pos hd]
  unfold must
  rw [run]
  unfold World.step
  cases h0 : deny n with
  | some e => rfl
  | none =>
    simp only [World.sys]
    rw [run]
    unfold World.step
    cases h1 : deny (n + 1) with
    | some e => rfl
    | none =>
      simp only [World.sys]
      rw [run]
      unfold World.step
      cases h2 : deny (n + 1 + 1) with
      | some e => rfl
      | none =>
        simp only [World.sys, hl, if_true]
        rfl

theorem start_locked (s : Site) (l : Launch) (ho : l.o.testBit 0 = true) (hl : s.lock.isSome = true) : s.start l = s := by
  unfold Site.start
  rw [locked_start l.denyP l.o l.dir l.pwd 0 _ ho (by exact hl)]
  rfl

/-- While a daemon that was started in the background is the only one, every further start in the background changes nothing, however often it is
tried and whatever fails: the daemon stays reachable until it ends. -/
theorem C96_kept_partial (s : Site) (i : Nat) (hl : s.lock = some i) (hup : ∀ x ∈ s.up, x.1 = i) (es : List SiteEvent)
    (hb : ∀ e ∈ es, Background e) (he : ∀ e ∈ es, ¬ EndOf i e) : s.run es = s := by
  induction es with
  | nil => rfl
  | cons e es ih =>
    have h1 : s.step e = s := by
      have hno : ∀ j, j ≠ i → s.up.any (fun x => x.1 == j) = false := by
        intro j hj
        rw [List.any_eq_false]
        intro x hx
        rw [hup x hx]
        simpa using Ne.symm hj
      cases e with
      | start l => exact start_locked s l (hb _ List.mem_cons_self).1 (by rw [hl]; rfl)
      | stop j =>
        unfold Site.step
        dsimp only
        rw [hno j (he _ List.mem_cons_self)]
        rfl
      | kill j =>
        unfold Site.step
        dsimp only
        rw [hno j (he _ List.mem_cons_self)]
        rfl
    unfold Site.run
    rw [List.foldl_cons, h1]
    exact ih (fun x hx => hb x (List.mem_cons_of_mem _ hx)) (fun x hx => he x (List.mem_cons_of_mem _ hx))

/-- A start with these options on a host with a suitable directory. -/
def launch (i : Nat) (o : Opts) : Launch where
  id := i
  o := o
  dir := lit "/var/run/ladvd"
  pwd := some (110, 120)
  base := { files := sampleFiles, pid := 77 }
  denyP := fun _ => none
  denyC := fun _ => none

/-- A start that succeeds. -/
theorem start_cases (s : Site) (l : Launch) : (∃ x, s.start l = { s with sock := x }) ∨
    ∃ p c, run l.denyP (startProg l.o l.dir l.pwd) 0 { s.world l.base with forked := 1 } = (.running, p) ∧
      run l.denyC (childInit l.o l.dir l.pwd) 0 { s.world l.base with sock := p.sock, forked := 0 } = (.running, c) ∧
      s.start l = { sock := c.sock, owner := if c.bound then some l.id else s.owner, lock := if p.locked then some l.id else s.lock,
                    up := (l.id, l.o) :: s.up } := by
  unfold Site.start
  cases hP : run l.denyP (startProg l.o l.dir l.pwd) 0 { s.world l.base with forked := 1 } with
  | mk e p =>
    cases e with
    | running =>
      dsimp only
      cases hC : run l.denyC (childInit l.o l.dir l.pwd) 0 { s.world l.base with sock := p.sock, forked := 0 } with
      | mk e c =>
        cases e with
        | running => exact Or.inr ⟨p, c, rfl, hC, rfl⟩
        | exited _ => exact Or.inl ⟨_, rfl⟩
        | crashed => exact Or.inl ⟨_, rfl⟩
    | exited _ => exact Or.inl ⟨_, rfl⟩
    | crashed => exact Or.inl ⟨_, rfl⟩

/-- The sockets after a successful start. -/
theorem start_sock (s : Site) (l : Launch) (hroot : l.base.root = lit "/") (h6 : l.o.testBit 6 = false) (h4 : l.o.testBit 4 = false) (p c : World)
    (hC : run l.denyC (childInit l.o l.dir l.pwd) 0 { s.world l.base with sock := p.sock, forked := 0 } = (.running, c)) :
    c.bound = true ∧ c.sock.isSome = true := by
  obtain ⟨uid, gid, -, hb, hs, -⟩ := (C45_open l.denyC l.o l.dir l.pwd 0 { s.world l.base with sock := p.sock, forked := 0 } c hroot rfl rfl h6 hC).2 h4
  exact ⟨hb, by rw [hs]; rfl⟩

/-- The daemons of a host on which all are started in the background. -/
def OneAtATime (s : Site) : Prop :=
  (s.up = [] ∧ s.lock = none) ∨
    ∃ i o, s.up = [(i, o)] ∧ s.lock = some i ∧ (o.testBit 4 = false → s.sock.isSome = true ∧ s.owner = some i)

theorem site_step (s : Site) (hs : OneAtATime s) (e : SiteEvent) (hb : Background e) : OneAtATime (s.step e) := by
  cases e with
  | start l =>
    show OneAtATime (s.start l)
    rcases hs with ⟨h1, h2⟩ | ⟨i, o, h1, h2, h3⟩
    · rcases start_cases s l with ⟨x, hx⟩ | ⟨p, c, hP, hC, hx⟩
      · rw [hx]; exact Or.inl ⟨h1, h2⟩
      · rw [hx]
        obtain ⟨-, hlock, -⟩ := C46_pidfile l.denyP l.o l.dir l.pwd 0 _ p hb.1 hP
        refine Or.inr ⟨l.id, l.o, by rw [h1], by rw [hlock]; rfl, fun h4 => ?_⟩
        obtain ⟨b1, b2⟩ := start_sock s l hb.2.2 hb.2.1 h4 p c hC
        exact ⟨b2, by rw [b1]; rfl⟩
    · rw [start_locked s l hb.1 (by rw [h2]; rfl)]
      exact Or.inr ⟨i, o, h1, h2, h3⟩
  | stop j =>
    unfold Site.step
    dsimp only
    split
    · rename_i hj
      rcases hs with ⟨h1, h2⟩ | ⟨i, o, h1, h2, h3⟩
      · rw [h1] at hj; cases hj
      · rw [h1] at hj
        have : i = j := by simpa using hj
        subst this
        exact Or.inl ⟨by simp [Site.gone, h1], by simp [Site.gone, h2]⟩
    · exact hs
  | kill j =>
    unfold Site.step
    dsimp only
    split
    · rename_i hj
      rcases hs with ⟨h1, h2⟩ | ⟨i, o, h1, h2, h3⟩
      · rw [h1] at hj; cases hj
      · rw [h1] at hj
        have : i = j := by simpa using hj
        subst this
        exact Or.inl ⟨by simp [Site.gone, h1], by simp [Site.gone, h2]⟩
    · exact hs

theorem site_run (es : List SiteEvent) : ∀ (s : Site), OneAtATime s → (∀ e ∈ es, Background e) → OneAtATime (s.run es) := by
  induction es with
  | nil => intro s h _; exact h
  | cons e es ih =>
    intro s h hb
    exact ih _ (site_step s h e (hb e List.mem_cons_self)) (fun x hx => hb x (List.mem_cons_of_mem _ hx))

/-- On a host on which all daemons are started in the background there is at most one at a time, and clients reach it whenever it receives (and is not to
end at once, `-o`), whatever was started, ended or killed before and whichever calls failed.  Missing: daemons in the foreground, see `C96_taken` and
`C96_removed`. -/
theorem C96_reachable_partial (es : List SiteEvent) (hb : ∀ e ∈ es, Background e) (i : Nat) (o : Opts) (hi : (i, o) ∈ (Site.run {} es).up) :
    (Site.run {} es).up = [(i, o)] ∧ (o.testBit 2 = true → o.testBit 4 = false → (Site.run {} es).Reaches i) := by
  rcases site_run es {} (Or.inl ⟨rfl, rfl⟩) hb with ⟨h1, -⟩ | ⟨j, o', h1, -, h3⟩
  · rw [h1] at hi; cases hi
  · have hi0 := hi
    rw [h1, List.mem_singleton] at hi
    cases hi
    refine ⟨h1, fun h2 h4 => ?_⟩
    obtain ⟨a, b⟩ := h3 h4
    exact ⟨a, b, o, hi0, h2⟩

/-- A daemon started in the foreground takes the control socket from the one that is running, which goes on without it. -/
theorem C96_taken (s : Site) (i : Nat) (o : Opts) (hi : (i, o) ∈ s.up) (l : Launch) (hid : l.id ≠ i) (hroot : l.base.root = lit "/")
    (h6 : l.o.testBit 6 = false) (h4 : l.o.testBit 4 = false) (hs : (l.id, l.o) ∈ (s.start l).up) (hnew : ∀ x ∈ s.up, x.1 ≠ l.id) :
    (i, o) ∈ (s.start l).up ∧ ¬ (s.start l).Reaches i := by
  rcases start_cases s l with ⟨x, hx⟩ | ⟨p, c, hP, hC, hx⟩
  · rw [hx] at hs
    exact absurd rfl (hnew _ hs)
  · obtain ⟨b1, -⟩ := start_sock s l hroot h6 h4 p c hC
    rw [hx]
    refine ⟨List.mem_cons_of_mem _ hi, ?_⟩
    rintro ⟨-, h2, -⟩
    simp only [b1, if_true, Option.some.injEq] at h2
    exact hid h2

theorem quit_sock (sig : Nat) (pid : Int) (w : World) : (run (fun _ => none) (parentSignal sig pid) 0 w).2.sock = none := by
  have hq : ∀ (m : Nat) (x : World), ((run (fun _ => none) (.call .unlinkSock fun _ => .done (.exited 0)) m x).2).sock = none := by
    intro m x
    simp only [run, World.step, World.sys]
    cases hs : x.sock with
    | none => exact hs
    | some _ => rfl
  unfold parentSignal
  rw [run]
  dsimp only
  split
  · exact hq _ _
  · rw [run]; exact hq _ _

/-- The end of any daemon removes the control socket, whoever made it: even a run that has none of its own (`-o`, `-d`) leaves the daemons still running
unreachable, until one is started again. -/
theorem C96_removed (s : Site) (j : Nat) (o : Opts) (hj : (j, o) ∈ s.up) (es : List SiteEvent) (he : ∀ e ∈ es, ∀ l, e ≠ .start l) (i : Nat) :
    ¬ ((s.step (.stop j)).run es).Reaches i ∧ (∀ o, (i, o) ∈ s.up → i ≠ j → (i, o) ∈ (s.step (.stop j)).up) := by
  have hany : s.up.any (fun x => x.1 == j) = true := List.any_eq_true.mpr ⟨_, hj, by simp⟩
  have hstep : (s.step (.stop j)).sock = none ∧ (s.step (.stop j)).up = s.up.filter (fun x => x.1 != j) := by
    unfold Site.step
    dsimp only
    rw [if_pos hany]
    exact ⟨quit_sock _ _ _, rfl⟩
  constructor
  · have : ∀ (es : List SiteEvent) (t : Site), t.sock = none → (∀ e ∈ es, ∀ l, e ≠ .start l) → (t.run es).sock = none := by
      intro es
      induction es with
      | nil => intro t h _; exact h
      | cons e es ih =>
        intro t h hn
        refine ih (t.step e) ?_ (fun x hx => hn x (List.mem_cons_of_mem _ hx))
        cases e with
        | start l => exact absurd rfl (hn _ List.mem_cons_self l)
        | stop k =>
          unfold Site.step
          dsimp only
          split
          · exact quit_sock _ _ _
          · exact h
        | kill k =>
          unfold Site.step
          dsimp only
          split
          · exact h
          · exact h
    rintro ⟨h1, -⟩
    rw [this es _ hstep.1 he] at h1
    cases h1
  · intro o hi hne
    rw [hstep.2]
    exact List.mem_filter.mpr ⟨hi, by simpa using hne⟩

/-- The privileged process of a start in the background reaches its event loop if no call fails. -/
theorem parent_reaches (o : Opts) (dir : Bytes) (pwd : Option (Nat × Nat)) (w : World) (hf : w.forked = 1) (hl : w.lockedElse = false)
    (hc : w.caps = none) (hg : w.childGone = false) : ∃ w', run (fun _ => none) (startProg o dir pwd) 0 w = (.running, w') := by
  have hpair : ∀ (k : Prog) (n : Nat) (x : World), ∃ m, run (fun _ => none) (mySocketpair k) n x = run (fun _ => none) k m x := by
    intro k n x
    exact ⟨_, rfl⟩
  have hinit : ∀ (n : Nat) (x : World), x.forked = 1 → x.caps = none → x.childGone = false →
      ∃ w', run (fun _ => none) (forkProg o dir pwd) n x = (.running, w') := by
    intro n x hf hc hg
    unfold forkProg
    simp only [run, World.step, World.sys, hf]
    unfold parentInit
    have hall : parentCaps.all x.has = true := by
      rw [List.all_eq_true]
      intro c _
      unfold World.has
      rw [hc]
    unfold must
    simp only [run, World.step, World.sys]
    split
    · refine ⟨x, ?_⟩
      simp [run, World.step, World.sys, hf, hg]
    · simp only [run, World.step, World.sys, hall, if_true]
      refine ⟨{ x with caps := some parentCaps }, ?_⟩
      simp [run, hf, hg]
  have htail : ∀ (n : Nat) (x : World), x.forked = 1 → x.caps = none → x.childGone = false →
      ∃ w', run (fun _ => none) (mySocketpair <| mySocketpair <| forkProg o dir pwd) n x = (.running, w') := by
    intro n x h1 h2 h3
    obtain ⟨m, hm⟩ := hpair (mySocketpair <| forkProg o dir pwd) n x
    obtain ⟨m', hm'⟩ := hpair (forkProg o dir pwd) m x
    obtain ⟨w', h⟩ := hinit m' x h1 h2 h3
    exact ⟨w', by rw [hm, hm', h]⟩
  unfold startProg
  dsimp only
  split
  · unfold must
    simp only [run, World.step, World.sys, hl, Bool.false_eq_true, if_false]
    exact htail _ _ hf hc hg
  · exact htail _ _ hf hc hg

/-- Whatever has happened, and whatever socket was left behind: when the lock is free, a start in the background by root, with a trusted directory and
without failing calls, makes a daemon that clients reach. -/
theorem C96_recovers (s : Site) (hlock : s.lock = none) (l : Launch) (hb : Background (.start l)) (h2 : l.o.testBit 2 = true) (h4 : l.o.testBit 4 = false)
    (uid gid : Nat) (hpwd : l.pwd = some (uid, gid)) (ht : Trusted l.base.files l.dir) (hd : l.dir.head? = some 0x2f) (hlen : l.dir.length < 4096)
    (hcaps : l.base.caps = none) (hgone : l.base.childGone = false) (hp : ∀ n, l.denyP n = none) (hc : ∀ n, l.denyC n = none) :
    (s.start l).Reaches l.id := by
  have e1 : l.denyP = fun _ => none := funext hp
  have e2 : l.denyC = fun _ => none := funext hc
  obtain ⟨p, hP⟩ := parent_reaches l.o l.dir l.pwd { s.world l.base with forked := 1 } rfl (by show s.lock.isSome = false; rw [hlock]; rfl) hcaps hgone
  obtain ⟨c, hC⟩ := C30_reaches l.o l.dir uid gid { s.world l.base with sock := p.sock, forked := 0 } hcaps hb.2.2 ht hd hlen
  rw [← hpwd, ← e2] at hC
  rw [← e1] at hP
  obtain ⟨b1, b2⟩ := start_sock s l hb.2.2 hb.2.1 h4 p c hC
  have hs : s.start l = ⟨c.sock, if c.bound then some l.id else s.owner, if p.locked then some l.id else s.lock, (l.id, l.o) :: s.up⟩ := by
    unfold Site.start
    rw [hP]
    dsimp only
    rw [hC]
  rw [hs]
  exact ⟨b2, by rw [b1]; rfl, l.o, List.mem_cons_self, h2⟩

example : (launch 1 7).o.testBit 2 = true ∧ (launch 1 7).o.testBit 4 = false ∧ (launch 1 7).dir.length < 4096 ∧
    (Site.start ⟨some (0o600, 0), none, none, []⟩ (launch 1 7)).owner = some 1 := by decide +kernel

/-! ## Examples -/

/-- Two starts in the background, the first one killed, and a third one: the socket left behind is replaced. -/
example : Site.run {} [.start (launch 1 7), .start (launch 2 7)] = ⟨some (0o770, 120), some 1, some 1, [(1, 7)]⟩ ∧
    Site.run {} [.start (launch 1 7), .start (launch 2 7), .kill 1] = ⟨some (0o770, 120), none, none, []⟩ ∧
    Site.run {} [.start (launch 1 7), .start (launch 2 7), .kill 1, .start (launch 3 7)] = ⟨some (0o770, 120), some 3, some 3, [(3, 7)]⟩ := by
  decide +kernel

example : Background (.start (launch 1 7)) ∧ Background (.kill 1) ∧ ¬ Background (.start (launch 2 18)) := by
  refine ⟨⟨by decide, by decide, rfl⟩, trivial, fun h => absurd h.1 (by decide)⟩

/-- While the daemon runs, `ladvd -f -o` (options 18) is started and ends: the daemon is still running and holds the lock, but there is no socket, and it
cannot be replaced without being ended. -/
theorem C96_once : Site.run {} [.start (launch 1 7), .start (launch 2 18)] = ⟨some (0o770, 120), some 1, some 1, [(2, 18), (1, 7)]⟩ ∧
    Site.run {} [.start (launch 1 7), .start (launch 2 18), .stop 2, .start (launch 3 7)] = ⟨none, some 1, some 1, [(1, 7)]⟩ := by
  decide +kernel

/-- The same with a second daemon in the foreground (options 6). -/
example : Site.run {} [.start (launch 1 7), .start (launch 2 6)] = ⟨some (0o770, 120), some 2, some 1, [(2, 6), (1, 7)]⟩ ∧
    Site.run {} [.start (launch 1 7), .start (launch 2 6), .stop 2] = ⟨none, none, some 1, [(1, 7)]⟩ := by
  decide +kernel

end Ladvd.Props
