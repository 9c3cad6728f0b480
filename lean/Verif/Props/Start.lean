import Verif.Lemmas.Start
import Verif.Props.Main
/-!
# C30, C45-C48: starting, privileges and processes
-/

namespace Ladvd.Props

open Spec

/-- **C30** (partly: not for a debug run, see `C30_debug`): whatever calls fail, when the unprivileged process reaches its first event its ids are the
unprivileged ones, it has no groups, it is confined to the given directory and works inside it, it cannot create processes or write files, it has no
capabilities if it was started as root, and every directory on the way to its root can be changed by root only. -/
theorem C30_confined_partial (deny : Nat → Option Nat) (o : Opts) (dir : Bytes) (pwd : Option (Nat × Nat)) (n : Nat) (w w' : World)
    (hroot : w.root = lit "/") (ho : o.testBit 6 = false) (h : run deny (childInit o dir pwd) n w = (.running, w')) :
    ∃ uid gid, pwd = some (uid, gid) ∧ Confined w' uid gid dir ∧ w'.cwd = w'.root ∧ Trusted w.files dir ∧
      ((w.ruid = 0 ∨ w.euid = 0 ∨ w.suid = 0) → uid ≠ 0 → w'.caps = some []) := by
  obtain ⟨uid, gid, hp, ht, hw⟩ := child_run hroot ho h
  refine ⟨uid, gid, hp, ?_, ?_, ht, ?_⟩
  · rw [hw]; exact ⟨rfl, rfl, rfl, rfl, rfl, rfl, rfl, rfl, rfl, rfl⟩
  · rw [hw]; rfl
  · intro h0 hu
    rw [hw]
    show capsAfter _ uid uid uid = some []
    unfold capsAfter
    rw [if_pos]
    refine ⟨?_, hu, hu, hu⟩
    split <;> exact h0

/-- **C30**: whatever fails while starting with an accepted command line, the daemon either runs or exits; it never uses the missing entry of a user. -/
theorem C30_no_crash (h : Host) (os : List Opt) (args : List Bytes) (s : MainSt) (pwd : Option (Nat × Nat))
    (hs : mainStart h os args = .ok (s, pwd)) (dir : Bytes) (deny : Nat → Option Nat) (n : Nat) (w : World) :
    (run deny (startProg s.opts dir pwd) n w).1 ≠ .crashed := by
  have hp : s.opts.testBit 6 = true ∨ ∃ p, pwd = some p := by
    obtain ⟨_, _, _, _, h4⟩ := start_split hs
    rcases h4 with ⟨h4, _⟩ | ⟨_, p, _, h4⟩
    · exact Or.inl h4
    · exact Or.inr ⟨p, h4⟩
  refine run_ends (P := fun e => e ≠ .crashed) deny _ n w ?_
  have h0 : End.exited 0 ≠ .crashed := by decide
  have h1 : End.exited 1 ≠ .crashed := by decide
  have hf := ends_fork (P := fun e => e ≠ .crashed) h0 h1 (by decide : End.running ≠ .crashed) s.opts dir pwd hp
  have hs2 : Prog.Ends (fun e => e ≠ .crashed) (mySocketpair <| mySocketpair <| forkProg s.opts dir pwd) := by
    unfold mySocketpair
    iterate 10 refine ends_must h0 h1 ?_
    exact hf
  unfold startProg
  dsimp only
  split
  · refine ends_must h0 h1 (ends_must h0 h1 (ends_must h0 h1 ?_))
    intro a
    cases a <;> exact ends_must h0 h1 hs2
  · exact hs2

/-- **C30**: a confined process without capabilities stays so, whatever it does. -/
theorem C30_irrevocable (deny : Nat → Option Nat) (uid gid : Nat) (dir : Bytes) (cs : List Call) : ∀ (n : Nat) (w : World),
    Confined w uid gid dir → w.caps = some [] → Confined (calls deny cs n w) uid gid dir ∧ (calls deny cs n w).caps = some [] := by
  induction cs with
  | nil => intro n w h hc; exact ⟨h, hc⟩
  | cons c cs ih =>
    intro n w h hc
    rw [calls]
    have hno : ∀ c, w.has c = false := by intro c; unfold World.has; rw [hc]; simp
    have key : Confined (w.sys c).2 uid gid dir ∧ (w.sys c).2.caps = some [] := by
      have h' := h
      obtain ⟨a1, a2, a3, a4, a5, a6, a7, a8, a9, a10⟩ := h
      have aux : ∀ r, w.sys c = r → Confined r.2 uid gid dir ∧ r.2.caps = some [] := by
        intro r hr
        cases c with
        | setrlimit l cur max =>
          cases l <;>
          · simp only [World.sys] at hr
            split at hr
            · rename_i hl
              subst hr
              unfold limitOk at hl
              rw [hno] at hl
              simp only [a9, a10, Bool.false_or, Bool.and_eq_true, decide_eq_true_eq] at hl
              have e1 : max = 0 := by omega
              have e2 : cur = 0 := by omega
              subst e1
              subst e2
              exact ⟨⟨a1, a2, a3, a4, a5, a6, a7, a8, by first | exact a9 | rfl, by first | exact a10 | rfl⟩, hc⟩
            · subst hr; exact ⟨h', hc⟩
        | setgroups gs => simp only [World.sys, hno] at hr; subst hr; exact ⟨h', hc⟩
        | chroot p =>
          simp only [World.sys, hno, Bool.and_false] at hr
          split at hr <;> (subst hr; exact ⟨h', hc⟩)
        | capSet l =>
          simp only [World.sys] at hr
          split at hr
          · rename_i hl
            subst hr
            cases l with
            | nil => exact ⟨⟨a1, a2, a3, a4, a5, a6, a7, a8, a9, a10⟩, rfl⟩
            | cons x xs => rw [List.all_cons, hno] at hl; cases hl
          · subst hr; exact ⟨h', hc⟩
        | setresgid r' e s =>
          simp only [World.sys] at hr
          split at hr
          · rename_i hl
            subst hr
            simp only [List.all_cons, List.all_nil, idOk, hno, a4, a5, a6, Bool.false_or, Bool.or_self, Bool.and_true, Bool.and_eq_true,
              beq_iff_eq] at hl
            exact ⟨⟨a1, a2, a3, hl.1, hl.2.1, hl.2.2, a7, a8, a9, a10⟩, hc⟩
          · subst hr; exact ⟨h', hc⟩
        | setresuid r' e s =>
          simp only [World.sys] at hr
          split at hr
          · rename_i hl
            subst hr
            simp only [List.all_cons, List.all_nil, idOk, hno, a1, a2, a3, Bool.false_or, Bool.or_self, Bool.and_true, Bool.and_eq_true,
              beq_iff_eq] at hl
            refine ⟨⟨hl.1, hl.2.1, hl.2.2, a4, a5, a6, a7, a8, a9, a10⟩, ?_⟩
            show capsAfter _ _ _ _ = _
            unfold capsAfter
            split
            · rfl
            · exact hc
          · subst hr; exact ⟨h', hc⟩
        | _ =>
          simp only [World.sys] at hr
          repeat' split at hr
          all_goals (subst hr; exact ⟨⟨a1, a2, a3, a4, a5, a6, a7, a8, a9, a10⟩, hc⟩)
      exact aux _ rfl
    rcases step_cases deny n w c with hs | ⟨e, hs⟩
    · rw [hs]; exact ih _ _ key.1 key.2
    · rw [hs]; exact ih _ _ h hc

/-- **C30**: started as root with no call failing for other reasons, the unprivileged process does reach its first event whenever its directory is
trusted, so that the theorems above are about all normal starts. -/
theorem C30_reaches (o : Opts) (dir : Bytes) (uid gid : Nat) (w : World) (hw : w.caps = none) (hroot : w.root = lit "/") (ht : Trusted w.files dir)
    (hd : dir.head? = some 0x2f) (hl : dir.length < 4096) : ∃ w', run (fun _ => none) (childInit o dir (some (uid, gid))) 0 w = (.running, w') := by
  have hall : ∀ (w : World) c, w.caps = none → w.has c = true := by intro w c h; unfold World.has; rw [h]
  have hdrop : ∀ (n : Nat) (w : World), w.caps = none → w.root = lit "/" → Trusted w.files dir →
      ∃ w', run (fun _ => none) (childDrop o dir (some (uid, gid))) n w = (.running, w') := by
    intro n w hw hroot ht
    unfold childDrop
    rw [must_ok (w1 := w) (a := .ok 4) rfl rfl (by intro e h; cases h)]
    split
    · unfold myChroot
      rw [if_neg (by rw [hd]; simp), if_neg (by unfold PATH_MAX; omega)]
      have hm : ∃ m, w.files dir = some (0, m) ∧ directory m = true := by
        have := ht.1
        cases hf : w.files dir with
        | none => rw [hf] at this; exact this.elim
        | some um =>
          obtain ⟨u, m⟩ := um
          rw [hf] at this
          cases u with
          | zero => exact ⟨m, rfl, this.2⟩
          | succ u => exact this.elim
      obtain ⟨m, hf, hdir⟩ := hm
      obtain ⟨n', h⟩ := loop_ok' (deny := fun _ => none) (fun _ => rfl) (path := dir) (w := w)
        (k := must 0 (.chdir dir) <| must 0 (.chroot dir) <| must 0 (.chdir (lit "/")) <| myDropPrivs (some (uid, gid)) <| myRlimitChild <| .done .running)
        (by rw [resolve_root hroot]; exact ht.1) dir 0 (n + 1)
        (by intro i hi hs; rw [resolve_root hroot, Nat.zero_add]; exact ht.2 i hi hs)
      rw [h]
      rw [must_ok (w1 := { w with cwd := dir }) (a := .ok 0) rfl
        (by simp only [World.sys]; rw [resolve_root hroot, hf]; dsimp only; rw [if_pos hdir]) (by intro e h; cases h)]
      rw [must_ok (w1 := { w with cwd := dir, root := dir }) (a := .ok 0) rfl
        (by simp only [World.sys]
            rw [show World.resolve { w with cwd := dir } dir = dir from resolve_root hroot dir, hf]
            dsimp only
            rw [if_pos (by rw [hdir, Bool.true_and]; exact hall _ _ hw)]) (by intro e h; cases h)]
      have hr : World.resolve { w with cwd := dir, root := dir } (lit "/") = dir := by
        unfold World.resolve
        dsimp only
        split
        · rename_i hd; exact hd.symm
        · rw [if_pos rfl]
      rw [must_ok (w1 := { w with cwd := dir, root := dir }) (a := .ok 0) rfl
        (by simp only [World.sys]; rw [hr, hf]; dsimp only; rw [if_pos hdir]) (by intro e h; cases h)]
      unfold myDropPrivs
      rw [must_ok (w1 := { w with cwd := dir, root := dir, groups := [] }) (a := .ok 0) rfl
        (by simp only [World.sys]; rw [if_pos (by exact hall _ _ hw)]) (by intro e h; cases h)]
      dsimp only
      rw [must_ok (w1 := { w with cwd := dir, root := dir, groups := [], rgid := gid, egid := gid, sgid := gid }) (a := .ok 0) rfl
        (by simp only [World.sys]
            rw [if_pos (by simp [idOk, World.has, hw])]) (by intro e h; cases h)]
      generalize hcp : capsAfter { w with cwd := dir, root := dir, groups := [], rgid := gid, egid := gid, sgid := gid } uid uid uid = cp
      rw [must_ok (w1 := { w with cwd := dir, root := dir, groups := [], rgid := gid, egid := gid, sgid := gid, ruid := uid, euid := uid, suid := uid, caps := cp }) (a := .ok 0) rfl
        (by simp only [World.sys]
            rw [if_pos (by simp [idOk, World.has, hw]), hcp]) (by intro e h; cases h)]
      unfold myRlimitChild
      have hlim : ∀ (w : World) (x : Option (Nat × Nat)), limitOk w x 0 0 = true := by
        intro w x
        unfold limitOk
        cases x <;> simp
      rw [must_ok (w1 := { { w with cwd := dir, root := dir, groups := [], rgid := gid, egid := gid, sgid := gid, ruid := uid, euid := uid, suid := uid, caps := cp } with nproc := some (0, 0) }) (a := .ok 0) rfl
        (by simp only [World.sys]; rw [hlim]; rfl) (by intro e h; cases h)]
      rw [must_ok (w1 := { { w with cwd := dir, root := dir, groups := [], rgid := gid, egid := gid, sgid := gid, ruid := uid, euid := uid, suid := uid, caps := cp } with nproc := some (0, 0), fsize := some (0, 0) }) (a := .ok 0) rfl
        (by simp only [World.sys]; rw [hlim]; rfl) (by intro e h; cases h)]
      exact ⟨_, rfl⟩
    · exact ⟨_, rfl⟩
  unfold childInit
  split
  · unfold controlSocket
    rw [run]
    simp only [World.step, World.sys]
    rw [run]
    simp only [World.step, World.sys]
    unfold controlBind
    rw [run]
    have rest : ∀ (n : Nat) (w : World), w.caps = none → w.root = lit "/" → Trusted w.files dir → w.sock = none → ∀ old,
        ∃ w', run (fun _ => none) (must 0 .bindSock <|
          (fun k => if o.has OPT_RECV then must 0 .listenSock k else k) <| must 0 (.chmodSock 0o770) <|
            controlChown (some (uid, gid)) old (childDrop o dir (some (uid, gid)))) n w = (.running, w') := by
      intro n w hw hroot ht hs old
      have tail : ∀ (n : Nat) (w : World) (s : Nat × Nat), w.caps = none → w.root = lit "/" → Trusted w.files dir → w.sock = some s →
          ∃ w', run (fun _ => none) (must 0 (.chmodSock 0o770) <|
            controlChown (some (uid, gid)) old (childDrop o dir (some (uid, gid)))) n w = (.running, w') := by
        intro n w s hw hroot ht hs
        rw [must_ok (w1 := { w with sock := some (0o770, s.2) }) (a := .ok 0) rfl
          (by simp only [World.sys, hs]) (by intro e h; cases h)]
        unfold controlChown
        dsimp only
        rw [must_ok (w1 := { w with sock := some (0o770, gid) }) (a := .ok 0) rfl (by simp only [World.sys]) (by intro e h; cases h)]
        rw [run]
        exact hdrop _ _ hw hroot ht
      rw [must_ok (w1 := { w with sock := some (0o777 ^^^ (0o777 &&& w.mask), w.egid), bound := true }) (a := .ok 0) rfl
        (by simp only [World.sys, hs]) (by intro e h; cases h)]
      dsimp only
      split
      · rw [must_ok (w1 := { w with sock := some (0o777 ^^^ (0o777 &&& w.mask), w.egid), bound := true, listening := true }) (a := .ok 0) rfl
          (by simp only [World.sys, if_true]) (by intro e h; cases h)]
        exact tail _ _ _ hw hroot ht rfl
      · exact tail _ _ _ hw hroot ht rfl
    cases hs : w.sock with
    | none =>
      simp only [World.step, World.sys]
      rw [if_neg (by simp [ENOENT])]
      exact rest _ { w with mask := 0o177 &&& 0o777, sock := none } hw hroot ht rfl _
    | some s =>
      simp only [World.step, World.sys]
      exact rest _ { w with mask := 0o177 &&& 0o777, sock := none } hw hroot ht rfl _
  · exact hdrop _ _ hw hroot ht

/-- The files of a usual system. -/
def sampleFiles : Bytes → Option (Nat × Nat) := fun p =>
  if p = lit "/" ∨ p = lit "/var/" ∨ p = lit "/var/run/" ∨ p = lit "/var/run/ladvd" then some (0, 0o040755) else none

/-- The directory on that system can be used. -/
theorem sample_trusted : Trusted sampleFiles (lit "/var/run/ladvd") := by
  refine ⟨by decide +kernel, ?_⟩
  intro n hn
  have : ∀ n, n < 14 → (lit "/var/run/ladvd").getD n 0 = 0x2f → safeDir (sampleFiles ((lit "/var/run/ladvd").take (n + 1))) := by decide +kernel
  exact this n hn

example : ∃ w', run (fun _ => none) (childInit (1 <<< OPT_RECV) (lit "/var/run/ladvd") (some (110, 120))) 0 { files := sampleFiles, groups := [0, 1] } =
    (.running, w') ∧ Confined w' 110 120 (lit "/var/run/ladvd") ∧ w'.caps = some [] := by
  obtain ⟨w', h⟩ := C30_reaches (1 <<< OPT_RECV) (lit "/var/run/ladvd") 110 120 { files := sampleFiles, groups := [0, 1] } rfl rfl sample_trusted
    (by decide +kernel) (by decide +kernel)
  obtain ⟨u, g, hp, hc, _, _, hcap⟩ := C30_confined_partial _ _ _ _ _ _ _ rfl (by decide) h
  injection hp with hp
  injection hp with e1 e2
  subst e1
  subst e2
  exact ⟨w', h, hc, hcap (Or.inl rfl) (by decide)⟩

/-- A directory that others can write to is refused. -/
example : (run (fun _ => none) (childInit 0 (lit "/tmp") (some (110, 120))) 0
    { files := fun p => if p = lit "/" then some (0, 0o040755) else some (0, 0o041777) }).1 = .exited 1 := by decide +kernel

/-- **C30** does not hold for a debug run: the process that handles events keeps root's ids and root directory, /repo/src/child.c line 116. -/
theorem C30_debug : (run (fun _ => none) (childInit (1 <<< OPT_DEBUG) (lit "/var/run/ladvd") none) 0 { files := sampleFiles }).1 = .running ∧
    (run (fun _ => none) (childInit (1 <<< OPT_DEBUG) (lit "/var/run/ladvd") none) 0 { files := sampleFiles }).2.euid = 0 ∧
    (run (fun _ => none) (childInit (1 <<< OPT_DEBUG) (lit "/var/run/ladvd") none) 0 { files := sampleFiles }).2.caps = none ∧
    (run (fun _ => none) (childInit (1 <<< OPT_DEBUG) (lit "/var/run/ladvd") none) 0 { files := sampleFiles }).2.root = lit "/" := by decide +kernel

/-- **C45**: at no moment of the start is the control socket accessible to anyone but root, the group of the starting process and the daemon's group. -/
theorem C45_protected (deny : Nat → Option Nat) (o : Opts) (dir : Bytes) (pwd : Option (Nat × Nat)) (n : Nat) (w : World) (hb : w.bound = false) :
    ∀ x ∈ trail deny (childInit o dir pwd) n w, SockSafe w (pwd.map (·.2)) x := by
  have hdrop : ∀ (n : Nat) (w x : World), x ∈ trail deny (childDrop o dir pwd) n w → x.sock = w.sock ∧ x.bound = w.bound := by
    intro n w x hx
    refine trail_all (P := fun c => ∀ w : World, (w.sys c).2.sock = w.sock ∧ (w.sys c).2.bound = w.bound)
      (R := fun w x => x.sock = w.sock ∧ x.bound = w.bound) (fun w => ⟨rfl, rfl⟩)
      (fun a b c h1 h2 => ⟨h2.1.trans h1.1, h2.2.trans h1.2⟩) (fun w c h => h w) deny _ n w x ?_ hx
    refine all_drop o dir pwd ?_ ?_ ?_ ?_ ?_ ?_ ?_ ?_
    · intro w; exact ⟨rfl, rfl⟩
    · intro p w; simp only [World.sys]; split <;> exact ⟨rfl, rfl⟩
    · intro p w; simp only [World.sys]; repeat' split
      all_goals exact ⟨rfl, rfl⟩
    · intro p w; simp only [World.sys]; repeat' split
      all_goals exact ⟨rfl, rfl⟩
    · intro l w; simp only [World.sys]; split <;> exact ⟨rfl, rfl⟩
    · intro a b c w; simp only [World.sys]; split <;> exact ⟨rfl, rfl⟩
    · intro a b c w; simp only [World.sys]; split <;> exact ⟨rfl, rfl⟩
    · intro r a b w; cases r <;> (simp only [World.sys]; split <;> exact ⟨rfl, rfl⟩)
  intro x hx
  unfold childInit at hx
  split at hx
  · rcases ctl_trail hb hx with h | ⟨n', uid, gid, hp, h⟩
    · exact h
    · have := hdrop _ _ _ h
      intro _
      refine ⟨0o770, gid, this.1, by decide, Or.inr (Or.inr ?_)⟩
      rw [hp]; rfl
  · intro hbx
    rw [(hdrop _ _ _ hx).2, hb] at hbx
    cases hbx

/-- **C45**: when the daemon runs, its control socket is open to root and the daemon's group, it answers clients exactly when the daemon receives, and
the file mode mask is what it was. -/
theorem C45_open (deny : Nat → Option Nat) (o : Opts) (dir : Bytes) (pwd : Option (Nat × Nat)) (n : Nat) (w w' : World) (hroot : w.root = lit "/")
    (hb : w.bound = false) (hl : w.listening = false) (ho : o.testBit 6 = false) (h : run deny (childInit o dir pwd) n w = (.running, w')) :
    (o.testBit 4 = true → w'.bound = false) ∧
    (o.testBit 4 = false → ∃ uid gid, pwd = some (uid, gid) ∧ w'.bound = true ∧ w'.sock = some (0o770, gid) ∧
      (w'.listening = true ↔ o.testBit 2 = true) ∧ w'.mask = w.mask &&& 0o777) := by
  obtain ⟨uid, gid, hp, -, hw⟩ := child_run hroot ho h
  constructor
  · intro h4
    rw [if_pos h4] at hw
    rw [hw]; exact hb
  · intro h4
    rw [if_neg (by rw [h4]; simp)] at hw
    refine ⟨uid, gid, hp, by rw [hw]; rfl, by rw [hw]; rfl, ?_, by rw [hw]; rfl⟩
    rw [hw]
    show (w.listening || o.has OPT_RECV) = true ↔ _
    rw [hl, Bool.false_or]
    rfl

/-- **C46**: however many daemons are started in the background, in any interleaving and whatever fails, at most one of them reaches its event loop at a
time. -/
theorem C46_single (s : System) (h : SysReach s) (i j : Nat) (hi : s.procs i = some (.done .running)) (hj : s.procs j = some (.done .running)) :
    i = j := by
  have inv : ∀ s, SysReach s → ∀ i p, s.procs i = some p → NeedsLock p ∨ s.holder = some i := by
    intro s h
    induction h with
    | init => intro i p hp; cases hp
    | step s s' _ hs ih =>
      intro i p hp
      cases hs with
      | start i' o dir pwd hn ho =>
        simp only [System.set] at hp
        split at hp
        · injection hp with hp; left; rw [← hp]; exact needs_start o dir pwd ho
        · exact ih i p hp
      | lock i' k hk hh =>
        simp only [System.set] at hp
        split at hp
        · rename_i e; right; rw [e]
        · rename_i e
          rcases ih i p hp with h | h
          · exact Or.inl h
          · rcases hh with hh | hh
            · rw [h] at hh; cases hh
            · rw [h] at hh; injection hh with hh; exact absurd hh e
      | refused i' k e hk =>
        simp only [System.set] at hp
        split at hp
        · rename_i he
          injection hp with hp
          subst he
          rcases ih i _ hk with h | h
          · left; rw [← hp]; exact h _ (fun _ => ⟨e, rfl⟩) (fun h => by cases h)
          · exact Or.inr h
        · exact ih i p hp
      | call i' c k a hk hc hf =>
        simp only [System.set] at hp
        split at hp
        · rename_i he
          injection hp with hp
          subst he
          rcases ih i _ hk with h | h
          · left; rw [← hp]; exact h _ (fun h => absurd h hc) hf
          · exact Or.inr h
        · exact ih i p hp
      | ends i' =>
        simp only [System.set] at hp
        split at hp
        · cases hp
        · rename_i e
          rcases ih i p hp with h | h
          · exact Or.inl h
          · right
            show (if s.holder = some i' then none else s.holder) = some i
            rw [if_neg (by rw [h]; intro h; injection h with h; exact e h)]
            exact h
  have h1 := (inv s h i _ hi).resolve_left (fun h => h rfl)
  have h2 := (inv s h j _ hj).resolve_left (fun h => h rfl)
  rw [h1] at h2
  injection h2

/-- **C46**: a daemon running in the background has written its own number to the first line of the pid file. -/
theorem C46_pidfile (deny : Nat → Option Nat) (o : Opts) (dir : Bytes) (pwd : Option (Nat × Nat)) (n : Nat) (w w' : World) (ho : o.testBit 0 = true)
    (h : run deny (startProg o dir pwd) n w = (.running, w')) :
    w.lockedElse = false ∧ w'.locked = true ∧ ∃ rest, w'.pidfile = lit (toString w.pid) ++ 0x0a :: rest := by
  unfold startProg at h
  dsimp only at h
  rw [if_pos (show o.has OPT_DAEMON = true from ho)] at h
  obtain ⟨a, w1, h1, -, h⟩ := run_must h
  simp only [World.sys] at h1
  injection h1 with _ h1
  subst h1
  obtain ⟨a, w1, h1, -, h⟩ := run_must h
  simp only [World.sys] at h1
  injection h1 with _ h1
  subst h1
  obtain ⟨a, w1, h1, e1, h⟩ := run_must h
  simp only [World.sys] at h1
  cases hl : w.lockedElse with
  | true => rw [hl, if_pos rfl] at h1; injection h1 with h1 _; exact absurd h1.symm (e1 _)
  | false =>
    rw [hl] at h1
    simp only [Bool.false_eq_true, if_false] at h1
    injection h1 with _ h1
    subst h1
    rw [run, step_sure deny _ _ _ rfl] at h
    simp only [World.sys] at h
    obtain ⟨a, w2, h2, -, h⟩ := run_must h
    simp only [World.sys] at h2
    injection h2 with _ h2
    -- nothing later touches the file
    have hlater : w'.pidfile = w2.pidfile ∧ w'.locked = w2.locked := by
      have hm := run_mem_trail deny (mySocketpair <| mySocketpair <| forkProg o dir pwd) (n + 1 + 1 + 1 + 1 + 1) w2
      rw [h] at hm
      exact trail_all (P := fun c => afterPid c = true) (R := fun w x => x.pidfile = w.pidfile ∧ x.locked = w.locked) (fun w => ⟨rfl, rfl⟩)
        (fun a b c h1 h2 => ⟨h2.1.trans h1.1, h2.2.trans h1.2⟩) (fun w c h => sys_after w c h) deny _ _ w2 w' (all_after o dir pwd) hm
    rw [hlater.1, hlater.2, ← h2]
    refine ⟨rfl, rfl, w.pidfile.drop (pidText w.pid).length, ?_⟩
    show pidText w.pid ++ _ = _
    unfold pidText
    rw [List.append_assoc]
    rfl

/-- The pid file is not truncated: the rest of a longer old file stays, /repo/src/main.c line 226. -/
theorem C46_stale : (run (fun _ => none) (startProg 1 (lit "/var/run/ladvd") (some (110, 120))) 0
    { files := sampleFiles, pid := 77, forked := 78, pidfile := lit "12345\n" }).1 = .running ∧
    (run (fun _ => none) (startProg 1 (lit "/var/run/ladvd") (some (110, 120))) 0
      { files := sampleFiles, pid := 77, forked := 78, pidfile := lit "12345\n" }).2.pidfile = lit "77\n45\n" := by decide +kernel

/-- A daemon in the foreground starts although another one holds the lock. -/
theorem C46_foreground : (run (fun _ => none) (startProg 0 (lit "/var/run/ladvd") (some (110, 120))) 0
    { files := sampleFiles, pid := 77, forked := 78, lockedElse := true }).1 = .running := by decide +kernel

example : (run (fun _ => none) (startProg 1 (lit "/var/run/ladvd") (some (110, 120))) 0
    { files := sampleFiles, pid := 77, forked := 78, lockedElse := true }).1 = .exited 1 := by decide +kernel

/-- **C47**: unless it is a debug run, the privileged process has only the capabilities needed for its work when it accepts its first request. -/
theorem C47_capabilities (deny : Nat → Option Nat) (o : Opts) (child : Nat) (n : Nat) (w w' : World) (ho : o.testBit 6 = false)
    (h : run deny (parentInit o child) n w = (.running, w')) (c : Cap) :
    w'.has c = true ↔ c = .netAdmin ∨ c = .netRaw ∨ c = .netBroadcast ∨ c = .kill := by
  unfold parentInit at h
  obtain ⟨a, w1, h1, -, h⟩ := run_must' h
  simp only [World.sys] at h1
  injection h1 with _ h1
  subst h1
  dsimp only at h
  rw [if_neg (by simp [Opts.has, OPT_DEBUG, ho])] at h
  obtain ⟨a, w1, h1, e1, h⟩ := run_must' h
  simp only [World.sys] at h1
  split at h1
  · injection h1 with _ h1
    have hw : w'.caps = w1.caps := by
      rw [run] at h
      have hs : (w1.step deny (n + 1 + 1) (.waitpid child)).2 = w1 := by
        rcases step_cases deny (n + 1 + 1) w1 (.waitpid child) with hs | ⟨e, hs⟩
        · rw [hs]; simp only [World.sys]; split <;> rfl
        · rw [hs]
      rw [hs] at h
      split at h
      · rw [run] at h; injection h with _ h; rw [h]
      · exact (not_running h).elim
    unfold World.has
    rw [hw, ← h1]
    simp [parentCaps]
  · injection h1 with h1 _; exact absurd h1.symm (e1 _)

example : (run (fun _ => none) (parentInit 0 78) 0 { forked := 78 }).1 = .running ∧
    (run (fun _ => none) (parentInit 0 78) 0 { forked := 78 }).2.has .setuid = false := by decide +kernel

/-- **C48** (partly: only if the fork succeeds, see `C48_everyone`): while starting, the only process ever signalled is the unprivileged process. -/
theorem C48_signals_partial (deny : Nat → Option Nat) (o : Opts) (dir : Bytes) (pwd : Option (Nat × Nat)) (n : Nat) (w : World)
    (hf : forkOk deny (startProg o dir pwd) n w) (x : Int × Nat) (hx : x ∈ (run deny (startProg o dir pwd) n w).2.signals) :
    x ∈ w.signals ∨ x = ((w.forked : Int), 15) :=
  kills_run deny w.forked _ n w rfl (kills_start o dir pwd w.forked) hf x hx

/-- **C48** fails when the fork fails: the number -1 in the global variable makes the fatal error handler send the signal to every process,
/repo/src/util.c line 74 and /repo/src/parent.c line 175. -/
theorem C48_everyone : (run (fun n => if n = 15 then some 11 else none) (startProg 1 (lit "/var/run/ladvd") (some (110, 120))) 0
      { files := sampleFiles, pid := 77 }).2.signals = [(-1, 15)] ∧
    (run (fun n => if n = 15 then some 11 else none) (startProg 1 (lit "/var/run/ladvd") (some (110, 120))) 0
      { files := sampleFiles, pid := 77 }).1 = .exited 0 := by decide +kernel

/-- **C48**: when the privileged process ends because of a signal or an error, the unprivileged one has ended or was sent the signal, and the control
socket is removed. -/
theorem C48_ends (deny : Nat → Option Nat) (sig : Nat) (n : Nat) (w : World) (hd : deny (n + 1) = none ∧ deny (n + 2) = none) :
    (run deny (parentSignal sig w.forked) n w).1 = .exited 0 ∧ (run deny (parentSignal sig w.forked) n w).2.sock = none ∧
      (w.childGone = false → (run deny (parentSignal sig w.forked) n w).2.signals = w.signals ++ [((w.forked : Int), sig)]) ∧
      (w.childGone = true → w.forked ≠ 0 → deny n = none → (run deny (parentSignal sig w.forked) n w).2.signals = w.signals) := by
  have hu : ∀ (m : Nat) (x : World), deny m = none → (run deny (.call .unlinkSock fun _ => .done (.exited 0)) m x).1 = .exited 0 ∧
      (run deny (.call .unlinkSock fun _ => .done (.exited 0)) m x).2.sock = none ∧
      (run deny (.call .unlinkSock fun _ => .done (.exited 0)) m x).2.signals = x.signals := by
    intro m x hm
    simp only [run, World.step, hm, World.sys]
    cases hs : x.sock <;> simp [hs]
  have hk : ∀ x : World, run deny (.call (.kill w.forked sig) fun _ => .call .unlinkSock fun _ => .done (.exited 0)) (n + 1) x =
      run deny (.call .unlinkSock fun _ => .done (.exited 0)) (n + 2) { x with signals := x.signals ++ [((w.forked : Int), sig)] } := by
    intro x
    rw [run]
    simp only [World.step, hd.1, World.sys]
  have hs : (w.step deny n (.waitpid w.forked)).2 = w := by
    rcases step_cases deny n w (.waitpid w.forked) with hs | ⟨e, hs⟩
    · rw [hs]; simp only [World.sys]; split <;> rfl
    · rw [hs]
  unfold parentSignal
  rw [run, hs]
  dsimp only
  split
  · rename_i v ha
    refine ⟨(hu _ _ hd.1).1, (hu _ _ hd.1).2.1, fun hg => ?_, fun _ _ _ => (hu _ _ hd.1).2.2⟩
    exfalso
    rcases step_cases deny n w (.waitpid w.forked) with hs | ⟨e, hs⟩
    · rw [hs] at ha
      simp only [World.sys, hg] at ha
      split at ha
      · cases ha
      · cases ha
    · rw [hs] at ha; cases ha
  · rename_i hno
    rw [hk]
    refine ⟨(hu _ _ hd.2).1, (hu _ _ hd.2).2.1, fun _ => (hu _ _ hd.2).2.2, fun hg hf hn => ?_⟩
    exfalso
    obtain ⟨m, hm⟩ := Nat.exists_eq_succ_of_ne_zero hf
    refine hno m ?_
    simp only [World.step, hn, World.sys]
    rw [if_pos ⟨trivial, hf⟩, hg, if_pos rfl, hm]

example : (run (fun _ => none) (parentSignal 2 (78 : Nat)) 0 { forked := 78, sock := some (0o770, 120) }).2.signals = [(78, 2)] := by decide +kernel

end Ladvd.Props
