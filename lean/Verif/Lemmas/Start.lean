import Verif.Spec.Start
/-!
# Lemmas on starting
-/

namespace Ladvd
open Spec

theorem isDir_eq (m : Nat) : isDir m = directory m := by
  have e : m &&& 0o170000 = (m / 4096 % 16) <<< 12 := by
    have e1 : m / 4096 % 16 = (m >>> 12) &&& 15 := by
      rw [Nat.shiftRight_eq_div_pow, Nat.and_two_pow_sub_one_eq_mod _ 4]
    have e2 : (0o170000 : Nat) = 15 <<< 12 := by decide
    rw [e1, e2]
    apply Nat.eq_of_testBit_eq
    intro i
    simp only [Nat.testBit_and, Nat.testBit_shiftLeft, Nat.testBit_shiftRight]
    by_cases h : 12 ≤ i
    · rw [show 12 + (i - 12) = i by omega]; simp [h]
    · simp [h]
  unfold isDir directory
  rw [e, Nat.shiftLeft_eq]
  by_cases h : m / 4096 % 16 = 4
  · rw [h]; rfl
  · have h1 : ¬ m / 4096 % 16 * 2 ^ 12 = 0o040000 := by omega
    rw [beq_eq_false_iff_ne.mpr h, beq_eq_false_iff_ne.mpr h1]


theorem sys_err (w : World) (c : Call) (e : Nat) (h : (w.sys c).1 = .err e) : (w.sys c).2 = w := by
  have aux : ∀ r, w.sys c = r → r.1 = .err e → r.2 = w := by
    intro r hr
    cases c
    case setrlimit r' cur max =>
      cases r' <;>
      · simp only [World.sys] at hr
        split at hr <;> (subst hr; intro h; first | rfl | cases h)
    all_goals
      simp only [World.sys] at hr
      repeat' split at hr
      all_goals (subst hr; intro h; first | rfl | cases h)
  exact aux _ rfl h

theorem step_cases (deny : Nat → Option Nat) (n : Nat) (w : World) (c : Call) :
    w.step deny n c = w.sys c ∨ ∃ e, w.step deny n c = (.err e, w) := by
  unfold World.step
  split
  · split
    · exact Or.inl rfl
    · exact Or.inr ⟨_, rfl⟩
  · exact Or.inl rfl

theorem step_sure (deny : Nat → Option Nat) (n : Nat) (w : World) (c : Call) (h : Call.sure c = true) : w.step deny n c = w.sys c := by
  unfold World.step
  split
  · rw [if_pos h]
  · rfl

theorem fatal0 : myFatal 0 = .done (.exited 1) := rfl

theorem run_must {deny : Nat → Option Nat} {c : Call} {k : Prog} {n : Nat} {w w' : World}
    (h : run deny (must 0 c k) n w = (.running, w')) :
    ∃ a w1, w.sys c = (a, w1) ∧ (∀ e, a ≠ .err e) ∧ run deny k (n + 1) w1 = (.running, w') := by
  unfold must at h
  rw [run] at h
  rcases step_cases deny n w c with hs | ⟨e, hs⟩
  · rw [hs] at h
    refine ⟨(w.sys c).1, (w.sys c).2, rfl, ?_, ?_⟩
    · intro e he
      rw [he, fatal0, run] at h
      injection h with h
      cases h
    · cases ha : (w.sys c).1 with
      | ok v => rw [ha] at h; exact h
      | st u m => rw [ha] at h; exact h
      | err e => rw [ha, fatal0, run] at h; injection h with h; cases h
  · rw [hs, fatal0, run] at h
    injection h with h
    cases h

theorem fatal_not_running (deny : Nat → Option Nat) (pid : Int) (n : Nat) (w : World) : (run deny (myFatal pid) n w).1 ≠ .running := by
  unfold myFatal
  split
  · unfold parentSignal
    rw [run]
    split
    · rw [run, run]; intro h; cases h
    · rw [run, run, run]; intro h; cases h
  · rw [run]; intro h; cases h

theorem trail_must {deny : Nat → Option Nat} {c : Call} {k : Prog} {n : Nat} {w x : World} (h : x ∈ trail deny (must 0 c k) n w) :
    x = w ∨ ∃ a w1, w.sys c = (a, w1) ∧ (∀ e, a ≠ .err e) ∧ x ∈ trail deny k (n + 1) w1 := by
  unfold must at h
  rw [trail] at h
  rcases List.mem_cons.mp h with h | h
  · exact Or.inl h
  · rcases step_cases deny n w c with hs | ⟨e, hs⟩
    · rw [hs] at h
      cases ha : (w.sys c).1 with
      | ok v => right; rw [ha] at h; exact ⟨(w.sys c).1, (w.sys c).2, rfl, (by rw [ha]; intro e he; cases he), h⟩
      | st u m => right; rw [ha] at h; exact ⟨(w.sys c).1, (w.sys c).2, rfl, (by rw [ha]; intro e he; cases he), h⟩
      | err e =>
        left
        rw [ha, fatal0, trail, sys_err w c e ha] at h
        exact List.mem_singleton.mp h
    · left
      rw [hs, fatal0, trail] at h
      exact List.mem_singleton.mp h

/-- Every call of a program satisfies a condition. -/
def Prog.All (P : Call → Prop) : Prog → Prop
  | .done _ => True
  | .call c k => P c ∧ ∀ a, Prog.All P (k a)

theorem trail_all {P : Call → Prop} {R : World → World → Prop} (hrefl : ∀ w, R w w) (htrans : ∀ a b c, R a b → R b c → R a c)
    (hs : ∀ w c, P c → R w (w.sys c).2) (deny : Nat → Option Nat) (p : Prog) :
    ∀ (n : Nat) (w x : World), p.All P → x ∈ trail deny p n w → R w x := by
  induction p with
  | done e => intro n w x _ hx; rw [trail] at hx; rw [List.mem_singleton.mp hx]; exact hrefl w
  | call c k ih =>
    intro n w x hp hx
    rw [trail] at hx
    rcases List.mem_cons.mp hx with hx | hx
    · rw [hx]; exact hrefl w
    · have h2 := ih _ (n + 1) _ x (hp.2 _) hx
      refine htrans _ _ _ ?_ h2
      rcases step_cases deny n w c with h | ⟨e, h⟩
      · rw [h]; exact hs w c hp.1
      · rw [h]; exact hrefl w

theorem run_mem_trail (deny : Nat → Option Nat) (p : Prog) : ∀ n w, (run deny p n w).2 ∈ trail deny p n w := by
  induction p with
  | done e => intro n w; rw [run, trail]; exact List.mem_singleton_self _
  | call c k ih => intro n w; rw [run, trail]; exact List.mem_cons_of_mem _ (ih _ _ _)

theorem all_fatal0 (P : Call → Prop) : (myFatal 0).All P := trivial

theorem all_must {P : Call → Prop} {c : Call} {k : Prog} (hc : P c) (hk : k.All P) : (must 0 c k).All P := by
  refine ⟨hc, fun a => ?_⟩
  cases a with
  | err e => exact all_fatal0 P
  | ok v => exact hk
  | st u m => exact hk

theorem all_check {P : Call → Prop} {c : Bytes} {k : Prog} (hc : ∀ p, P (.stat p)) (hk : k.All P) : (chrootCheck c k).All P := by
  refine ⟨hc _, fun a => ?_⟩
  cases a with
  | err e => exact all_fatal0 P
  | ok v => exact all_fatal0 P
  | st u m =>
    dsimp only
    split
    · exact all_fatal0 P
    · split
      · exact all_fatal0 P
      · exact hk

theorem all_loop {P : Call → Prop} {path : Bytes} {k : Prog} (hc : ∀ p, P (.stat p)) (hk : k.All P) :
    ∀ (l : Bytes) (cp : Nat), (chrootLoop path l cp k).All P := by
  intro l
  induction l with
  | nil => intro cp; exact all_check hc hk
  | cons c cs ih =>
    intro cp
    rw [chrootLoop]
    split
    · exact all_check hc (ih _)
    · exact ih _

theorem all_drop {P : Call → Prop} (o : Opts) (dir : Bytes) (pwd : Option (Nat × Nat)) (h1 : P (.socket .inetDgram)) (h2 : ∀ p, P (.stat p))
    (h3 : ∀ p, P (.chdir p)) (h4 : ∀ p, P (.chroot p)) (h5 : ∀ l, P (.setgroups l)) (h6 : ∀ a b c, P (.setresgid a b c))
    (h7 : ∀ a b c, P (.setresuid a b c)) (h8 : ∀ r a b, P (.setrlimit r a b)) : (childDrop o dir pwd).All P := by
  unfold childDrop
  refine all_must h1 ?_
  split
  · unfold myChroot
    split
    · exact all_fatal0 P
    · split
      · exact all_fatal0 P
      · refine all_loop h2 (all_must (h3 _) (all_must (h4 _) (all_must (h3 _) ?_))) _ _
        unfold myDropPrivs
        refine all_must (h5 _) ?_
        split
        · trivial
        · exact all_must (h6 _ _ _) (all_must (h7 _ _ _) (all_must (h8 _ _ _) (all_must (h8 _ _ _) trivial)))
  · trivial

/-- A check passed: the directory is safe. -/
theorem run_check {deny : Nat → Option Nat} {c : Bytes} {k : Prog} {n : Nat} {w w' : World}
    (h : run deny (chrootCheck c k) n w = (.running, w')) : safeDir (w.files (w.resolve c)) ∧ run deny k (n + 1) w = (.running, w') := by
  unfold chrootCheck at h
  rw [run] at h
  rcases step_cases deny n w (.stat c) with hs | ⟨e, hs⟩
  · rw [hs] at h
    simp only [World.sys] at h
    cases hf : w.files (w.resolve c) with
    | none => rw [hf] at h; simp only [fatal0, run] at h; injection h with h; cases h
    | some um =>
      obtain ⟨u, m⟩ := um
      rw [hf] at h
      dsimp only at h
      split at h
      · rw [fatal0, run] at h; injection h with h; cases h
      · rename_i hb
        split at h
        · rw [fatal0, run] at h; injection h with h; cases h
        · rename_i hd
          have hu : u = 0 := by
            by_cases hu : u = 0
            · exact hu
            · exact absurd (Or.inl hu) hb
          have hm : m &&& 0o22 = 0 := by
            by_cases hm : m &&& 0o22 = 0
            · exact hm
            · exact absurd (Or.inr hm) hb
          subst hu
          exact ⟨⟨hm, by simpa [isDir_eq] using hd⟩, h⟩
  · rw [hs] at h
    simp only [fatal0, run] at h
    injection h with h
    cases h

theorem run_loop {deny : Nat → Option Nat} {path : Bytes} {k : Prog} {w w' : World} : ∀ (l : Bytes) (cp n : Nat),
    run deny (chrootLoop path l cp k) n w = (.running, w') →
      safeDir (w.files (w.resolve path)) ∧
      (∀ i, i < l.length → l.getD i 0 = 0x2f → safeDir (w.files (w.resolve (path.take (cp + i + 1))))) ∧
      ∃ n', run deny k n' w = (.running, w') := by
  intro l
  induction l with
  | nil =>
    intro cp n h
    rw [chrootLoop] at h
    obtain ⟨h1, h2⟩ := run_check h
    exact ⟨h1, fun i hi => absurd hi (Nat.not_lt_zero i), _, h2⟩
  | cons c cs ih =>
    intro cp n h
    rw [chrootLoop] at h
    split at h
    · rename_i hc
      obtain ⟨h1, h2⟩ := run_check h
      obtain ⟨h3, h4, h5⟩ := ih _ _ h2
      refine ⟨h3, ?_, h5⟩
      intro i hi hl
      cases i with
      | zero => exact h1
      | succ i =>
        have := h4 i (Nat.lt_of_succ_lt_succ hi) (by simpa using hl)
        rwa [show cp + 1 + i + 1 = cp + (i + 1) + 1 from by omega] at this
    · rename_i hc
      obtain ⟨h3, h4, h5⟩ := ih _ _ h
      refine ⟨h3, ?_, h5⟩
      intro i hi hl
      cases i with
      | zero => exact absurd hl hc
      | succ i =>
        have := h4 i (Nat.lt_of_succ_lt_succ hi) (by simpa using hl)
        rwa [show cp + 1 + i + 1 = cp + (i + 1) + 1 from by omega] at this

theorem resolve_root {w : World} (h : w.root = lit "/") (p : Bytes) : w.resolve p = p := by
  unfold World.resolve; rw [if_pos h]

/-- The state after the control socket was made. -/
def withSock (w : World) (o : Opts) (gid : Nat) : World :=
  { w with mask := w.mask &&& 0o777, sock := some (0o770, gid), bound := true, listening := w.listening || o.has OPT_RECV }

theorem ctl_bind {deny : Nat → Option Nat} {o : Opts} {pwd : Option (Nat × Nat)} {old : Nat} {k : Prog} {n : Nat} {w x : World}
    (hm : w.mask = 0o177) (hb : w.bound = false) (hx : x ∈ trail deny (controlBind o pwd old k) n w) :
    SockSafe w (pwd.map (·.2)) x ∨
    ∃ n' uid gid, pwd = some (uid, gid) ∧ x ∈ trail deny k n'
      { w with mask := old &&& 0o777, sock := some (0o770, gid), bound := true, listening := w.listening || o.has OPT_RECV } := by
  have hw : SockSafe w (pwd.map (·.2)) w := by intro h; rw [hb] at h; cases h
  -- the part after removing the old socket
  have rest : ∀ (n : Nat) (w1 : World), w1.mask = 0o177 → w1.bound = false → w1.egid = w.egid → w1.listening = w.listening →
      (∀ s b m l, { w1 with sock := s, bound := b, mask := m, listening := l } = { w with sock := s, bound := b, mask := m, listening := l }) →
      x ∈ trail deny (must 0 .bindSock <|
        (fun k => if o.has OPT_RECV then must 0 .listenSock k else k) <| must 0 (.chmodSock 0o770) <| controlChown pwd old k) n w1 →
      SockSafe w (pwd.map (·.2)) x ∨
      ∃ n' uid gid, pwd = some (uid, gid) ∧ x ∈ trail deny k n'
        { w with mask := old &&& 0o777, sock := some (0o770, gid), bound := true, listening := w.listening || o.has OPT_RECV } := by
    intro n w1 hm1 hb1 he1 hl1 hw1 hx
    rcases trail_must hx with rfl | ⟨a, w2, h2, ha, hx⟩
    · left; intro h; rw [hb1] at h; cases h
    · simp only [World.sys] at h2
      cases hs : w1.sock with
      | some s => rw [hs] at h2; injection h2 with h2 _; exact absurd h2.symm (ha _)
      | none =>
        rw [hs] at h2
        injection h2 with _ h2
        rw [hm1, show (0o777 ^^^ (0o777 &&& 0o177) : Nat) = 0o600 from rfl] at h2
        -- after listening
        have tail : ∀ (n : Nat) (w3 : World), w3.sock = some (0o600, w.egid) → w3.bound = true →
            (∀ s b m l, { w3 with sock := s, bound := b, mask := m, listening := l } = { w with sock := s, bound := b, mask := m, listening := l }) →
            w3.listening = (w.listening || o.has OPT_RECV) →
            x ∈ trail deny (must 0 (.chmodSock 0o770) <| controlChown pwd old k) n w3 →
            SockSafe w (pwd.map (·.2)) x ∨
            ∃ n' uid gid, pwd = some (uid, gid) ∧ x ∈ trail deny k n'
              { w with mask := old &&& 0o777, sock := some (0o770, gid), bound := true, listening := w.listening || o.has OPT_RECV } := by
          intro n w3 hs3 hb3 hw3 hl3 hx
          rcases trail_must hx with rfl | ⟨a, w4, h4, _, hx⟩
          · left; exact fun _ => ⟨_, _, hs3, by decide, Or.inl rfl⟩
          · simp only [World.sys, hs3] at h4
            injection h4 with _ h4
            have hsafe4 : SockSafe w (pwd.map (·.2)) w4 := by
              subst h4; exact fun _ => ⟨_, _, rfl, by decide, Or.inr (Or.inl rfl)⟩
            cases pwd with
            | none =>
              have hx : x ∈ [w4] := hx
              rw [List.mem_singleton.mp hx]; exact Or.inl hsafe4
            | some p =>
              obtain ⟨uid, gid⟩ := p
              have hx : x ∈ trail deny (must 0 (.chownSock gid) (.call (.umask old) fun _ => k)) (n + 1) w4 := hx
              rcases trail_must hx with rfl | ⟨a, w5, h5, _, hx5⟩
              · exact Or.inl hsafe4
              · rw [trail] at hx5
                rw [← h4] at h5
                simp only [World.sys] at h5
                injection h5 with _ h5
                rcases List.mem_cons.mp hx5 with hx6 | hx6
                · left
                  rw [hx6, ← h5]
                  exact fun _ => ⟨_, _, rfl, by decide, Or.inr (Or.inr rfl)⟩
                · right
                  rw [step_sure deny _ _ _ rfl] at hx6
                  refine ⟨n + 1 + 1 + 1, uid, gid, rfl, ?_⟩
                  rw [← h5] at hx6
                  have := hw3 (some (0o770, gid)) true (old &&& 0o777) (w.listening || o.has OPT_RECV)
                  simp only [World.sys] at hx6
                  rw [← this]
                  rw [hb3, hl3] at hx6
                  exact hx6
        have hsafe2 : SockSafe w (pwd.map (·.2)) w2 := by
          subst h2; exact fun _ => ⟨_, _, rfl, by decide, Or.inl rfl⟩
        dsimp only at hx
        split at hx
        · rename_i hr
          rcases trail_must hx with rfl | ⟨a, w3, h3, _, hx⟩
          · exact Or.inl hsafe2
          · subst h2
            simp only [World.sys, if_true] at h3
            injection h3 with _ h3
            subst h3
            refine tail _ _ (by rw [he1]) rfl ?_ (by rw [hr, Bool.or_true]) hx
            intro s b m l
            exact hw1 s b m l
        · rename_i hr
          subst h2
          refine tail _ _ (by rw [he1]) rfl ?_ ?_ hx
          · intro s b m l
            exact hw1 s b m l
          · show w1.listening = _
            have hr : o.has OPT_RECV = false := by simpa using hr
            rw [hl1, hr, Bool.or_false]
  unfold controlBind at hx
  rw [trail] at hx
  rcases List.mem_cons.mp hx with rfl | hx
  · exact Or.inl hw
  · rcases step_cases deny n w .unlinkSock with hs | ⟨e, hs⟩
    · rw [hs] at hx
      simp only [World.sys] at hx
      cases hk : w.sock with
      | none =>
        rw [hk] at hx
        simp only [ENOENT, ne_eq, not_true_eq_false, if_false] at hx
        exact rest _ w hm hb rfl rfl (fun _ _ _ _ => rfl) hx
      | some s =>
        rw [hk] at hx
        exact rest _ { w with sock := none } hm hb rfl rfl (fun _ _ _ _ => rfl) hx
    · rw [hs] at hx
      dsimp only at hx
      split at hx
      · rw [fatal0, trail] at hx
        rw [List.mem_singleton.mp hx]; exact Or.inl hw
      · exact rest _ w hm hb rfl rfl (fun _ _ _ _ => rfl) hx

theorem ctl_trail {deny : Nat → Option Nat} {o : Opts} {pwd : Option (Nat × Nat)} {k : Prog} {n : Nat} {w x : World}
    (hb : w.bound = false) (hx : x ∈ trail deny (controlSocket o pwd k) n w) :
    SockSafe w (pwd.map (·.2)) x ∨ ∃ n' uid gid, pwd = some (uid, gid) ∧ x ∈ trail deny k n' (withSock w o gid) := by
  have hw : SockSafe w (pwd.map (·.2)) w := by intro h; rw [hb] at h; cases h
  have rest : ∀ n, x ∈ trail deny (.call (.umask 0o177) fun a =>
      match a with
      | .ok old => controlBind o pwd old k
      | _ => controlBind o pwd 0 k) n w →
      SockSafe w (pwd.map (·.2)) x ∨ ∃ n' uid gid, pwd = some (uid, gid) ∧ x ∈ trail deny k n' (withSock w o gid) := by
    intro n hx
    rw [trail] at hx
    rcases List.mem_cons.mp hx with rfl | hx
    · exact Or.inl hw
    · rw [step_sure deny _ _ _ rfl] at hx
      simp only [World.sys] at hx
      rcases ctl_bind (w := { w with mask := 0o177 &&& 0o777 }) rfl hb hx with h | ⟨n', uid, gid, hp, h⟩
      · exact Or.inl h
      · exact Or.inr ⟨n', uid, gid, hp, h⟩
  unfold controlSocket at hx
  rw [trail] at hx
  rcases List.mem_cons.mp hx with rfl | hx
  · exact Or.inl hw
  · rcases step_cases deny n w (.socket .unixSeqpacket) with hs | ⟨e, hs⟩
    · rw [hs] at hx
      exact rest _ hx
    · rw [hs] at hx
      dsimp only at hx
      split at hx
      · rcases trail_must hx with rfl | ⟨a, w1, h1, _, hx⟩
        · exact Or.inl hw
        · simp only [World.sys] at h1
          injection h1 with _ h1
          subst h1
          exact rest _ hx
      · rw [fatal0, trail] at hx
        rw [List.mem_singleton.mp hx]; exact Or.inl hw

theorem not_running {deny : Nat → Option Nat} {n : Nat} {w w' : World} {c : Nat} (h : run deny (.done (.exited c)) n w = (.running, w')) : False := by
  rw [run] at h; injection h with h; cases h

theorem ctl_bind_run {deny : Nat → Option Nat} {o : Opts} {pwd : Option (Nat × Nat)} {old : Nat} {k : Prog} {n : Nat} {w w' : World}
    (h : run deny (controlBind o pwd old k) n w = (.running, w')) :
    ∃ n' uid gid, pwd = some (uid, gid) ∧ run deny k n'
      { w with mask := old &&& 0o777, sock := some (0o770, gid), bound := true, listening := w.listening || o.has OPT_RECV } = (.running, w') := by
  have rest : ∀ (n : Nat) (s0 : Option (Nat × Nat)),
      run deny (must 0 .bindSock <|
        (fun k => if o.has OPT_RECV then must 0 .listenSock k else k) <| must 0 (.chmodSock 0o770) <| controlChown pwd old k) n { w with sock := s0 } = (.running, w') →
      ∃ n' uid gid, pwd = some (uid, gid) ∧ run deny k n'
        { w with mask := old &&& 0o777, sock := some (0o770, gid), bound := true, listening := w.listening || o.has OPT_RECV } = (.running, w') := by
    intro n s0 h
    obtain ⟨a, w2, h2, ha, h3⟩ := run_must h
    simp only [World.sys] at h2
    cases s0 with
    | some s => injection h2 with h2 _; exact absurd h2.symm (ha _)
    | none =>
      injection h2 with _ h2
      have tail : ∀ (n : Nat) (s : Nat × Nat),
          run deny (must 0 (.chmodSock 0o770) <| controlChown pwd old k) n
              { w with sock := some s, bound := true, listening := w.listening || o.has OPT_RECV } = (.running, w') →
          ∃ n' uid gid, pwd = some (uid, gid) ∧ run deny k n'
            { w with mask := old &&& 0o777, sock := some (0o770, gid), bound := true, listening := w.listening || o.has OPT_RECV } =
              (.running, w') := by
        intro n s h
        obtain ⟨a, w4, h4, _, h5⟩ := run_must h
        simp only [World.sys] at h4
        injection h4 with _ h4
        cases pwd with
        | none => rw [show run deny _ _ _ = (End.crashed, w4) from rfl] at h5; injection h5 with h5; cases h5
        | some p =>
          obtain ⟨uid, gid⟩ := p
          have h5 : run deny (must 0 (.chownSock gid) (.call (.umask old) fun _ => k)) (n + 1) w4 = (.running, w') := h5
          obtain ⟨a, w6, h6, _, h7⟩ := run_must h5
          rw [← h4] at h6
          simp only [World.sys] at h6
          injection h6 with _ h6
          rw [run, step_sure deny _ _ _ rfl, ← h6] at h7
          exact ⟨n + 1 + 1 + 1, uid, gid, rfl, h7⟩
      dsimp only at h3
      split at h3
      · rename_i hr
        obtain ⟨a, w3, h4, _, h5⟩ := run_must h3
        rw [← h2] at h4
        simp only [World.sys, if_true] at h4
        injection h4 with _ h4
        refine tail (n + 1 + 1) (0o777 ^^^ (0o777 &&& w.mask), w.egid) ?_
        rw [hr, Bool.or_true]
        rw [← h4] at h5
        exact h5
      · rename_i hr
        have hr : o.has OPT_RECV = false := by simpa using hr
        refine tail (n + 1) (0o777 ^^^ (0o777 &&& w.mask), w.egid) ?_
        rw [hr, Bool.or_false]
        rw [← h2] at h3
        exact h3
  unfold controlBind at h
  rw [run] at h
  rcases step_cases deny n w .unlinkSock with hs | ⟨e, hs⟩
  · rw [hs] at h
    simp only [World.sys] at h
    cases hk : w.sock with
    | none =>
      rw [hk] at h
      simp only [ENOENT, ne_eq, not_true_eq_false, if_false] at h
      exact rest _ w.sock h
    | some s =>
      rw [hk] at h
      exact rest _ none h
  · rw [hs] at h
    dsimp only at h
    split at h
    · exact (not_running h).elim
    · exact rest _ w.sock h

theorem ctl_run {deny : Nat → Option Nat} {o : Opts} {pwd : Option (Nat × Nat)} {k : Prog} {n : Nat} {w w' : World}
    (h : run deny (controlSocket o pwd k) n w = (.running, w')) :
    ∃ n' uid gid, pwd = some (uid, gid) ∧ run deny k n' (withSock w o gid) = (.running, w') := by
  have rest : ∀ n, run deny (.call (.umask 0o177) fun a =>
      match a with
      | .ok old => controlBind o pwd old k
      | _ => controlBind o pwd 0 k) n w = (.running, w') →
      ∃ n' uid gid, pwd = some (uid, gid) ∧ run deny k n' (withSock w o gid) = (.running, w') := by
    intro n h
    rw [run, step_sure deny _ _ _ rfl] at h
    simp only [World.sys] at h
    exact ctl_bind_run (w := { w with mask := 0o177 &&& 0o777 }) h
  unfold controlSocket at h
  rw [run] at h
  rcases step_cases deny n w (.socket .unixSeqpacket) with hs | ⟨e, hs⟩
  · rw [hs] at h
    exact rest _ h
  · rw [hs] at h
    dsimp only at h
    split at h
    · obtain ⟨a, w1, h1, _, h2⟩ := run_must h
      simp only [World.sys] at h1
      injection h1 with _ h1
      subst h1
      exact rest _ h2
    · exact (not_running h).elim

/-- The state of the child when it is confined. -/
def dropped (w : World) (dir : Bytes) (uid gid : Nat) : World :=
  { w with
    root := dir, cwd := dir, groups := [], rgid := gid, egid := gid, sgid := gid, ruid := uid, euid := uid, suid := uid,
    caps := capsAfter w uid uid uid, nproc := some (0, 0), fsize := some (0, 0) }

theorem drop_run {deny : Nat → Option Nat} {o : Opts} {dir : Bytes} {pwd : Option (Nat × Nat)} {n : Nat} {w w' : World}
    (hroot : w.root = lit "/") (ho : o.testBit 6 = false) (h : run deny (childDrop o dir pwd) n w = (.running, w')) :
    ∃ uid gid, pwd = some (uid, gid) ∧ Trusted w.files dir ∧ w' = dropped w dir uid gid := by
  unfold childDrop at h
  obtain ⟨a, w1, h1, -, h2⟩ := run_must h
  simp only [World.sys] at h1
  injection h1 with _ h1
  subst h1
  rw [if_pos (by simp [Opts.has, OPT_DEBUG, ho])] at h2
  unfold myChroot at h2
  split at h2
  · exact (not_running h2).elim
  · split at h2
    · exact (not_running h2).elim
    · obtain ⟨t1, t2, n', h3⟩ := run_loop _ _ _ h2
      obtain ⟨a, w3, h4, e4, h5⟩ := run_must h3
      simp only [World.sys] at h4
      rw [resolve_root hroot] at h4
      rw [resolve_root hroot] at t1
      have ht : Trusted w.files dir := by
        refine ⟨t1, ?_⟩
        intro i hi hl
        have := t2 i hi hl
        rwa [resolve_root hroot, Nat.zero_add] at this
      cases hf : w.files dir with
      | none => rw [hf] at t1; exact t1.elim
      | some um =>
        obtain ⟨u, m⟩ := um
        rw [hf] at h4
        dsimp only at h4
        split at h4
        · injection h4 with _ h4
          subst h4
          obtain ⟨a, w5, h6, e6, h7⟩ := run_must h5
          simp only [World.sys] at h6
          rw [show (World.resolve { w with cwd := dir } dir) = dir from resolve_root hroot dir] at h6
          rw [hf] at h6
          dsimp only at h6
          split at h6
          · injection h6 with _ h6
            subst h6
            obtain ⟨a, w7, h8, e8, h9⟩ := run_must h7
            simp only [World.sys] at h8
            have hr : World.resolve { w with cwd := dir, root := dir } (lit "/") = dir := by
              unfold World.resolve
              dsimp only
              split
              · rename_i hd; exact hd.symm
              · rw [if_pos rfl]
            rw [hr, hf] at h8
            dsimp only at h8
            by_cases hdir : directory m = true
            rw [if_pos hdir] at h8
            · injection h8 with _ h8
              subst h8
              unfold myDropPrivs at h9
              obtain ⟨a, w10, h10, e10, h11⟩ := run_must h9
              simp only [World.sys] at h10
              split at h10
              · injection h10 with _ h10
                subst h10
                cases pwd with
                | none => rw [show run deny _ _ _ = (End.crashed, _) from rfl] at h11; injection h11 with h11; cases h11
                | some p =>
                  obtain ⟨uid, gid⟩ := p
                  dsimp only at h11
                  obtain ⟨a, w12, h12, e12, h13⟩ := run_must h11
                  simp only [World.sys] at h12
                  split at h12
                  · injection h12 with _ h12
                    subst h12
                    obtain ⟨a, w14, h14, e14, h15⟩ := run_must h13
                    simp only [World.sys] at h14
                    split at h14
                    · injection h14 with _ h14
                      subst h14
                      unfold myRlimitChild at h15
                      obtain ⟨a, w16, h16, e16, h17⟩ := run_must h15
                      simp only [World.sys] at h16
                      split at h16
                      · injection h16 with _ h16
                        subst h16
                        obtain ⟨a, w18, h18, e18, h19⟩ := run_must h17
                        simp only [World.sys] at h18
                        split at h18
                        · injection h18 with _ h18
                          subst h18
                          rw [run] at h19
                          injection h19 with _ h19
                          exact ⟨uid, gid, rfl, ht, h19.symm⟩
                        · injection h18 with h18 _; exact absurd h18.symm (e18 _)
                      · injection h16 with h16 _; exact absurd h16.symm (e16 _)
                    · injection h14 with h14 _; exact absurd h14.symm (e14 _)
                  · injection h12 with h12 _; exact absurd h12.symm (e12 _)
              · injection h10 with h10 _; exact absurd h10.symm (e10 _)
            · rw [if_neg hdir] at h8; injection h8 with h8 _; exact absurd h8.symm (e8 _)
          · injection h6 with h6 _; exact absurd h6.symm (e6 _)
        · injection h4 with h4 _; exact absurd h4.symm (e4 _)

/-- What is known about the unprivileged process when it reaches its first event. -/
theorem child_run {deny : Nat → Option Nat} {o : Opts} {dir : Bytes} {pwd : Option (Nat × Nat)} {n : Nat} {w w' : World}
    (hroot : w.root = lit "/") (ho : o.testBit 6 = false) (h : run deny (childInit o dir pwd) n w = (.running, w')) :
    ∃ uid gid, pwd = some (uid, gid) ∧ Trusted w.files dir ∧
      w' = dropped (if o.testBit 4 = true then w else withSock w o gid) dir uid gid := by
  unfold childInit at h
  cases h4 : o.testBit 4 with
  | true =>
    rw [if_neg (by simp [Opts.has, OPT_ONCE, h4])] at h
    simp only [if_true]
    exact drop_run hroot ho h
  | false =>
    rw [if_pos (by simp [Opts.has, OPT_ONCE, OPT_DEBUG, h4, ho])] at h
    obtain ⟨n', uid, gid, hp, h2⟩ := ctl_run h
    obtain ⟨uid', gid', hp', ht, hw⟩ := drop_run (w := withSock w o gid) hroot ho h2
    rw [hp] at hp'
    injection hp' with hp'
    injection hp' with e1 e2
    subst e1
    subst e2
    exact ⟨uid, gid, hp, ht, by simpa using hw⟩

/-- Every program end satisfies a condition. -/
def Prog.Ends (P : End → Prop) : Prog → Prop
  | .done e => P e
  | .call _ k => ∀ a, Prog.Ends P (k a)

theorem run_ends {P : End → Prop} (deny : Nat → Option Nat) (p : Prog) : ∀ n w, Prog.Ends P p → P (run deny p n w).1 := by
  induction p with
  | done e => intro n w h; exact h
  | call c k ih => intro n w h; rw [run]; exact ih _ _ _ (h _)

theorem ends_fatal {P : End → Prop} (h0 : P (.exited 0)) (h1 : P (.exited 1)) (pid : Int) : Prog.Ends P (myFatal pid) := by
  unfold myFatal
  split
  · intro a
    dsimp only
    split
    · intro b; exact h0
    · intro b; intro b; exact h0
  · exact h1

theorem ends_must {P : End → Prop} (h0 : P (.exited 0)) (h1 : P (.exited 1)) {pid : Int} {c : Call} {k : Prog} (hk : Prog.Ends P k) :
    Prog.Ends P (must pid c k) := by
  intro a
  cases a with
  | err e => exact ends_fatal h0 h1 pid
  | ok v => exact hk
  | st u m => exact hk

theorem ends_check {P : End → Prop} (h0 : P (.exited 0)) (h1 : P (.exited 1)) {c : Bytes} {k : Prog} (hk : Prog.Ends P k) :
    Prog.Ends P (chrootCheck c k) := by
  intro a
  cases a with
  | err e => exact ends_fatal h0 h1 0
  | ok v => exact ends_fatal h0 h1 0
  | st u m =>
    dsimp only
    split
    · exact ends_fatal h0 h1 0
    · split
      · exact ends_fatal h0 h1 0
      · exact hk

theorem ends_loop {P : End → Prop} (h0 : P (.exited 0)) (h1 : P (.exited 1)) {path : Bytes} {k : Prog} (hk : Prog.Ends P k) :
    ∀ (l : Bytes) (cp : Nat), Prog.Ends P (chrootLoop path l cp k) := by
  intro l
  induction l with
  | nil => intro cp; exact ends_check h0 h1 hk
  | cons c cs ih =>
    intro cp
    rw [chrootLoop]
    split
    · exact ends_check h0 h1 (ih _)
    · exact ih _

theorem ends_drop {P : End → Prop} (h0 : P (.exited 0)) (h1 : P (.exited 1)) (hr : P .running) (o : Opts) (dir : Bytes) (pwd : Option (Nat × Nat))
    (hp : o.testBit 6 = true ∨ ∃ p, pwd = some p) : Prog.Ends P (childDrop o dir pwd) := by
  unfold childDrop
  refine ends_must h0 h1 ?_
  split
  · rename_i hd
    rcases hp with hp | ⟨p, rfl⟩
    · simp [Opts.has, OPT_DEBUG, hp] at hd
    · unfold myChroot
      split
      · exact ends_fatal h0 h1 0
      · split
        · exact ends_fatal h0 h1 0
        · refine ends_loop h0 h1 (ends_must h0 h1 (ends_must h0 h1 (ends_must h0 h1 ?_))) _ _
          exact ends_must h0 h1 (ends_must h0 h1 (ends_must h0 h1 (ends_must h0 h1 (ends_must h0 h1 hr))))
  · exact hr

theorem ends_child {P : End → Prop} (h0 : P (.exited 0)) (h1 : P (.exited 1)) (hr : P .running) (o : Opts) (dir : Bytes) (pwd : Option (Nat × Nat))
    (hp : o.testBit 6 = true ∨ ∃ p, pwd = some p) : Prog.Ends P (childInit o dir pwd) := by
  have hd := ends_drop h0 h1 hr o dir pwd hp
  unfold childInit
  split
  · rename_i hc
    rcases hp with hp | ⟨p, rfl⟩
    · simp [Opts.has, OPT_DEBUG, hp] at hc
    · have hb : ∀ old, Prog.Ends P (controlBind o (some p) old (childDrop o dir (some p))) := by
        intro old a
        have rest : Prog.Ends P (must 0 .bindSock <|
            (fun k => if o.has OPT_RECV then must 0 .listenSock k else k) <| must 0 (.chmodSock 0o770) <|
              controlChown (some p) old (childDrop o dir (some p))) := by
          refine ends_must h0 h1 ?_
          dsimp only
          have : Prog.Ends P (must 0 (.chmodSock 0o770) <| controlChown (some p) old (childDrop o dir (some p))) :=
            ends_must h0 h1 (ends_must h0 h1 (fun _ => hd))
          split
          · exact ends_must h0 h1 this
          · exact this
        cases a with
        | err e =>
          dsimp only
          split
          · exact ends_fatal h0 h1 0
          · exact rest
        | ok v => exact rest
        | st u m => exact rest
      have hu : Prog.Ends P (.call (.umask 0o177) fun a =>
          match a with
          | .ok old => controlBind o (some p) old (childDrop o dir (some p))
          | _ => controlBind o (some p) 0 (childDrop o dir (some p))) := by
        intro a
        cases a <;> exact hb _
      intro a
      cases a with
      | err e =>
        dsimp only
        split
        · exact ends_must h0 h1 hu
        · exact ends_fatal h0 h1 0
      | ok v => exact hu
      | st u m => exact hu
  · exact hd

theorem ends_fork {P : End → Prop} (h0 : P (.exited 0)) (h1 : P (.exited 1)) (hr : P .running) (o : Opts) (dir : Bytes) (pwd : Option (Nat × Nat))
    (hp : o.testBit 6 = true ∨ ∃ p, pwd = some p) : Prog.Ends P (forkProg o dir pwd) := by
  intro a
  cases a with
  | err e => exact ends_fatal h0 h1 _
  | st u m => exact ends_fatal h0 h1 _
  | ok v =>
    cases v with
    | zero => exact ends_child h0 h1 hr o dir pwd hp
    | succ p =>
      refine ends_must h0 h1 ?_
      have hw : Prog.Ends P (.call (.waitpid ((p + 1 : Nat) : Int)) fun a =>
          match a with
          | .ok 0 => .done .running
          | _ => .done (.exited 1)) := by
        intro a
        dsimp only
        split
        · exact hr
        · exact h1
      dsimp only
      split
      · exact hw
      · exact ends_must h0 h1 hw

theorem must_ok {deny : Nat → Option Nat} {c : Call} {k : Prog} {n : Nat} {w w1 : World} {a : Ans} (hd : deny n = none) (h : w.sys c = (a, w1))
    (ha : ∀ e, a ≠ .err e) : run deny (must 0 c k) n w = run deny k (n + 1) w1 := by
  unfold must
  rw [run]
  unfold World.step
  rw [hd]
  dsimp only
  rw [h]
  cases a with
  | err e => exact absurd rfl (ha e)
  | ok v => rfl
  | st u m => rfl

theorem check_ok {deny : Nat → Option Nat} {c : Bytes} {k : Prog} {n : Nat} {w : World} (hd : deny n = none)
    (h : safeDir (w.files (w.resolve c))) : run deny (chrootCheck c k) n w = run deny k (n + 1) w := by
  unfold chrootCheck
  rw [run]
  unfold World.step
  rw [hd]
  simp only [World.sys]
  cases hf : w.files (w.resolve c) with
  | none => rw [hf] at h; exact h.elim
  | some um =>
    obtain ⟨u, m⟩ := um
    rw [hf] at h
    cases u with
    | zero =>
      obtain ⟨h1, h2⟩ := h
      dsimp only
      rw [if_neg (by simp [h1]), if_neg (by simp [isDir_eq, h2])]
    | succ u => exact h.elim

theorem loop_ok' {deny : Nat → Option Nat} (hd : ∀ n, deny n = none) {path : Bytes} {k : Prog} {w : World} (h0 : safeDir (w.files (w.resolve path))) :
    ∀ (l : Bytes) (cp n : Nat),
      (∀ i, i < l.length → l.getD i 0 = 0x2f → safeDir (w.files (w.resolve (path.take (cp + i + 1))))) →
      ∃ n', run deny (chrootLoop path l cp k) n w = run deny k n' w := by
  intro l
  induction l with
  | nil => intro cp n _; exact ⟨_, check_ok (hd n) h0⟩
  | cons c cs ih =>
    intro cp n h
    have hnext : ∀ i, i < cs.length → cs.getD i 0 = 0x2f → safeDir (w.files (w.resolve (path.take (cp + 1 + i + 1)))) := by
      intro i hi hl
      have := h (i + 1) (Nat.succ_lt_succ hi) (by simpa using hl)
      rwa [show cp + (i + 1) + 1 = cp + 1 + i + 1 from by omega] at this
    rw [chrootLoop]
    split
    · rename_i hc
      rw [check_ok (hd n) (h 0 (Nat.succ_pos _) (by simpa using hc))]
      exact ih _ _ hnext
    · exact ih _ _ hnext

/-- Every way to the event loop takes the lock. -/
def NeedsLock : Prog → Prop
  | .done e => e ≠ .running
  | .call c k => ∀ a, (c = .lockPid → ∃ e, a = .err e) → (c = .fork → a ≠ .ok 0) → NeedsLock (k a)

theorem needs_fatal : NeedsLock (myFatal 0) := by
  intro h; cases h

theorem needs_must {c : Call} {k : Prog} (hk : c ≠ .lockPid → NeedsLock k) : NeedsLock (must 0 c k) := by
  intro a hl _
  cases a with
  | err e => exact needs_fatal
  | ok v => exact hk (fun h => by obtain ⟨e, he⟩ := hl h; cases he)
  | st u m => exact hk (fun h => by obtain ⟨e, he⟩ := hl h; cases he)

theorem needs_start (o : Opts) (dir : Bytes) (pwd : Option (Nat × Nat)) (ho : o.testBit 0 = true) : NeedsLock (startProg o dir pwd) := by
  unfold startProg
  dsimp only
  rw [if_pos (show o.has OPT_DAEMON = true from ho)]
  exact needs_must (fun _ => needs_must (fun _ => needs_must (fun h => absurd rfl h)))

/-- Calls that leave the pid file and its lock alone. -/
def afterPid : Call → Bool
  | .openPid => false
  | .lockPid => false
  | .writePid _ => false
  | _ => true

theorem sys_after (w : World) (c : Call) (h : afterPid c = true) : (w.sys c).2.pidfile = w.pidfile ∧ (w.sys c).2.locked = w.locked := by
  have aux : ∀ r, w.sys c = r → r.2.pidfile = w.pidfile ∧ r.2.locked = w.locked := by
    intro r hr
    cases c
    case setrlimit r' cur max =>
      cases r' <;>
      · simp only [World.sys] at hr
        split at hr <;> (subst hr; exact ⟨rfl, rfl⟩)
    case openPid => cases h
    case lockPid => cases h
    case writePid => cases h
    all_goals
      simp only [World.sys] at hr
      repeat' split at hr
      all_goals (subst hr; exact ⟨rfl, rfl⟩)
  exact aux _ rfl

theorem all_fatal {P : Call → Prop} (h1 : ∀ p, P (.waitpid p)) (h2 : ∀ p s, P (.kill p s)) (h3 : P .unlinkSock) (pid : Int) : (myFatal pid).All P := by
  unfold myFatal
  split
  · refine ⟨h1 _, fun a => ?_⟩
    dsimp only
    split
    · exact ⟨h3, fun _ => trivial⟩
    · exact ⟨h2 _ _, fun _ => ⟨h3, fun _ => trivial⟩⟩
  · trivial

theorem all_must' {P : Call → Prop} (h1 : ∀ p, P (.waitpid p)) (h2 : ∀ p s, P (.kill p s)) (h3 : P .unlinkSock) {pid : Int} {c : Call} {k : Prog}
    (hc : P c) (hk : k.All P) : (must pid c k).All P := by
  refine ⟨hc, fun a => ?_⟩
  cases a with
  | err e => exact all_fatal h1 h2 h3 pid
  | ok v => exact hk
  | st u m => exact hk

theorem all_child {P : Call → Prop} (o : Opts) (dir : Bytes) (pwd : Option (Nat × Nat)) (h1 : ∀ k, P (.socket k)) (h2 : ∀ p, P (.stat p))
    (h3 : ∀ p, P (.chdir p)) (h4 : ∀ p, P (.chroot p)) (h5 : ∀ l, P (.setgroups l)) (h6 : ∀ a b c, P (.setresgid a b c))
    (h7 : ∀ a b c, P (.setresuid a b c)) (h8 : ∀ r a b, P (.setrlimit r a b)) (h9 : ∀ m, P (.umask m)) (h10 : P .unlinkSock) (h11 : P .bindSock)
    (h12 : P .listenSock) (h13 : ∀ m, P (.chmodSock m)) (h14 : ∀ g, P (.chownSock g)) : (childInit o dir pwd).All P := by
  have hd := all_drop o dir pwd (h1 .inetDgram) h2 h3 h4 h5 h6 h7 h8
  unfold childInit
  split
  · have hb : ∀ old, (controlBind o pwd old (childDrop o dir pwd)).All P := by
      intro old
      have rest : (must 0 .bindSock <|
          (fun k => if o.has OPT_RECV then must 0 .listenSock k else k) <| must 0 (.chmodSock 0o770) <|
            controlChown pwd old (childDrop o dir pwd)).All P := by
        refine all_must h11 ?_
        dsimp only
        have hc : (must 0 (.chmodSock 0o770) <| controlChown pwd old (childDrop o dir pwd)).All P := by
          refine all_must (h13 _) ?_
          unfold controlChown
          split
          · trivial
          · exact all_must (h14 _) ⟨h9 _, fun _ => hd⟩
        split
        · exact all_must h12 hc
        · exact hc
      refine ⟨h10, fun a => ?_⟩
      cases a with
      | err e =>
        dsimp only
        split
        · exact all_fatal0 P
        · exact rest
      | ok v => exact rest
      | st u m => exact rest
    have hu : (Prog.call (.umask 0o177) fun a =>
        match a with
        | .ok old => controlBind o pwd old (childDrop o dir pwd)
        | _ => controlBind o pwd 0 (childDrop o dir pwd)).All P := by
      refine ⟨h9 _, fun a => ?_⟩
      cases a <;> exact hb _
    refine ⟨h1 _, fun a => ?_⟩
    cases a with
    | err e =>
      dsimp only
      split
      · exact all_must (h1 _) hu
      · exact all_fatal0 P
    | ok v => exact hu
    | st u m => exact hu
  · exact hd

theorem all_parent {P : Call → Prop} (o : Opts) (child : Nat) (h1 : ∀ p, P (.waitpid p)) (h2 : ∀ p s, P (.kill p s)) (h3 : P .unlinkSock)
    (h4 : P (.socket .inetDgram)) (h5 : ∀ l, P (.capSet l)) : (parentInit o child).All P := by
  have hw : (Prog.call (.waitpid child) fun a =>
      match a with
      | .ok 0 => .done .running
      | _ => .done (.exited 1)).All P := by
    refine ⟨h1 _, fun a => ?_⟩
    dsimp only
    split <;> trivial
  refine all_must' h1 h2 h3 h4 ?_
  dsimp only
  split
  · exact hw
  · exact all_must' h1 h2 h3 (h5 _) hw

theorem all_after (o : Opts) (dir : Bytes) (pwd : Option (Nat × Nat)) :
    (mySocketpair <| mySocketpair <| forkProg o dir pwd).All (fun c => afterPid c = true) := by
  unfold mySocketpair
  iterate 10 refine all_must rfl ?_
  refine ⟨rfl, fun a => ?_⟩
  cases a with
  | err e => exact all_fatal (P := fun c => afterPid c = true) (fun _ => rfl) (fun _ _ => rfl) rfl _
  | st u m => exact all_fatal (P := fun c => afterPid c = true) (fun _ => rfl) (fun _ _ => rfl) rfl _
  | ok v =>
    cases v with
    | zero =>
      exact all_child o dir pwd (fun _ => rfl) (fun _ => rfl) (fun _ => rfl) (fun _ => rfl) (fun _ => rfl) (fun _ _ _ => rfl) (fun _ _ _ => rfl)
        (fun _ _ _ => rfl) (fun _ => rfl) rfl rfl rfl (fun _ => rfl) (fun _ => rfl)
    | succ p => exact all_parent o (p + 1) (fun _ => rfl) (fun _ _ => rfl) rfl rfl (fun _ => rfl)

theorem run_must' {deny : Nat → Option Nat} {pid : Int} {c : Call} {k : Prog} {n : Nat} {w w' : World}
    (h : run deny (must pid c k) n w = (.running, w')) :
    ∃ a w1, w.sys c = (a, w1) ∧ (∀ e, a ≠ .err e) ∧ run deny k (n + 1) w1 = (.running, w') := by
  have hno : ∀ n w, run deny (myFatal pid) n w ≠ (.running, w') := by
    intro n w h
    exact fatal_not_running deny pid n w (by rw [h])
  unfold must at h
  rw [run] at h
  rcases step_cases deny n w c with hs | ⟨e, hs⟩
  · rw [hs] at h
    cases ha : (w.sys c).1 with
    | ok v => rw [ha] at h; exact ⟨(w.sys c).1, (w.sys c).2, rfl, (by rw [ha]; intro e he; cases he), h⟩
    | st u m => rw [ha] at h; exact ⟨(w.sys c).1, (w.sys c).2, rfl, (by rw [ha]; intro e he; cases he), h⟩
    | err e => rw [ha] at h; exact absurd h (hno _ _)
  · rw [hs] at h; exact absurd h (hno _ _)

/-- The only process signalled is the forked one, as long as the fork succeeds. -/
def OnlyKills (f : Nat) : Prog → Prop
  | .done _ => True
  | .call c k => (∀ q s, c = .kill q s → q = f ∧ s = 15) ∧ ∀ a, (c = .fork → a = .ok f) → OnlyKills f (k a)

theorem kills_run (deny : Nat → Option Nat) (f : Nat) (p : Prog) : ∀ (n : Nat) (w : World), w.forked = f → OnlyKills f p → forkOk deny p n w →
    ∀ x ∈ (run deny p n w).2.signals, x ∈ w.signals ∨ x = ((f : Int), 15) := by
  induction p with
  | done e => intro n w _ _ _ x hx; rw [run] at hx; exact Or.inl hx
  | call c k ih =>
    intro n w hf hk ho x hx
    rw [run] at hx
    have hsys : (w.sys c).2.forked = w.forked ∧ ∀ x ∈ (w.sys c).2.signals, x ∈ w.signals ∨ x = ((f : Int), 15) := by
      have aux : ∀ r, w.sys c = r → r.2.forked = w.forked ∧ ∀ x ∈ r.2.signals, x ∈ w.signals ∨ x = ((f : Int), 15) := by
        intro r hr
        cases c
        case setrlimit r' cur max =>
          cases r' <;>
          · simp only [World.sys] at hr
            split at hr <;> (subst hr; exact ⟨rfl, fun x hx => Or.inl hx⟩)
        case kill q s =>
          simp only [World.sys] at hr
          subst hr
          refine ⟨rfl, fun x hx => ?_⟩
          rcases List.mem_append.mp hx with h | h
          · exact Or.inl h
          · right
            rw [List.mem_singleton.mp h, (hk.1 q s rfl).1, (hk.1 q s rfl).2]
        all_goals
          simp only [World.sys] at hr
          repeat' split at hr
          all_goals (subst hr; exact ⟨rfl, fun x hx => Or.inl hx⟩)
      exact aux _ rfl
    have hstep : (w.step deny n c).2.forked = w.forked ∧ ∀ x ∈ (w.step deny n c).2.signals, x ∈ w.signals ∨ x = ((f : Int), 15) := by
      rcases step_cases deny n w c with hs | ⟨e, hs⟩
      · rw [hs]; exact hsys
      · rw [hs]; exact ⟨rfl, fun x hx => Or.inl hx⟩
    have ha : c = .fork → (w.step deny n c).1 = .ok f := by
      intro hc
      unfold World.step
      rw [ho.1 hc]
      subst hc
      simp only [World.sys, hf]
    rcases ih _ (n + 1) _ (hstep.1.trans hf) (hk.2 _ ha) ho.2 x hx with h | h
    · exact hstep.2 x h
    · exact Or.inr h

theorem kills_of_all (f : Nat) (p : Prog) : p.All (fun c => ∀ q s, c ≠ .kill q s) → OnlyKills f p := by
  induction p with
  | done e => intro _; trivial
  | call c k ih => intro h; exact ⟨fun q s e => absurd e (h.1 q s), fun a _ => ih a (h.2 a)⟩

theorem kills_must {f : Nat} {pid : Int} {c : Call} {k : Prog} (hp : pid = 0 ∨ pid = f) (hc : ∀ q s, c ≠ .kill q s) (hk : OnlyKills f k) :
    OnlyKills f (must pid c k) := by
  refine ⟨fun q s e => absurd e (hc q s), fun a _ => ?_⟩
  cases a with
  | ok v => exact hk
  | st u m => exact hk
  | err e =>
    unfold myFatal
    split
    · rename_i h0
      have hp : pid = f := hp.resolve_left h0
      refine ⟨fun q s e => (by cases e), fun a _ => ?_⟩
      dsimp only
      have hq : OnlyKills f (.call .unlinkSock fun _ => .done (.exited 0)) := ⟨fun q s e => (by cases e), fun _ _ => trivial⟩
      split
      · exact hq
      · refine ⟨fun q s e => ?_, fun _ _ => hq⟩
        injection e with e1 e2
        exact ⟨e1.symm.trans hp, e2.symm⟩
    · trivial

theorem kills_start (o : Opts) (dir : Bytes) (pwd : Option (Nat × Nat)) (f : Nat) : OnlyKills f (startProg o dir pwd) := by
  have hfork : OnlyKills f (forkProg o dir pwd) := by
    refine ⟨fun q s e => (by cases e), fun a ha => ?_⟩
    rw [ha rfl]
    cases f with
    | zero =>
      refine kills_of_all _ _ (all_child o dir pwd ?_ ?_ ?_ ?_ ?_ ?_ ?_ ?_ ?_ ?_ ?_ ?_ ?_ ?_)
      all_goals intros; intro h; cases h
    | succ p =>
      have hw : OnlyKills (p + 1) (.call (.waitpid ((p + 1 : Nat) : Int)) fun a =>
          match a with
          | .ok 0 => .done .running
          | _ => .done (.exited 1)) := by
        refine ⟨fun q s e => (by cases e), fun a _ => ?_⟩
        dsimp only
        split <;> trivial
      refine kills_must (Or.inr rfl) (by intro q s h; cases h) ?_
      dsimp only
      split
      · exact hw
      · exact kills_must (Or.inr rfl) (by intro q s h; cases h) hw
  have hpair : OnlyKills f (mySocketpair <| mySocketpair <| forkProg o dir pwd) := by
    unfold mySocketpair
    iterate 10 refine kills_must (Or.inl rfl) (by intro q s h; cases h) ?_
    exact hfork
  unfold startProg
  dsimp only
  split
  · iterate 3 refine kills_must (Or.inl rfl) (by intro q s h; cases h) ?_
    refine ⟨fun q s e => (by cases e), fun a _ => ?_⟩
    cases a <;> exact kills_must (Or.inl rfl) (by intro q s h; cases h) hpair
  · exact hpair

end Ladvd
