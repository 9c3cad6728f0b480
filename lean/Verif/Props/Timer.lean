import Verif.Lemmas.Timer
import Verif.Props.Network
/-!
# C78: advertisements are renewed long before they expire, stale neighbours vanish in time
-/

namespace Ladvd.Props

open Spec

/-! ## Rounds -/

/-- However long the process runs and whatever happens in between (link events, receptions, clients): within 30 seconds after any moment there
is another round, if the event loop is never late; otherwise by at most as much later.  Rounds are at least 30 seconds apart. -/
theorem C78_period (c : Conf) (d0 : Daemon) (late t0 : Int) (k0 : Kernel) (m0 : Media) (h : List (Int × Event)) (s : Timed)
    (hp : Punctual c late t0 ((t0, .timer k0 m0 t0) :: h) ⟨d0, none⟩)
    (hr : timedRun c ((t0, .timer k0 m0 t0) :: h) ⟨d0, none⟩ = .ok s) :
    (t0 :: roundTimes h).Pairwise (fun x y => x + 30 ≤ y) ∧
    ∀ now, Current late now s → ∀ a, t0 ≤ a → a + 30 + late < now → ∃ t ∈ roundTimes h, a < t ∧ t ≤ a + 30 + late := by
  obtain ⟨s1, h1, hr⟩ := timedRun_cons hr
  obtain ⟨-, -, -, -, hp⟩ := hp
  have hd : s1.due = some (t0 + 30) := (timedStep_ok h1).2
  exact ⟨spacing hd (hp s1 h1) hr, fun now hc a h1' h2 => period hd (hp s1 h1) hr hc h1' h2⟩

/-- What a round needs, given at the start, is there in every round. -/
theorem workable_run {c : Conf} {d0 : Daemon} (hb : Booted d0) (hargv : c.opts.testBit 5 = true ↔ c.names ≠ []) (hn : c.names.length < 65536)
    {es : List Event} {d : Daemon} (hr : daemonRun c es d0 = .ok d) {k : Kernel} {addrs : List IfAddr} (ha : KernelAnswers c k addrs) :
    Workable c k addrs d := by
  obtain ⟨_, _, _, _, hk⟩ := C49_kept c es d0 d hr
  exact ⟨ha.sane, ha.listed, ha.count, ha.len, hn, ha.vlans, by rw [hk]; exact hb.texts, hargv⟩

theorem workable_later {h : Host} {e : SysEnv} (he : SysEnvOk e) {os : List Opt} (ho : OptsOk os) {args : List Bytes} {c : Conf}
    {pwd : Option (Nat × Nat)} {d0 : Daemon} (hs : startUp h e os args = .ok (c, pwd, d0)) (hn : c.names.length < 65536) {es : List Event} {d : Daemon}
    (hr : daemonRun c es d0 = .ok d) {k : Kernel} {addrs : List IfAddr} (ha : KernelAnswers c k addrs) : Workable c k addrs d :=
  workable_run (booted he ho hs) (C49_started h e he os ho args c pwd d0 hs).2.2.2.2 hn hr ha

/-- The messages of a round are sent in the round. -/
theorem round_sends {c : Conf} {d0 : Daemon} (hb : Booted d0) (hargv : c.opts.testBit 5 = true ↔ c.names ≠ []) (hn : c.names.length < 65536)
    (hsend : c.opts.testBit 1 = true) {i : Nat} {p : Proto} {pre post : List (Int × Event)} {t : Int} {k : Kernel} {m : Media} {now : Int}
    (hsane : ∀ x ∈ pre, SaneEvent x.2) (hw : ∃ addrs, KernelAnswers c k addrs ∧ Due c k (usables k addrs) (fun _ => 0) i p)
    {s : Timed} (hr : timedRun c (pre ++ (t, .timer k m now) :: post) ⟨d0, none⟩ = .ok s) :
    ∃ x, (t, x) ∈ sentAt c (pre ++ (t, .timer k m now) :: post) ⟨d0, none⟩ ∧ x.index = i ∧ x.proto = p := by
  obtain ⟨s1, h1, hr⟩ := timedRun_append hr
  obtain ⟨s2, h2, -⟩ := timedRun_cons hr
  obtain ⟨addrs, hans, hdue⟩ := hw
  have hd := timedRun_daemon h1
  have hst := hb.started
  obtain ⟨d', new, hd', htx, -, hmem⟩ := C23_round_partial c hsend d0 hst (pre.map (·.2)) (fun e he => by
    obtain ⟨x, hx, rfl⟩ := List.mem_map.mp he; exact hsane x hx) s1.daemon hd k m now addrs (workable_run hb hargv hn hd hans)
  obtain rfl : d' = s2.daemon := by
    have := (timedStep_ok h2).1
    rw [hd'] at this
    injection this
  have hin : (i, p) ∈ new.map (fun t => (t.index, t.proto)) := by
    rw [hmem]
    obtain ⟨e, hem, hch, hal, s, hsm, hsi, hsal, hso, hen⟩ := hdue
    refine ⟨e, hem, hch, hal, s, hsm, hsi, hsal, hso, .inl ?_⟩
    rcases hen with hen | hen
    · exact hen
    · rw [Nat.zero_testBit] at hen; cases hen
  obtain ⟨x, hx, he⟩ := List.mem_map.mp hin
  injection he with hxi hxp
  refine ⟨x, sentAt_mid h1 h2 ?_, hxi, hxp⟩
  rw [htx, List.drop_left]
  exact hx

/-- A message at the start, and then again within 30 seconds after any moment, plus the lateness of the event loop. -/
theorem renewed_core {c : Conf} {d0 : Daemon} (hb : Booted d0) (hargv : c.opts.testBit 5 = true ↔ c.names ≠ []) (hn : c.names.length < 65536)
    (hsend : c.opts.testBit 1 = true) {late t0 : Int} {k0 : Kernel} {m0 : Media} {hist : List (Int × Event)} {s : Timed}
    (hsane : ∀ x ∈ hist, SaneEvent x.2) {i : Nat} {p : Proto} (hw : AlwaysDue c i p ((t0, .timer k0 m0 t0) :: hist))
    (hp : Punctual c late t0 ((t0, .timer k0 m0 t0) :: hist) ⟨d0, none⟩)
    (hr : timedRun c ((t0, .timer k0 m0 t0) :: hist) ⟨d0, none⟩ = .ok s) :
    (∃ x, (t0, x) ∈ sentAt c ((t0, .timer k0 m0 t0) :: hist) ⟨d0, none⟩ ∧ x.index = i ∧ x.proto = p) ∧
    ∀ now, Current late now s → ∀ a, t0 ≤ a → a + 30 + late < now →
      ∃ t x, (t, x) ∈ sentAt c ((t0, .timer k0 m0 t0) :: hist) ⟨d0, none⟩ ∧ x.index = i ∧ x.proto = p ∧ a < t ∧ t ≤ a + 30 + late := by
  refine ⟨?_, fun now hc a h1 h2 => ?_⟩
  · exact round_sends hb hargv hn hsend (pre := []) (fun _ hx => nomatch hx) (hw (t0, .timer k0 m0 t0) List.mem_cons_self k0 m0 t0 rfl) hr
  · obtain ⟨t, ht, h3, h4⟩ := (C78_period c d0 late t0 k0 m0 hist s hp hr).2 now hc a h1 h2
    obtain ⟨pre, k, m, n, post, rfl⟩ := mem_roundTimes ht
    have hk0 : Sane k0 := by
      obtain ⟨_, hans, -⟩ := hw (t0, .timer k0 m0 t0) List.mem_cons_self k0 m0 t0 rfl
      exact hans.sane
    obtain ⟨x, hx, hxi, hxp⟩ := round_sends hb hargv hn hsend (pre := (t0, .timer k0 m0 t0) :: pre) (post := post) (i := i) (p := p)
      (fun x hx => by
        rcases List.mem_cons.mp hx with rfl | hx
        · exact hk0
        · exact hsane x (List.mem_append_left _ hx))
      (hw (t, .timer k m n) (List.mem_cons_of_mem _ (List.mem_append_right _ List.mem_cons_self)) k m n rfl) hr
    exact ⟨t, x, hx, hxi, hxp, h3, h4⟩

/-- Since a start: on an interface on which a protocol is enabled and permitted in every round there is a message at the start, and then again within 30 seconds
after any moment, plus the lateness of the event loop. -/
theorem C78_renewed (h : Host) (e : SysEnv) (he : SysEnvOk e) (os : List Opt) (ho : OptsOk os) (args : List Bytes) (c : Conf)
    (pwd : Option (Nat × Nat)) (d0 : Daemon) (hs : startUp h e os args = .ok (c, pwd, d0)) (hn : c.names.length < 65536)
    (hsend : c.opts.testBit 1 = true) (late t0 : Int) (k0 : Kernel) (m0 : Media) (hist : List (Int × Event)) (s : Timed)
    (hsane : ∀ x ∈ hist, SaneEvent x.2) (i : Nat) (p : Proto) (hw : AlwaysDue c i p ((t0, .timer k0 m0 t0) :: hist))
    (hp : Punctual c late t0 ((t0, .timer k0 m0 t0) :: hist) ⟨d0, none⟩)
    (hr : timedRun c ((t0, .timer k0 m0 t0) :: hist) ⟨d0, none⟩ = .ok s) :
    (∃ x, (t0, x) ∈ sentAt c ((t0, .timer k0 m0 t0) :: hist) ⟨d0, none⟩ ∧ x.index = i ∧ x.proto = p) ∧
    ∀ now, Current late now s → ∀ a, t0 ≤ a → a + 30 + late < now →
      ∃ t x, (t, x) ∈ sentAt c ((t0, .timer k0 m0 t0) :: hist) ⟨d0, none⟩ ∧ x.index = i ∧ x.proto = p ∧ a < t ∧ t ≤ a + 30 + late :=
  renewed_core (booted he ho hs) (C49_started h e he os ho args c pwd d0 hs).2.2.2.2 hn hsend hsane hw hp hr

/-! ## Stale neighbours -/

theorem alive_step {c : Conf} {d d' : Daemon} {e : Event} {P : Entry → Prop} (hP : ∀ e i l, P e → P { e with id := i, lock := l })
    (hput : ∀ st t r subif m, e = .recv (some t) r → Taken st t r subif m → m.ttl ≠ 0 → P (entryOf st t r subif m))
    (hzero : ∀ t r, e = .recv (some t) r → r.received < t) (hq : ∀ x ∈ d.child.queue, P x) (h : daemonStep c d e = .ok d') :
    ∀ x ∈ d'.child.queue, P x := by
  obtain ⟨ops, ho, hf⟩ := step_ops h
  clear h
  have key : ∀ (ops : List ChildOp) (st st' : Child), (∀ op ∈ ops, OpOf e op) → (∀ x ∈ st.queue, P x) → childRun c.opts st ops = .ok st' →
      ∀ x ∈ st'.queue, P x := by
    intro ops
    induction ops with
    | nil => intro st st' _ hq hr; cases hr; exact hq
    | cons op ops ih =>
      intro st st' hf hq hr
      rw [childRun] at hr
      cases hs : childStep c.opts st op with
      | ok s1 =>
        rw [hs] at hr
        refine ih s1 st' (fun op ho => hf op (List.mem_cons_of_mem _ ho)) ?_ hr
        have hop := hf op List.mem_cons_self
        refine entries_alive hP ?_ ?_ hq hs
        · intro t r subif m hopr htk httl
          subst hopr
          exact hput st t r subif m hop htk httl
        · intro t r hopr
          subst hopr
          exact hzero t r hop
      | fail => rw [hs] at hr; cases hr
      | oob => rw [hs] at hr; cases hr
      | abort => rw [hs] at hr; cases hr
      | stuck => rw [hs] at hr; cases hr
  exact key ops d.child d'.child hf hq ho

theorem timer_keeps {c : Conf} {d d' : Daemon} {k : Kernel} {m : Media} {now : Int} (hrecv : c.opts.testBit 2 = true)
    (h : daemonStep c d (.timer k m now) = .ok d') : ∀ x ∈ d'.child.queue, now ≤ x.received + x.ttl ∨ x.lock ≠ 0 := by
  rw [daemonStep] at h
  cases hr : sendRound c k m none d with
  | ok d1 =>
    rw [hr, Res.bind_ok, if_pos (by exact hrecv)] at h
    obtain ⟨ch, hc, rfl⟩ := lift_ok h
    obtain ⟨hq, -⟩ := childExpire_frame hc
    intro x hx
    rw [show ({ d1 with child := ch } : Daemon).child.queue = ch.queue from rfl, hq] at hx
    obtain ⟨-, hk⟩ := List.mem_filter.mp hx
    unfold keeps at hk
    rw [Bool.or_eq_true, decide_eq_true_iff, decide_eq_true_iff] at hk
    exact hk
  | fail => rw [hr] at h; cases h
  | oob => rw [hr] at h; cases h
  | abort => rw [hr] at h; cases h
  | stuck => rw [hr] at h; cases h

/-- The entry was there, and marked as in use by a client, at the end of the last round. -/
def InUse (c : Conf) (hist : List (Int × Event)) (s0 : Timed) (x : Entry) : Prop :=
  ∃ pre post s1, hist = pre ++ post ∧ roundTimes post = [] ∧ timedRun c pre s0 = .ok s1 ∧
    ∃ y ∈ s1.daemon.child.queue, y.lock ≠ 0 ∧ neighbour y = neighbour x ∧ info y = info x

theorem stale_aux {c : Conf} {late : Int} (hrecv : c.opts.testBit 2 = true) {h : List (Int × Event)} : ∀ {s s' : Timed} {last r : Int} {L : Entry → Prop},
    (∀ e i l, L e → L { e with id := i, lock := l }) → 0 < last → (∀ x ∈ h, Captured x.2) → s.due = some (r + 30) → r ≤ last →
    (∀ x ∈ s.daemon.child.queue, r ≤ x.received + x.ttl ∨ L x) →
    Punctual c late last h s → timedRun c h s = .ok s' → ∀ x ∈ s'.daemon.child.queue,
      (∃ r', s'.due = some (r' + 30) ∧ r' ≤ x.received + x.ttl) ∨ (L x ∧ roundTimes h = []) ∨ InUse c h s x := by
  induction h with
  | nil =>
    intro s s' last r L hL hlast hcap hd hrl hq hp hr x hx
    cases hr
    rcases hq x hx with h | h
    · exact .inl ⟨r, hd, h⟩
    · exact .inr (.inl ⟨h, rfl⟩)
  | cons y h ih =>
    obtain ⟨t, e⟩ := y
    intro s s' last r L hL hlast hcap hd hrl hq hp hr x hx
    obtain ⟨s1, h1, hr⟩ := timedRun_cons hr
    obtain ⟨hle, hrd, h2, h3, hp⟩ := hp
    obtain ⟨hst, hdue⟩ := timedStep_ok h1
    have hcap' : ∀ x ∈ h, Captured x.2 := fun x hx => hcap x (List.mem_cons_of_mem _ hx)
    have push : InUse c h s1 x → InUse c ((t, e) :: h) s x := by
      rintro ⟨pre, post, s2, rfl, hpost, hrun, hy⟩
      exact ⟨(t, e) :: pre, post, s2, rfl, hpost, by rw [timedRun, h1, Res.bind_ok]; exact hrun, hy⟩
    cases hi : isTimeout e with
    | true =>
      rw [if_pos hi] at hdue
      have hk : ∀ x ∈ s1.daemon.child.queue, t ≤ x.received + x.ttl ∨ x.lock ≠ 0 := by
        cases e with
        | timer k m now =>
          have : now = t := hrd
          rw [← this]
          exact timer_keeps hrecv hst
        | link => cases hi
        | recv => cases hi
        | accept => cases hi
        | write => cases hi
      rcases ih (L := fun x => ∃ y ∈ s1.daemon.child.queue, y.lock ≠ 0 ∧ neighbour y = neighbour x ∧ info y = info x)
        (fun e i l he => he) (by omega) hcap' hdue (Int.le_refl t) (fun x hx => by
          rcases hk x hx with h | h
          · exact .inl h
          · exact .inr ⟨x, hx, h, rfl, rfl⟩) (hp s1 h1) hr x hx with h | ⟨⟨y, hy⟩, hro⟩ | h
      · exact .inl h
      · exact .inr (.inr ⟨[(t, e)], h, s1, rfl, hro, by rw [timedRun, h1]; rfl, y, hy⟩)
      · exact .inr (.inr (push h))
    | false =>
      rw [if_neg (by rw [hi]; decide)] at hdue
      have hq1 : ∀ x ∈ s1.daemon.child.queue, r ≤ x.received + x.ttl ∨ L x := by
        refine alive_step (P := fun x => r ≤ x.received + x.ttl ∨ L x) ?_ ?_ ?_ hq hst
        · intro e i l he
          rcases he with h | h
          · exact .inl h
          · exact .inr (hL e i l h)
        · intro st u rm subif m hev htk httl
          subst hev
          left
          rcases hrd with h | h
          · cases h
          · injection h with h
            unfold entryOf
            dsimp only
            rw [if_pos httl]
            omega
        · intro u rm hev
          subst hev
          rcases hrd with h | h
          · cases h
          · injection h with h
            obtain ⟨_, _, _, fw, -, -, -, rfl⟩ := hcap _ List.mem_cons_self
            show (0 : Int) < u
            omega
      rcases ih hL (by omega) hcap' (hdue.trans hd) (by omega) hq1 (hp s1 h1) hr x hx with h | ⟨hlx, hro⟩ | h
      · exact .inl h
      · refine .inr (.inl ⟨hlx, ?_⟩)
        unfold roundTimes
        rw [List.filter_cons_of_neg (by rw [hi]; decide)]
        exact hro
      · exact .inr (.inr (push h))

/-- At any time of a run since the start, with frames as captured by the privileged process: what is in the table has not been out of date for more than 30 seconds
plus the lateness of the event loop, unless it was in use by a client at the end of the last round.  What is missing for the full claim: marks
that are never removed (`C78_leaked`). -/
theorem C78_stale_partial (c : Conf) (hrecv : c.opts.testBit 2 = true) (d0 : Daemon) (h0 : d0.child.queue = []) (late t0 : Int) (hpos : 0 < t0) (k0 : Kernel)
    (m0 : Media) (h : List (Int × Event)) (hcap : ∀ x ∈ h, Captured x.2) (s : Timed)
    (hp : Punctual c late t0 ((t0, .timer k0 m0 t0) :: h) ⟨d0, none⟩)
    (hr : timedRun c ((t0, .timer k0 m0 t0) :: h) ⟨d0, none⟩ = .ok s) (now : Int) (hnow : Current late now s) :
    ∀ x ∈ s.daemon.child.queue, now ≤ x.received + x.ttl + 30 + late ∨ InUse c ((t0, .timer k0 m0 t0) :: h) ⟨d0, none⟩ x := by
  obtain ⟨s1, h1, hr⟩ := timedRun_cons hr
  obtain ⟨-, -, -, -, hp⟩ := hp
  have hd : s1.due = some (t0 + 30) := (timedStep_ok h1).2
  have hq1 : ∀ x ∈ s1.daemon.child.queue, False :=
    alive_step (P := fun _ => False) (fun _ _ _ h => h) (fun _ _ _ _ _ h => by cases h) (fun _ _ h => by cases h)
      (by rw [h0]; exact fun _ hx => nomatch hx) (timedStep_ok h1).1
  intro x hx
  rcases stale_aux hrecv (L := fun _ => False) (fun _ _ _ h => h) hpos hcap hd (Int.le_refl t0) (fun x hx => (hq1 x hx).elim) (hp s1 h1) hr x hx with
    ⟨r, hdr, hrx⟩ | ⟨h, -⟩ | ⟨pre, post, s2, rfl, hpost, hrun, hy⟩
  · left
    have := hnow (r + 30) (by rw [hdr]; exact List.mem_singleton.mpr rfl)
    omega
  · exact h.elim
  · right
    exact ⟨(t0, .timer k0 m0 t0) :: pre, post, s2, rfl, hpost, by rw [timedRun, h1, Res.bind_ok]; exact hrun, hy⟩

theorem orderly_lock {c : Conf} {a b : List Event} : ∀ {d d' : Daemon}, Inv d.child → LockInv d.child → OrderlyRun c d (a ++ b) →
    daemonRun c a d = .ok d' → LockInv d'.child := by
  induction a with
  | nil => intro d d' _ hl _ h; cases h; exact hl
  | cons e a ih =>
    intro d d' hi hl ho h
    rw [daemonRun] at h
    cases hs : daemonStep c d e with
    | ok d1 =>
      rw [hs] at h
      obtain ⟨hi1, hl1⟩ := orderly_step hi hl ho.1 hs
      exact ih hi1 hl1 (ho.2 d1 hs) h
    | fail => rw [hs] at h; cases h
    | oob => rw [hs] at h; cases h
    | abort => rw [hs] at h; cases h
    | stuck => rw [hs] at h; cases h

/-- With orderly clients (as in `C56_partial`) the exception is only an entry a connected client was waiting to read at the end of the last round. -/
theorem C78_stale_served (c : Conf) (hrecv : c.opts.testBit 2 = true) (d0 : Daemon) (h0 : d0.child = {}) (late t0 : Int) (hpos : 0 < t0) (k0 : Kernel)
    (m0 : Media) (h : List (Int × Event)) (hcap : ∀ x ∈ h, Captured x.2) (s : Timed)
    (hp : Punctual c late t0 ((t0, .timer k0 m0 t0) :: h) ⟨d0, none⟩)
    (ho : OrderlyRun c d0 (.timer k0 m0 t0 :: h.map (·.2)))
    (hr : timedRun c ((t0, .timer k0 m0 t0) :: h) ⟨d0, none⟩ = .ok s) (now : Int) (hnow : Current late now s) :
    ∀ x ∈ s.daemon.child.queue, now ≤ x.received + x.ttl + 30 + late ∨
      ∃ pre post s1, (t0, .timer k0 m0 t0) :: h = pre ++ post ∧ roundTimes post = [] ∧ timedRun c pre ⟨d0, none⟩ = .ok s1 ∧
        ∃ y ∈ s1.daemon.child.queue, neighbour y = neighbour x ∧ info y = info x ∧ ∃ ss ∈ s1.daemon.child.sessions, ss.msg = some y.id := by
  intro x hx
  rcases C78_stale_partial c hrecv d0 (by rw [h0]) late t0 hpos k0 m0 h hcap s hp hr now hnow x hx with hb | ⟨pre, post, s1, he, hpost, hrun, y, hy, hlock, h1, h2⟩
  · exact .inl hb
  · refine .inr ⟨pre, post, s1, he, hpost, hrun, y, hy, h1, h2, ?_⟩
    have hmap : (.timer k0 m0 t0 :: h.map (·.2) : List Event) = pre.map (·.2) ++ post.map (·.2) := by
      rw [← List.map_append, ← he, List.map_cons]
    rw [hmap] at ho
    have hl := orderly_lock (by rw [h0]; exact inv_init []) (by rw [h0]; exact ⟨by simp, by simp, by simp⟩) ho (timedRun_daemon hrun)
    have := hl.count y hy
    unfold holders at this
    have hpos : 0 < List.countP (fun s => decide (s.msg = some y.id)) s1.daemon.child.sessions := by omega
    obtain ⟨ss, hss, hm⟩ := List.countP_pos_iff.mp hpos
    exact ⟨ss, hss, of_decide_eq_true hm⟩

theorem orderly_alone {c : Conf} {es : List Event} : ∀ {d : Daemon}, d.child.sessions = [] → (∀ e ∈ es, NotAccept e) → OrderlyRun c d es := by
  induction es with
  | nil => intros; trivial
  | cons e es ih =>
    intro d hd hn
    refine ⟨?_, fun d' hs => ih (sessions_step (hn e List.mem_cons_self) hs hd) (fun e he => hn e (List.mem_cons_of_mem _ he))⟩
    cases e with
    | recv now r => intro s hs; rw [hd] at hs; cases hs
    | accept => exact (hn .accept List.mem_cons_self).elim
    | write sid ws =>
      cases ws with
      | none => intro s hs; rw [hd] at hs; cases hs
      | some ws => trivial
    | timer k m now => trivial
    | link k m a b i => trivial

/-- Without clients there is no exception: a neighbour that falls silent is gone 30 seconds after its lifetime, plus the lateness of the event loop. -/
theorem C78_stale_alone (c : Conf) (hrecv : c.opts.testBit 2 = true) (d0 : Daemon) (h0 : d0.child = {}) (late t0 : Int) (hpos : 0 < t0) (k0 : Kernel)
    (m0 : Media) (h : List (Int × Event)) (hcap : ∀ x ∈ h, Captured x.2) (hn : ∀ x ∈ h, NotAccept x.2) (s : Timed)
    (hp : Punctual c late t0 ((t0, .timer k0 m0 t0) :: h) ⟨d0, none⟩)
    (hr : timedRun c ((t0, .timer k0 m0 t0) :: h) ⟨d0, none⟩ = .ok s) (now : Int) (hnow : Current late now s) :
    ∀ x ∈ s.daemon.child.queue, now ≤ x.received + x.ttl + 30 + late := by
  have hall : ∀ e ∈ (.timer k0 m0 t0 :: h.map (·.2) : List Event), NotAccept e := by
    intro e he
    rcases List.mem_cons.mp he with rfl | he
    · trivial
    · obtain ⟨x, hx, rfl⟩ := List.mem_map.mp he; exact hn x hx
  intro x hx
  rcases C78_stale_served c hrecv d0 h0 late t0 hpos k0 m0 h hcap s hp (orderly_alone (by rw [h0]) hall) hr now hnow x hx with hb |
    ⟨pre, post, s1, he, -, hrun, y, hy, -, -, ss, hss, -⟩
  · exact hb
  · exfalso
    have hsub : ∀ e ∈ pre.map (·.2), NotAccept e := by
      intro e hx
      refine hall e ?_
      have : (.timer k0 m0 t0 :: h.map (·.2) : List Event) = pre.map (·.2) ++ post.map (·.2) := by
        rw [← List.map_append, ← he, List.map_cons]
      rw [this]
      exact List.mem_append_left _ hx
    have : s1.daemon.child.sessions = [] := by
      have hd := timedRun_daemon hrun
      revert hsub
      refine run_induction (P := fun es d => (∀ e ∈ es, NotAccept e) → d.child.sessions = []) (fun _ => by rw [h0]) ?_ _ _ hd
      intro es e d d' _ ih hs hall
      exact sessions_step (hall e (List.mem_append_right _ (List.mem_singleton.mpr rfl))) hs (ih (fun x hx => hall x (List.mem_append_left _ hx)))
    rw [this] at hss
    cases hss

theorem locked_round {c : Conf} {d d' : Daemon} {e : Event} (he : isTimeout e = true) (h : daemonStep c d e = .ok d') {x : Entry}
    (hx : x ∈ d.child.queue) (hl : x.lock ≠ 0) : x ∈ d'.child.queue := by
  cases e with
  | timer k m now =>
    rw [daemonStep] at h
    cases hr : sendRound c k m none d with
    | ok d1 =>
      rw [hr, Res.bind_ok] at h
      have hx1 : x ∈ d1.child.queue := by rw [sendRound_child hr]; exact hx
      split at h
      · obtain ⟨ch, hc, rfl⟩ := lift_ok h
        obtain ⟨hq, -⟩ := childExpire_frame hc
        show x ∈ ch.queue
        rw [hq]
        refine List.mem_filter.mpr ⟨hx1, ?_⟩
        unfold keeps
        rw [Bool.or_eq_true, decide_eq_true_iff, decide_eq_true_iff]
        exact .inr hl
      · injection h with h; subst h; exact hx1
    | fail => rw [hr] at h; cases h
    | oob => rw [hr] at h; cases h
    | abort => rw [hr] at h; cases h
    | stuck => rw [hr] at h; cases h
  | link => cases he
  | recv => cases he
  | accept => cases he
  | write => cases he

/-- The sample daemon hears a neighbour; a client connects, reads nothing and is dropped for it. -/
def leakEvents : List Event := [.timer sampleKernel {} 1, ndpEvent 5 77, .accept, .write 1 (some [.again]), .write 1 none]

/-- Why the claim has an exception: a client that reads nothing is dropped, but its mark stays.  The entry stays in the table through any number of
rounds, at whatever times, although no client is connected any more. -/
theorem C78_leaked : Started dSys ∧ (∀ e ∈ leakEvents, SaneEvent e ∧ Captured e) ∧
    ∃ d, daemonRun cRecv leakEvents dSys = .ok d ∧ d.child.sessions = [] ∧ ∃ x ∈ d.child.queue, x.received = 5 ∧ x.ttl = 180 ∧
      ∀ rounds : List Event, (∀ e ∈ rounds, isTimeout e = true ∧ SaneEvent e) → ∃ d', daemonRun cRecv rounds d = .ok d' ∧ x ∈ d'.child.queue := by
  have hes : ∀ e ∈ leakEvents, SaneEvent e ∧ Captured e := by
    intro e he
    simp only [leakEvents, List.mem_cons, List.not_mem_nil, or_false] at he
    rcases he with rfl | rfl | rfl | rfl | rfl <;> refine ⟨?_, ?_⟩ <;>
      first | trivial | exact ndp_captured _ _ (Or.inl rfl) | decide +kernel
  have hst : Started dSys := by decide +kernel
  have hrun : (match daemonRun cRecv leakEvents dSys with
      | .ok d => decide (d.child.sessions = [] ∧ ∃ x ∈ d.child.queue, x.received = 5 ∧ x.ttl = 180 ∧ x.lock ≠ 0)
      | _ => false) = true := by decide +kernel
  refine ⟨hst, hes, ?_⟩
  cases hd : daemonRun cRecv leakEvents dSys with
  | ok d =>
    rw [hd] at hrun
    obtain ⟨hs, x, hx, h1, h2, hl⟩ := of_decide_eq_true hrun
    refine ⟨d, rfl, hs, x, hx, h1, h2, ?_⟩
    have hg := good_run hst (fun e he => (hes e he).1) hd
    clear hd hs hrun
    intro rounds
    induction rounds generalizing d with
    | nil => intro _; exact ⟨d, rfl, hx⟩
    | cons e rounds ih =>
      intro hall
      obtain ⟨ht, hse⟩ := hall e List.mem_cons_self
      have hce : Captured e := by cases e <;> first | trivial | cases ht
      rcases step_total (c := cRecv) hg hse hce with ⟨d1, h1'⟩ | h
      · obtain ⟨d', hd', hx'⟩ := ih d1 (locked_round ht h1' hx hl) (good_step hg hse h1') (fun e he => hall e (List.mem_cons_of_mem _ he))
        exact ⟨d', by rw [daemonRun, h1', Res.bind_ok]; exact hd', hx'⟩
      · exfalso
        cases e with
        | timer k m now => exact h.2
        | link => cases ht
        | recv => cases ht
        | accept => cases ht
        | write => cases ht
  | fail => rw [hd] at hrun; cases hrun
  | oob => rw [hd] at hrun; cases hrun
  | abort => rw [hd] at hrun; cases hrun
  | stuck => rw [hd] at hrun; cases hrun

/-! ## Two systems -/

theorem heard_frame {c : Conf} {d0 : Daemon} (hboot : Booted d0) {hist : List (Int × Event)} (hsane : ∀ x ∈ hist, SaneEvent x.2)
    {s : Timed} (hr : timedRun c hist ⟨d0, none⟩ = .ok s) {u : Int} {y : Tx} (hy : (u, y) ∈ sentAt c hist ⟨d0, none⟩) (hedp : y.proto ≠ .edp)
    {j : Nat} {fwd : Fwd} (hf : parentRecv j [y.msg.take y.len] = .ok [fwd]) {src : Bytes} (hsrc : ((rawOf fwd).msg.drop 6).take 6 = src)
    {o : Opts} {t : Int} {st st' : Child} {subif : Netif} (hends : Ends st.netifs) (hif : st.netifs.find? (fun x => x.index == j) = some subif)
    (hown : ∀ x ∈ st.netifs, x.hwaddr ≠ src) (hq : childQueue o (some t) (rawOf fwd) st = .ok st') :
    ∃ peer, lookup st'.queue (j, y.proto.num, y.proto.dst, src) = some ⟨subif.name, t, 180, y.msg.take y.len, peer⟩ ∧
      (y.proto ≠ .ndp → Recovers peer.hostname d0.sys.hostname) := by
  obtain ⟨pre, ev, post, s1, s2, rfl, h1, h2, hy⟩ := mem_sentAt hr hy
  have hst := (timedStep_ok h2).1
  have hes : ∀ e ∈ pre.map (·.2), SaneEvent e := by
    intro e he
    obtain ⟨x, hx, rfl⟩ := List.mem_map.mp he
    exact hsane x (List.mem_append_left _ hx)
  have hsev := hsane (u, ev) (List.mem_append_right _ List.mem_cons_self)
  have hd := timedRun_daemon h1
  have key : ∀ k m, Sane k → ((∃ now, ev = .timer k m now) ∨ ∃ i, ev = .link k m true true i) →
      ∃ peer, lookup st'.queue (j, y.proto.num, y.proto.dst, src) = some ⟨subif.name, t, 180, y.msg.take y.len, peer⟩ ∧
        (y.proto ≠ .ndp → Recovers peer.hostname d0.sys.hostname) := by
    intro k m hk hev
    obtain ⟨new, hn, hall⟩ := learned_core c hboot _ hes s1.daemon hd k hk m ev hev s2.daemon hst
    rw [hn, List.drop_left] at hy
    obtain ⟨n, -, -, src', -, hsrc', -, hl⟩ := hall y hy hedp
    have hlen : (y.msg.take y.len).length = y.len ∧ 60 ≤ y.len ∧ y.len ≤ 1518 := by
      obtain ⟨new', hn', hf'⟩ := announced c hboot _ hes s1.daemon hd k hk m ev hev s2.daemon hst
      obtain rfl : new' = new := List.append_cancel_left (hn'.symm.trans hn)
      obtain ⟨_, _, _, _, _, _, _, _, _, _, _, _, _, hw⟩ := hf' y hy
      exact ⟨hw.length, by rw [hw.len]; exact hw.min, by rw [hw.len]; exact hw.max⟩
    have hff : fwd.frame = y.msg.take y.len := by
      obtain ⟨f, hfm, -, h1, -⟩ := C28_forward j _ _ hf fwd (List.mem_singleton.mpr rfl)
      rw [List.mem_singleton.mp hfm, List.take_of_length_le (by omega)] at h1
      exact h1
    have hss : src' = src := by
      rw [← hsrc, ← hsrc']
      unfold rawOf
      dsimp only
      rw [hff, List.drop_append_of_le_length (by omega), List.take_append_of_le_length (by rw [List.length_drop]; omega)]
    subst hss
    obtain ⟨fwd', st2, hf2, hq2, peer, hlook, hname, -⟩ := hl j o t st subif hends hif hown
    obtain rfl : fwd' = fwd := by rw [hf] at hf2; injection hf2 with h; exact (List.head_eq_of_cons_eq h).symm
    obtain rfl : st2 = st' := by rw [hq] at hq2; injection hq2 with h; exact h.symm
    exact ⟨_, hlook, fun hp => (hname hp).1⟩
  rcases step_bare hst with ⟨k, m, now, d1, rfl, -, -, -⟩ | ⟨k, m, i, rfl, -⟩ | ⟨-, -, -, e⟩
  · exact key k m hsev (.inl ⟨now, rfl⟩)
  · exact key k m hsev (.inr ⟨i, rfl⟩)
  · rw [e] at hy
    rw [show ({ s1.daemon with child := s2.daemon.child } : Daemon).tx = s1.daemon.tx from rfl, List.drop_length] at hy
    cases hy

/-- Both systems as far as the other one is concerned: what the first one sends, with what is known about it, and the events of the second one. -/
theorem seen_core {late t0 now : Int} {i : Nat} {p : Proto} (hedp : p ≠ .edp) {host : Bytes} {sent : List (Int × Tx)} (hge : ∀ u y, (u, y) ∈ sent → t0 ≤ u)
    (hren : ∀ a, t0 ≤ a → a + 30 + late < now → ∃ t x, (t, x) ∈ sent ∧ x.index = i ∧ x.proto = p ∧ a < t ∧ t ≤ a + 30 + late)
    (hheard : ∀ u y, (u, y) ∈ sent → y.proto ≠ .edp → ∀ (j : Nat) (fwd : Fwd), parentRecv j [y.msg.take y.len] = .ok [fwd] →
      ∀ src, ((rawOf fwd).msg.drop 6).take 6 = src → ∀ (o : Opts) (t : Int) (st st' : Child) (subif : Netif), Ends st.netifs →
      st.netifs.find? (fun x => x.index == j) = some subif → (∀ x ∈ st.netifs, x.hwaddr ≠ src) → childQueue o (some t) (rawOf fwd) st = .ok st' →
      ∃ peer, lookup st'.queue (j, y.proto.num, y.proto.dst, src) = some ⟨subif.name, t, 180, y.msg.take y.len, peer⟩ ∧
        (y.proto ≠ .ndp → Recovers peer.hostname host))
    {c2 : Conf} {b0 : Daemon} (hstart : Started b0) (hchild : b0.child = {}) {late2 u0 : Int} {hist2 : List (Int × Event)} {s2 : Timed}
    (hsane2 : ∀ x ∈ hist2, SaneEvent x.2) (hp2 : Punctual c2 late2 u0 hist2 ⟨b0, none⟩)
    (hr2 : timedRun c2 hist2 ⟨b0, none⟩ = .ok s2) (hnow2 : ∀ x ∈ hist2, x.1 ≤ now)
    (j : Nat) (src : Bytes)
    (hif : ∀ pre x post s1, hist2 = pre ++ x :: post → Between j (p.dst, src) x.2 → timedRun c2 pre ⟨b0, none⟩ = .ok s1 →
      (∃ subif, s1.daemon.child.netifs.find? (fun n => n.index == j) = some subif) ∧ ∀ n ∈ s1.daemon.child.netifs, n.hwaddr ≠ src)
    (horigin : ∀ x ∈ hist2, Between j (p.dst, src) x.2 → ∃ u y fwd, (u, y) ∈ sent ∧ y.proto = p ∧ u ≤ x.1 ∧
      parentRecv j [y.msg.take y.len] = .ok [fwd] ∧ x.2 = .recv (some x.1) (rawOf fwd))
    (window delay : Int) (hwin : 30 + late ≤ window) (hdel : 0 ≤ delay) (hsum : window + delay < 180)
    (hloss : ∀ a, (∃ u y, (u, y) ∈ sent ∧ y.index = i ∧ y.proto = p ∧ a < u ∧ u ≤ a + window) →
      a + window + delay < now → ∃ x ∈ hist2, Between j (p.dst, src) x.2 ∧ a < x.1 ∧ x.1 ≤ a + window + delay)
    (hfirst : ∃ x ∈ hist2, Between j (p.dst, src) x.2) :
    ∃ inf, lookup s2.daemon.child.queue (j, p.num, p.dst, src) = some inf ∧ inf.ttl = 180 ∧ inf.received ≤ now ∧
      now ≤ inf.received + window + delay ∧ (∃ u y, (u, y) ∈ sent ∧ y.proto = p ∧ u ≤ inf.received ∧ inf.frame = y.msg.take y.len) ∧
      (p ≠ .ndp → Recovers inf.peer.hostname host) := by
  -- every frame is followed by another one in time
  have hnext : ∀ x ∈ hist2, Between j (p.dst, src) x.2 → x.1 + window + delay < now →
      ∃ x' ∈ hist2, Between j (p.dst, src) x'.2 ∧ x.1 < x'.1 ∧ x'.1 ≤ x.1 + window + delay := by
    intro x hx hb hlt
    obtain ⟨u, y, fwd, hu, -, hux, -⟩ := horigin x hx hb
    have ht0 : t0 ≤ u := hge u y hu
    obtain ⟨t, y', hy', hyi, hyp, h1, h2⟩ := hren x.1 (by omega) (by omega)
    exact hloss x.1 ⟨t, y', hy', hyi, hyp, h1, by omega⟩ hlt
  have main : ∀ (n : Nat) (pre post : List (Int × Event)) (s1 : Timed), pre.length = n → hist2 = pre ++ post → timedRun c2 pre ⟨b0, none⟩ = .ok s1 →
      (∃ x ∈ pre, Between j (p.dst, src) x.2) →
      ∃ x ∈ pre, Between j (p.dst, src) x.2 ∧ (∀ x' ∈ pre, Between j (p.dst, src) x'.2 → x'.1 ≤ x.1) ∧
        ∃ name fr peer, lookup s1.daemon.child.queue (j, p.num, p.dst, src) = some ⟨name, x.1, 180, fr, peer⟩ ∧
          (∃ u y, (u, y) ∈ sent ∧ y.proto = p ∧ u ≤ x.1 ∧ fr = y.msg.take y.len) ∧ (p ≠ .ndp → Recovers peer.hostname host) := by
    intro n
    induction n with
    | zero =>
      intro pre post s1 hl _ _ ⟨x, hx, _⟩
      rw [List.length_eq_zero_iff.mp hl] at hx
      cases hx
    | succ n ih =>
      intro pre post s1 hl hh hrun hex
      obtain rfl | ⟨pre', x, rfl⟩ := List.eq_nil_or_concat pre
      · cases hl
      rw [List.concat_eq_append] at *
      obtain ⟨sm, hm, hx⟩ := timedRun_append hrun
      obtain ⟨t, ev⟩ := x
      obtain ⟨s1', hst, hend⟩ := timedRun_cons hx
      cases hend
      have hh' : hist2 = pre' ++ (t, ev) :: post := by rw [hh, List.append_assoc]; rfl
      have hmem : (t, ev) ∈ hist2 := by rw [hh']; exact List.mem_append_right _ List.mem_cons_self
      obtain ⟨last, -, hlast, hpx⟩ := punctual_append (h1 := pre') (h2 := (t, ev) :: post) (by rw [← hh']; exact hp2) hm
      obtain ⟨hlt, hrd, -⟩ := hpx
      have hstep := (timedStep_ok hst).1
      have hsub : ∀ e ∈ pre'.map (·.2), SaneEvent e := by
        intro e he
        obtain ⟨x, hx, rfl⟩ := List.mem_map.mp he
        exact hsane2 x (by rw [hh']; exact List.mem_append_left _ hx)
      have hgood := good_run hstart hsub (timedRun_daemon hm)
      by_cases hb : Between j (p.dst, src) ev
      · refine ⟨(t, ev), List.mem_append_right _ List.mem_cons_self, hb, ?_, ?_⟩
        · intro x' hx' _
          rcases List.mem_append.mp hx' with hx' | hx'
          · have := hlast x' hx'; show x'.1 ≤ t; omega
          · rw [List.mem_singleton.mp hx']; exact Int.le_refl _
        · obtain ⟨u, y, fwd, hu, hyp, hux, hfwd, hev⟩ := horigin (t, ev) hmem hb
          obtain ⟨⟨subif, hsif⟩, hown⟩ := hif pre' (t, ev) post sm hh' hb hm
          dsimp only at hev
          subst hev
          obtain ⟨ch, hc, hd⟩ := lift_ok hstep
          obtain ⟨-, hbm⟩ := hb
          obtain ⟨peer, hlook, hname⟩ := hheard u y hu (by rw [hyp]; exact hedp) j fwd hfwd src (congrArg Prod.snd hbm)
            _ _ _ _ _ hgood.ends hsif hown hc
          refine ⟨subif.name, _, peer, ?_, ⟨u, y, hu, hyp, hux, rfl⟩, by rw [← hyp]; exact hname⟩
          rw [hd, ← hyp]
          exact hlook
      · have hex' : ∃ x ∈ pre', Between j (p.dst, src) x.2 := by
          obtain ⟨x, hx, hxb⟩ := hex
          rcases List.mem_append.mp hx with hx | hx
          · exact ⟨x, hx, hxb⟩
          · rw [List.mem_singleton.mp hx] at hxb; exact absurd hxb hb
        obtain ⟨x, hx, hxb, hmax, name, fr, peer, hlook, hnames⟩ := ih pre' ((t, ev) :: post) sm
          (by rw [List.length_append, List.length_singleton] at hl; omega) hh' hm hex'
        have hxm : x ∈ hist2 := by rw [hh']; exact List.mem_append_left _ hx
        have hgap : t ≤ x.1 + 180 := by
          rcases Int.lt_or_le (x.1 + window + delay) t with hlt' | hle
          · exfalso
            have := hnow2 _ hmem
            obtain ⟨x', hx', hb', h1, h2⟩ := hnext x hxm hxb (by show x.1 + window + delay < now; exact Int.lt_of_lt_of_le hlt' this)
            rw [hh'] at hx'
            rcases List.mem_append.mp hx' with hx' | hx'
            · have := hmax x' hx' hb'; omega
            · have : t ≤ x'.1 := by
                rcases List.mem_cons.mp hx' with rfl | hx'
                · exact Int.le_refl _
                · obtain ⟨_, -, -, hpp⟩ := punctual_append (h1 := pre') (h2 := (t, ev) :: post) (by rw [← hh']; exact hp2) hm
                  obtain ⟨-, -, -, -, hpp⟩ := hpp
                  have hrest : timedRun c2 post s1 = .ok s2 := by
                    rw [hh] at hr2
                    obtain ⟨q, hq1, hq2⟩ := timedRun_append hr2
                    rw [hrun] at hq1
                    injection hq1 with hq1
                    rw [hq1]; exact hq2
                  exact (punctual_reads (hpp s1 hst) hrest x' hx').1
              omega
          · omega
        refine ⟨x, List.mem_append_left _ hx, hxb, ?_, name, fr, peer, ?_, hnames⟩
        · intro x' hx' hb'
          rcases List.mem_append.mp hx' with hx' | hx'
          · exact hmax x' hx' hb'
          · rw [List.mem_singleton.mp hx'] at hb'; exact absurd hb' hb
        · have hund : Undisturbed (j, p.num, p.dst, src) (x.1 + 180) ev := by
            cases ev with
            | timer k m n => have : n = t := hrd; show n ≤ x.1 + 180; omega
            | recv n r =>
              refine ⟨fun heq => hb ?_, ?_⟩
              · injection heq with h1 h2
                exact ⟨h1, h2⟩
              · intro t' ht'
                rcases hrd with h | h
                · rw [h] at ht'; cases ht'
                · rw [h] at ht'; injection ht' with ht'; omega
            | link => trivial
            | accept => trivial
            | write => trivial
          obtain ⟨ops1, ho1, -⟩ := run_ops (timedRun_daemon hm)
          obtain ⟨ops2, ho2', hf2⟩ := step_ops hstep
          rw [show (⟨b0, none⟩ : Timed).daemon = b0 from rfl, hchild] at ho1
          exact C17_not_earlier c2.opts [] ops1 ops2 _ _ ho1 ho2' _ _ hlook (fun op hop => undisturbed_quiet hund (hf2 op hop))
  obtain ⟨x, hx, hxb, hmax, name, fr, peer, hlook, hnames⟩ := main _ hist2 [] s2 rfl (by rw [List.append_nil]) hr2 hfirst
  refine ⟨_, hlook, rfl, hnow2 x hx, ?_, hnames⟩
  show now ≤ x.1 + window + delay
  rcases Int.lt_or_le (x.1 + window + delay) now with hlt | hle
  · exfalso
    obtain ⟨x', hx', hb', h1, -⟩ := hnext x hx hxb hlt
    have := hmax x' hx' hb'
    omega
  · exact hle

/-- The first system advertises protocol `p` on its interface `i`; the second one is connected to it by its interface `j`.  The link may lose and delay frames: of those
sent within any `window` seconds at least one arrives, at most `delay` seconds later.  If `window` and `delay` together are less than 180 seconds, and
the window is long enough to contain a round, then from its first frame on the first system is in the other's table all the time, last heard of at most
`window + delay` seconds ago, with the contents of one of its frames and its name.  With an event loop that is never late, up to four losses in a row are tolerated.  Missing for the full claim: EDP, of which no frame is heard
(`C53_edp_unheard`). -/
theorem C78_seen_partial
    -- the first system
    (h : Host) (e : SysEnv) (he : SysEnvOk e) (os : List Opt) (ho : OptsOk os) (args : List Bytes) (c : Conf)
    (pwd : Option (Nat × Nat)) (d0 : Daemon) (hs : startUp h e os args = .ok (c, pwd, d0)) (hn : c.names.length < 65536)
    (hsend : c.opts.testBit 1 = true) (late t0 : Int) (k0 : Kernel) (m0 : Media) (hist : List (Int × Event)) (s : Timed)
    (hsane : ∀ x ∈ hist, SaneEvent x.2) (i : Nat) (p : Proto) (hedp : p ≠ .edp) (hw : AlwaysDue c i p ((t0, .timer k0 m0 t0) :: hist))
    (hp : Punctual c late t0 ((t0, .timer k0 m0 t0) :: hist) ⟨d0, none⟩)
    (hr : timedRun c ((t0, .timer k0 m0 t0) :: hist) ⟨d0, none⟩ = .ok s) (now : Int) (hnow : Current late now s)
    -- the second system
    (h2 : Host) (e2 : SysEnv) (he2 : SysEnvOk e2) (os2 : List Opt) (ho2 : OptsOk os2) (args2 : List Bytes) (c2 : Conf)
    (pwd2 : Option (Nat × Nat)) (b0 : Daemon) (hs2 : startUp h2 e2 os2 args2 = .ok (c2, pwd2, b0)) (late2 u0 : Int) (hist2 : List (Int × Event)) (s2 : Timed)
    (hsane2 : ∀ x ∈ hist2, SaneEvent x.2) (hp2 : Punctual c2 late2 u0 hist2 ⟨b0, none⟩)
    (hr2 : timedRun c2 hist2 ⟨b0, none⟩ = .ok s2) (hnow2 : ∀ x ∈ hist2, x.1 ≤ now)
    -- the link between them
    (j : Nat) (src : Bytes)
    (hif : ∀ pre x post s1, hist2 = pre ++ x :: post → Between j (p.dst, src) x.2 → timedRun c2 pre ⟨b0, none⟩ = .ok s1 →
      (∃ subif, s1.daemon.child.netifs.find? (fun n => n.index == j) = some subif) ∧ ∀ n ∈ s1.daemon.child.netifs, n.hwaddr ≠ src)
    (horigin : ∀ x ∈ hist2, Between j (p.dst, src) x.2 → ∃ u y fwd, (u, y) ∈ sentAt c ((t0, .timer k0 m0 t0) :: hist) ⟨d0, none⟩ ∧ y.proto = p ∧ u ≤ x.1 ∧
      parentRecv j [y.msg.take y.len] = .ok [fwd] ∧ x.2 = .recv (some x.1) (rawOf fwd))
    (window delay : Int) (hwin : 30 + late ≤ window) (hdel : 0 ≤ delay) (hsum : window + delay < 180)
    (hloss : ∀ a, (∃ u y, (u, y) ∈ sentAt c ((t0, .timer k0 m0 t0) :: hist) ⟨d0, none⟩ ∧ y.index = i ∧ y.proto = p ∧ a < u ∧ u ≤ a + window) →
      a + window + delay < now → ∃ x ∈ hist2, Between j (p.dst, src) x.2 ∧ a < x.1 ∧ x.1 ≤ a + window + delay)
    -- a frame has arrived
    (hfirst : ∃ x ∈ hist2, Between j (p.dst, src) x.2) :
    ∃ inf, lookup s2.daemon.child.queue (j, p.num, p.dst, src) = some inf ∧ inf.ttl = 180 ∧ inf.received ≤ now ∧
      now ≤ inf.received + window + delay ∧
      (∃ u y, (u, y) ∈ sentAt c ((t0, .timer k0 m0 t0) :: hist) ⟨d0, none⟩ ∧ y.proto = p ∧ u ≤ inf.received ∧ inf.frame = y.msg.take y.len) ∧
      (p ≠ .ndp → Recovers inf.peer.hostname d0.sys.hostname) := by
  have hk0 : Sane k0 := by
    obtain ⟨_, hans, -⟩ := hw (t0, .timer k0 m0 t0) List.mem_cons_self k0 m0 t0 rfl
    exact hans.sane
  have hsane' : ∀ x ∈ (t0, .timer k0 m0 t0) :: hist, SaneEvent x.2 := by
    intro x hx
    rcases List.mem_cons.mp hx with rfl | hx
    · exact hk0
    · exact hsane x hx
  refine seen_core hedp ?_ (fun a h1 h2 => (C78_renewed h e he os ho args c pwd d0 hs hn hsend late t0 k0 m0 hist s hsane i p hw hp hr).2 now hnow a h1 h2)
    ?_ (C49_started h2 e2 he2 os2 ho2 args2 c2 pwd2 b0 hs2).1 (startUp_child hs2) hsane2 hp2 hr2 hnow2 j src hif horigin window delay hwin hdel hsum hloss
    hfirst
  · intro u y hu
    obtain ⟨pre, ev, post, _, _, hh, -⟩ := mem_sentAt hr hu
    exact (punctual_reads hp hr (u, ev) (by rw [hh]; exact List.mem_append_right _ List.mem_cons_self)).1
  · intro u y hu hne j fwd hf src hsrc o t st st' subif h1 h2 h3 h4
    exact heard_frame (booted he ho hs) hsane' hr hu hne hf hsrc h1 h2 h3 h4

/-! ## Samples -/

/-- What `startUp` finds on the sample system. -/
def sysFound : Daemon where
  sys := {
    hostname := lit "sw.example.org", utsStr := lit "Debian GNU/Linux 12 (bookworm) Linux 6.1.0-13-amd64 #1 SMP x86_64"
    platform := lit "Debian GNU/Linux 12 (bookworm) Linux x86_64", utsRel := [6, 1, 0], cap := 12, capActive := 12, capLldpmed := 33, lldpmedDevtype := 1
    hwaddr := [0, 0, 0, 0, 0, 0]
    hinv := { swRevision := lit "6.1.0-13-amd64", serialNumber := lit "0123456789abcdef0123456789abcdef" } }

/-- The configuration of `ladvd -a` with one protocol enabled. -/
def confOne (p : Proto) : Conf := { opts := 15, enabled := fun q => q == p }

theorem startOne (o : Char) (p : Proto) (h : (match startUp { user := fun _ => some (1, 1) } sysSample [⟨'a', []⟩, ⟨o, []⟩] [] with
    | .ok (c, pwd, d) => decide (c.opts = 15 ∧ c.names = [] ∧ c.mgmt = {} ∧ c.excl = [] ∧ (∀ q ∈ Proto.all, c.enabled q = (q == p)) ∧ pwd = some (1, 1) ∧ d = sysFound)
    | _ => false) = true) :
    startUp { user := fun _ => some (1, 1) } sysSample [⟨'a', []⟩, ⟨o, []⟩] [] = .ok (confOne p, some (1, 1), sysFound) := by
  cases hs : startUp { user := fun _ => some (1, 1) } sysSample [⟨'a', []⟩, ⟨o, []⟩] [] with
  | ok x =>
    obtain ⟨⟨o, n, m, x, en⟩, pwd, d⟩ := x
    rw [hs] at h
    obtain ⟨h1, h2, h3, h4, h5, h6, h7⟩ := of_decide_eq_true h
    dsimp only at h1 h2 h3 h4 h5
    subst h1 h2 h3 h4 h6 h7
    have : en = fun q => q == p := by
      funext q
      exact h5 q (by cases q <;> decide)
    subst this
    rfl
  | fail => rw [hs] at h; cases h
  | oob => rw [hs] at h; cases h
  | abort => rw [hs] at h; cases h
  | stuck => rw [hs] at h; cases h

theorem startA : startUp { user := fun _ => some (1, 1) } sysSample [⟨'a', []⟩, ⟨'L', []⟩] [] = .ok (confOne .lldp, some (1, 1), sysFound) :=
  startOne 'L' .lldp (by decide +kernel)

theorem startB : startUp { user := fun _ => some (1, 1) } sysSample [⟨'a', []⟩, ⟨'F', []⟩] [] = .ok (confOne .fdp, some (1, 1), sysFound) :=
  startOne 'F' .fdp (by decide +kernel)

/-- A system with one network card. -/
def cardKernel : Kernel :=
  ⟨some [⟨lit "eth0", .link true 4 [2, 0, 0, 0, 0, 3, 0, 0]⟩], fun _ => true, fun _ _ => { device := true }, fun _ => none, fun _ => none,
    fun _ => none, fun _ => none, fun _ => none, fun _ => none⟩

/-- Its life after the start at 1000: a link event, and rounds, some a second late. -/
def histA : List (Int × Event) :=
  [(1030, .timer cardKernel {} 1030), (1040, .link cardKernel {} true true 4), (1061, .timer cardKernel {} 1061),
   (1091, .timer cardKernel {} 1091), (1122, .timer cardKernel {} 1122)]

/-- Its advertisement, which stays the same. -/
def frameA : Bytes :=
  [1, 128, 194, 0, 0, 14, 2, 0, 0, 0, 0, 3, 136, 204, 2, 7, 4, 2, 0, 0, 0, 0, 3, 4, 5, 5, 101, 116, 104, 48, 6, 2, 0, 180, 10, 14] ++
    lit "sw.example.org" ++ [12, 65] ++ lit "Debian GNU/Linux 12 (bookworm) Linux 6.1.0-13-amd64 #1 SMP x86_64" ++
    [14, 4, 0, 16, 0, 16, 16, 14, 7, 6, 2, 0, 0, 0, 0, 3, 2, 0, 0, 0, 4, 0, 254, 7, 0, 18, 187, 1, 0, 33, 1, 254, 18, 0, 18, 187, 7] ++
    lit "6.1.0-13-amd64" ++ [254, 36, 0, 18, 187, 8] ++ lit "0123456789abcdef0123456789abcdef" ++ [0, 0]

/-- The other system, on interface 9, hears the frames of 1000 and of 1122; those between are lost. -/
def histB : List (Int × Event) :=
  [(990, .timer otherKernel {} 990), (1002, .recv (some 1002) (rawOf ⟨9, .lldp, frameA⟩)), (1020, .timer otherKernel {} 1020),
   (1030, .recv (some 1030) (rawOf ⟨9, .ndp, ndpFrame 78⟩)), (1110, .timer otherKernel {} 1110),
   (1123, .recv (some 1123) (rawOf ⟨9, .lldp, frameA⟩)), (1140, .timer otherKernel {} 1140)]

theorem histA_sane : ∀ x ∈ (1000, Event.timer cardKernel {} 1000) :: histA, SaneEvent x.2 := by
  intro x hx
  simp only [histA, List.mem_cons, List.not_mem_nil, or_false] at hx
  rcases hx with rfl | rfl | rfl | rfl | rfl | rfl <;> decide +kernel

theorem histB_sane : ∀ x ∈ histB, SaneEvent x.2 := by
  intro x hx
  simp only [histB, List.mem_cons, List.not_mem_nil, or_false] at hx
  rcases hx with rfl | rfl | rfl | rfl | rfl | rfl | rfl <;> first | trivial | decide +kernel

theorem histA_due : AlwaysDue (confOne .lldp) 4 .lldp ((1000, Event.timer cardKernel {} 1000) :: histA) := by
  have key : ∃ addrs, KernelAnswers (confOne .lldp) cardKernel addrs ∧ Due (confOne .lldp) cardKernel (usables cardKernel addrs) (fun _ => 0) 4 .lldp :=
    ⟨[⟨lit "eth0", .link true 4 [2, 0, 0, 0, 0, 3, 0, 0]⟩],
      ⟨by decide +kernel, rfl, by decide +kernel, by decide +kernel, by decide +kernel⟩, by decide +kernel⟩
  intro x hx k m now he
  simp only [histA, List.mem_cons, List.not_mem_nil, or_false] at hx
  rcases hx with rfl | rfl | rfl | rfl | rfl | rfl <;> cases he <;> exact key

theorem histA_facts : Punctual (confOne .lldp) 1 1000 ((1000, .timer cardKernel {} 1000) :: histA) ⟨sysFound, none⟩ ∧
    (match timedRun (confOne .lldp) ((1000, .timer cardKernel {} 1000) :: histA) ⟨sysFound, none⟩ with | .ok s => decide (Current 1 1150 s) | _ => false) = true ∧
    sentAt (confOne .lldp) ((1000, .timer cardKernel {} 1000) :: histA) ⟨sysFound, none⟩ =
      [1000, 1030, 1040, 1061, 1091, 1122].map (fun t => (t, ⟨4, .lldp, 208, frameA ++ List.replicate 1310 0⟩)) := by decide +kernel

theorem histB_facts : Punctual (confOne .fdp) 60 990 histB ⟨sysFound, none⟩ ∧
    (match timedRun (confOne .fdp) histB ⟨sysFound, none⟩ with | .ok _ => true | _ => false) = true ∧
    (∀ x ∈ histB, x.1 ≤ 1150) ∧
    (histB.filter (fun x => decide (Between 9 (Proto.lldp.dst, [2, 0, 0, 0, 0, 3]) x.2))).map (·.1) = [1002, 1123] ∧
    (∀ n < 7, (match timedRun (confOne .fdp) (histB.take (n + 1)) ⟨sysFound, none⟩ with
      | .ok s => decide ((s.daemon.child.netifs.find? (fun x => x.index == 9)).isSome = true ∧ ∀ x ∈ s.daemon.child.netifs, x.hwaddr ≠ [2, 0, 0, 0, 0, 3])
      | _ => false) = true) := by decide +kernel

/-- Both systems and the link between them meet the hypotheses of `C78_seen_partial`: three rounds are lost. -/
example : ∃ s2, timedRun (confOne .fdp) histB ⟨sysFound, none⟩ = .ok s2 ∧
    ∃ inf, lookup s2.daemon.child.queue (9, 0, Proto.lldp.dst, [2, 0, 0, 0, 0, 3]) = some inf ∧ inf.ttl = 180 ∧ inf.received ≤ 1150 ∧
      1150 ≤ inf.received + 120 + 2 ∧ Recovers inf.peer.hostname (lit "sw.example.org") := by
  obtain ⟨hp, hr, hsent⟩ := histA_facts
  obtain ⟨hp2, hr2, hnow2, hheard, hst2⟩ := histB_facts
  cases hs : timedRun (confOne .lldp) ((1000, .timer cardKernel {} 1000) :: histA) ⟨sysFound, none⟩ with
  | ok s =>
    rw [hs] at hr
    cases hs2 : timedRun (confOne .fdp) histB ⟨sysFound, none⟩ with
    | ok s2 =>
      have hbt : ∀ x ∈ histB, Between 9 (Proto.lldp.dst, [2, 0, 0, 0, 0, 3]) x.2 → x.1 = 1002 ∨ x.1 = 1123 := by
        intro x hx hb
        have : x.1 ∈ (histB.filter (fun x => decide (Between 9 (Proto.lldp.dst, [2, 0, 0, 0, 0, 3]) x.2))).map (·.1) :=
          List.mem_map.mpr ⟨x, List.mem_filter.mpr ⟨hx, decide_eq_true hb⟩, rfl⟩
        rw [hheard] at this
        simpa using this
      have hin : ∀ t, t = 1002 ∨ t = 1123 → ∃ x ∈ histB, Between 9 (Proto.lldp.dst, [2, 0, 0, 0, 0, 3]) x.2 ∧ x.1 = t := by
        intro t ht
        have : t ∈ (histB.filter (fun x => decide (Between 9 (Proto.lldp.dst, [2, 0, 0, 0, 0, 3]) x.2))).map (·.1) := by
          rw [hheard]; simpa using ht
        obtain ⟨x, hx, rfl⟩ := List.mem_map.mp this
        obtain ⟨h1, h2⟩ := List.mem_filter.mp hx
        exact ⟨x, h1, of_decide_eq_true h2, rfl⟩
      refine ⟨s2, rfl, Exists.imp (fun _ h => ⟨h.1, h.2.1, h.2.2.1, h.2.2.2.1, h.2.2.2.2.2 (by decide)⟩) (C78_seen_partial _ sysSample sysSample_ok _ (by unfold OptsOk; decide) [] (confOne .lldp) _ sysFound startA (by decide) (by decide) 1 1000 cardKernel {} histA s
        (fun x hx => histA_sane x (List.mem_cons_of_mem _ hx)) 4 .lldp (by decide) histA_due hp hs 1150 (of_decide_eq_true hr)
        _ sysSample sysSample_ok _ (by unfold OptsOk; decide) [] (confOne .fdp) _ sysFound startB 60 990 histB s2 histB_sane hp2 hs2 hnow2 9 [2, 0, 0, 0, 0, 3] ?_ ?_ 120 2
        (by decide) (by decide) (by decide) ?_ ?_)⟩
      · intro pre x post s1 hh hb hrun
        have hpre : pre = histB.take pre.length := by rw [hh, List.take_left]
        have hlen : pre.length < 7 := by
          have := congrArg List.length hh
          rw [List.length_append, List.length_cons] at this
          simp only [histB, List.length_cons, List.length_nil] at this
          omega
        cases hl : pre.length with
        | zero =>
          exfalso
          rw [List.length_eq_zero_iff.mp hl] at hh
          simp only [histB, List.nil_append, List.cons.injEq] at hh
          rw [← hh.1] at hb
          exact hb
        | succ n =>
          have := hst2 n (by omega)
          rw [← hl, ← hpre, hrun] at this
          obtain ⟨h1, h2⟩ := of_decide_eq_true this
          exact ⟨Option.isSome_iff_exists.mp h1, h2⟩
      · intro x hx hb
        have hev : x.2 = .recv (some x.1) (rawOf ⟨9, .lldp, frameA⟩) := by
          have h' := hbt x hx hb
          simp only [histB, List.mem_cons, List.not_mem_nil, or_false] at hx
          rcases hx with rfl | rfl | rfl | rfl | rfl | rfl | rfl <;> first | (exfalso; dsimp only at h'; omega) | rfl
        refine ⟨if x.1 = 1002 then 1000 else 1122, ⟨4, .lldp, 208, frameA ++ List.replicate 1310 0⟩, ⟨9, .lldp, frameA⟩, ?_, rfl, ?_, ?_, hev⟩
        · rw [hsent]
          refine List.mem_map.mpr ⟨_, ?_, rfl⟩
          split <;> decide
        · rcases hbt x hx hb with h | h <;> rw [h] <;> decide
        · decide +kernel
      · rintro a ⟨u, y, hu, -, -, h1, h2⟩ hlt
        rw [hsent] at hu
        obtain ⟨t, ht, he⟩ := List.mem_map.mp hu
        injection he with he _
        subst he
        have ht : 1000 ≤ t ∧ t ≤ 1122 := by
          simp only [List.mem_cons, List.not_mem_nil, or_false] at ht
          omega
        rcases Int.lt_or_le a 1002 with ha | ha
        · obtain ⟨x, hx, hb, hx1⟩ := hin 1002 (.inl rfl)
          exact ⟨x, hx, hb, by omega, by omega⟩
        · obtain ⟨x, hx, hb, hx1⟩ := hin 1123 (.inr rfl)
          exact ⟨x, hx, hb, by omega, by omega⟩
      · obtain ⟨x, hx, hb, -⟩ := hin 1002 (.inl rfl)
        exact ⟨x, hx, hb⟩
    | fail => rw [hs2] at hr2; cases hr2
    | oob => rw [hs2] at hr2; cases hr2
    | abort => rw [hs2] at hr2; cases hr2
    | stuck => rw [hs2] at hr2; cases hr2
  | fail => rw [hs] at hr; cases hr
  | oob => rw [hs] at hr; cases hr
  | abort => rw [hs] at hr; cases hr
  | stuck => rw [hs] at hr; cases hr

/-- A history with a client for `C78_stale_served`: it waits for the entry of one neighbour during a late round, at which another one is removed. -/
def histServed : List (Int × Event) :=
  [(5, ndpEvent 5 77), (6, ndpEvent 6 78), (7, .accept), (8, .write 2 (some [.again])), (300, .timer sampleKernel {} 300), (301, .write 2 (some [.ok]))]

example : Punctual cRecv 270 1 ((1, .timer sampleKernel {} 1) :: histServed) ⟨dSys, none⟩ ∧ dSys.child = {} ∧
    OrderlyRun cRecv dSys (.timer sampleKernel {} 1 :: histServed.map (·.2)) ∧
    (match timedRun cRecv ((1, .timer sampleKernel {} 1) :: histServed) ⟨dSys, none⟩ with
      | .ok s => (s.daemon.child.queue.map (fun x => (x.received, x.ttl, x.lock)), s.due) | _ => ([], none)) = ([(5, 180, 0)], some 330) := by
  refine ⟨by decide +kernel, rfl, by decide +kernel, by decide +kernel⟩

/-- Without clients, for `C78_stale_alone`: heard at 5 for 180 seconds, still there at 185, gone at 186, with an event loop up to 155 seconds late. -/
example : let h := fun t => [(5, ndpEvent 5 77), (t, Event.timer sampleKernel {} t)]
    (∀ t ∈ [185, 186], ∀ x ∈ h t, NotAccept x.2 ∧ Captured x.2) ∧ Punctual cRecv 155 1 ((1, .timer sampleKernel {} 1) :: h 186) ⟨dSys, none⟩ ∧
    [185, 186].map (fun t => match timedRun cRecv ((1, .timer sampleKernel {} 1) :: h t) ⟨dSys, none⟩ with
      | .ok s => s.daemon.child.queue.length | _ => 9) = [1, 0] := by
  refine ⟨?_, by decide +kernel, by decide +kernel⟩
  intro t _ x hx
  simp only [List.mem_cons, List.not_mem_nil, or_false] at hx
  rcases hx with rfl | rfl
  · exact ⟨trivial, ndp_captured _ _ (Or.inl rfl)⟩
  · exact ⟨trivial, trivial⟩

end Ladvd.Props
