import Verif.Spec.BsdTimer
import Verif.Props.Mixed
/-!
# C94: rounds in time on FreeBSD, and systems of either kind that see each other
-/

namespace Ladvd.Props

open Spec

/-! ## In the terms of the Linux model -/

def asTimed (x : Int × BsdEvent) : Int × Event := (x.1, asEvent x.2)

theorem isTimeout_asEvent (e : BsdEvent) : isTimeout (asEvent e) = bsdIsTimeout e := by
  cases e with
  | route k m got => unfold asEvent; dsimp only; cases routeLink got <;> rfl
  | _ => rfl

theorem reads_asEvent {t : Int} {e : BsdEvent} (h : BsdReads t e) : Reads t (asEvent e) := by
  cases e with
  | route k m got => unfold asEvent; dsimp only; cases routeLink got <;> trivial
  | timer => exact h
  | recv => exact h
  | accept => trivial
  | write => trivial

theorem bsdTimedStep_eq (c : Conf) {s : Timed} (hd : Good s.daemon) (t : Int) {e : BsdEvent} (he : BsdSaneEvent e) :
    bsdTimedStep c s t e = timedStep c s t (asEvent e) := by
  unfold bsdTimedStep timedStep
  rw [bsdStep_eq c hd he]
  cases e with
  | route k m got => unfold asEvent; dsimp only; cases routeLink got <;> rfl
  | _ => rfl

theorem good_timed {c : Conf} {s s' : Timed} {t : Int} {e : BsdEvent} (hd : Good s.daemon) (he : BsdSaneEvent e)
    (h : timedStep c s t (asEvent e) = .ok s') : Good s'.daemon :=
  good_step hd (sane_asEvent he) (timedStep_ok h).1

theorem bsdTimedRun_eq (c : Conf) (h : List (Int × BsdEvent)) : ∀ {s : Timed}, Good s.daemon → (∀ x ∈ h, BsdSaneEvent x.2) →
    bsdTimedRun c h s = timedRun c (h.map asTimed) s := by
  induction h with
  | nil => intros; rfl
  | cons x h ih =>
    obtain ⟨t, e⟩ := x
    intro s hd he
    have h1 := he (t, e) List.mem_cons_self
    rw [List.map_cons, bsdTimedRun, show asTimed (t, e) = (t, asEvent e) from rfl, timedRun, bsdTimedStep_eq c hd t h1]
    cases hs : timedStep c s t (asEvent e) with
    | ok s1 => exact ih (good_timed hd h1 hs) (fun x hx => he x (List.mem_cons_of_mem _ hx))
    | _ => rfl

theorem bsdSentAt_eq (c : Conf) (h : List (Int × BsdEvent)) : ∀ {s : Timed}, Good s.daemon → (∀ x ∈ h, BsdSaneEvent x.2) →
    bsdSentAt c h s = sentAt c (h.map asTimed) s := by
  induction h with
  | nil => intros; rfl
  | cons x h ih =>
    obtain ⟨t, e⟩ := x
    intro s hd he
    have h1 := he (t, e) List.mem_cons_self
    rw [List.map_cons, bsdSentAt, show asTimed (t, e) = (t, asEvent e) from rfl, sentAt, bsdTimedStep_eq c hd t h1]
    cases hs : timedStep c s t (asEvent e) with
    | ok s1 =>
      dsimp only
      rw [ih (good_timed hd h1 hs) (fun x hx => he x (List.mem_cons_of_mem _ hx))]
    | _ => rfl

theorem bsdReceptions_eq (c : Conf) (h : List (Int × BsdEvent)) : ∀ {s : Timed}, Good s.daemon → (∀ x ∈ h, BsdSaneEvent x.2) →
    bsdReceptions c h s = receptions c (h.map asTimed) s := by
  induction h with
  | nil => intros; rfl
  | cons x h ih =>
    obtain ⟨t, e⟩ := x
    intro s hd he
    have h1 := he (t, e) List.mem_cons_self
    have e1 : bsdMessageOf e = messageOf (asEvent e) := by
      cases e with
      | route k m got => unfold asEvent; dsimp only; cases routeLink got <;> rfl
      | _ => rfl
    rw [List.map_cons, bsdReceptions, show asTimed (t, e) = (t, asEvent e) from rfl, receptions, bsdTimedStep_eq c hd t h1, e1]
    cases hs : timedStep c s t (asEvent e) with
    | ok s1 =>
      dsimp only
      rw [ih (good_timed hd h1 hs) (fun x hx => he x (List.mem_cons_of_mem _ hx))]
    | _ => rfl

theorem punctual_asTimed {c : Conf} {late : Int} (h : List (Int × BsdEvent)) : ∀ {last : Int} {s : Timed}, Good s.daemon → (∀ x ∈ h, BsdSaneEvent x.2) →
    BsdPunctual c late last h s → Punctual c late last (h.map asTimed) s := by
  induction h with
  | nil => intros; trivial
  | cons x h ih =>
    obtain ⟨t, e⟩ := x
    intro last s hd he hp
    have h1 := he (t, e) List.mem_cons_self
    obtain ⟨p1, p2, p3, p4, p5⟩ := hp
    refine ⟨p1, reads_asEvent p2, p3, fun ht => p4 ((isTimeout_asEvent e).symm.trans ht), fun s' hs => ?_⟩
    exact ih (good_timed hd h1 hs) (fun x hx => he x (List.mem_cons_of_mem _ hx)) (p5 s' (by rw [bsdTimedStep_eq c hd t h1]; exact hs))

theorem roundTimes_asTimed (h : List (Int × BsdEvent)) : roundTimes (h.map asTimed) = bsdRoundTimes h := by
  unfold roundTimes bsdRoundTimes
  induction h with
  | nil => rfl
  | cons x h ih =>
    rw [List.map_cons, List.filter_cons, List.filter_cons, show (asTimed x).2 = asEvent x.2 from rfl, isTimeout_asEvent]
    split
    · rw [List.map_cons, List.map_cons, ih]; rfl
    · exact ih

theorem sane_asTimed {h : List (Int × BsdEvent)} (hs : ∀ x ∈ h, BsdSaneEvent x.2) : ∀ x ∈ h.map asTimed, SaneEvent x.2 := by
  intro x hx
  obtain ⟨y, hy, rfl⟩ := List.mem_map.mp hx
  exact sane_asEvent (hs y hy)

theorem answers_asKernel {c : Conf} {k : BsdKernel} {addrs : List BIfAddr} (h : BsdKernelAnswers c k addrs) :
    KernelAnswers c (asKernel k) (addrs.map asIfAddr) := by
  have hk := asKernel_some h.listed
  refine ⟨sane_asKernel h.sane, by rw [hk]; rfl, ?_, ?_, ?_⟩
  · rw [hk, usables_asLinux]; exact h.count
  · rw [hk, usables_asLinux]; exact h.len
  · rw [hk, usables_asLinux]; exact h.vlans

theorem always_asTimed {c : Conf} {i : Nat} {p : Proto} {h : List (Int × BsdEvent)} (hw : BsdAlwaysDue c i p h) : AlwaysDue c i p (h.map asTimed) := by
  intro x hx k m now he
  obtain ⟨⟨t, e⟩, hy, rfl⟩ := List.mem_map.mp hx
  have he : asEvent e = .timer k m now := he
  cases e with
  | timer bk bm bnow =>
    injection he with h1 _ _
    subst h1
    obtain ⟨addrs, ha, hd⟩ := hw _ hy bk bm bnow rfl
    refine ⟨_, answers_asKernel ha, ?_⟩
    have hok : BsdOk bk addrs := (ha.sane addrs (by rw [ha.listed]; exact List.mem_singleton.mpr rfl)).1
    rw [asKernel_some ha.listed, usables_asLinux, due_asLinux c hok]
    exact hd
  | route bk bm got => unfold asEvent at he; dsimp only at he; cases hl : routeLink got <;> rw [hl] at he <;> cases he
  | recv => cases he
  | accept => cases he
  | write => cases he

/-! ## C94 Rounds -/

/-- However long the process runs on FreeBSD and whatever happens in between: within 30 seconds after any moment there is another round, if the event loop is
never late; otherwise by at most as much later.  Rounds are at least 30 seconds apart. -/
theorem C94_period (c : Conf) (d0 : Daemon) (h0 : Started d0) (late t0 : Int) (k0 : BsdKernel) (m0 : BsdMedia) (h : List (Int × BsdEvent)) (s : Timed)
    (hk0 : BsdSane k0) (hsane : ∀ x ∈ h, BsdSaneEvent x.2)
    (hp : BsdPunctual c late t0 ((t0, .timer k0 m0 t0) :: h) ⟨d0, none⟩)
    (hr : bsdTimedRun c ((t0, .timer k0 m0 t0) :: h) ⟨d0, none⟩ = .ok s) :
    (t0 :: bsdRoundTimes h).Pairwise (fun x y => x + 30 ≤ y) ∧
    ∀ now, Current late now s → ∀ a, t0 ≤ a → a + 30 + late < now → ∃ t ∈ bsdRoundTimes h, a < t ∧ t ≤ a + 30 + late := by
  have hg : Good (⟨d0, none⟩ : Timed).daemon := good_started h0
  have hs : ∀ x ∈ (t0, .timer k0 m0 t0) :: h, BsdSaneEvent x.2 := List.forall_mem_cons.mpr ⟨hk0, hsane⟩
  rw [bsdTimedRun_eq c _ hg hs] at hr
  have := C78_period c d0 late t0 (asKernel k0) { bsd := some m0 } (h.map asTimed) s (punctual_asTimed _ hg hs hp) hr
  rw [roundTimes_asTimed] at this
  exact this

theorem bsd_argv {h : Host} {e : BsdSysEnv} (he : BsdSysOk e) (hname : ∀ u ∈ e.uname, u.sysname = lit "FreeBSD") {os : List Opt} (ho : OptsOk os)
    {args : List Bytes} {c : Conf} {pwd : Option (Nat × Nat)} {d0 : Daemon} (hs : bsdStartUp h e os args = .ok (c, pwd, d0)) :
    c.opts.testBit 5 = true ↔ c.names ≠ [] := (C88_started h e he hname os ho args c pwd d0 hs).2.2.2.2

/-- Since a start on FreeBSD: on an interface on which a protocol is enabled and permitted in every round there is a message at the start, and then again
within 30 seconds after any moment, plus the lateness of the event loop. -/
theorem C94_renewed (h : Host) (e : BsdSysEnv) (he : BsdSysOk e) (hname : ∀ u ∈ e.uname, u.sysname = lit "FreeBSD") (os : List Opt) (ho : OptsOk os)
    (args : List Bytes) (c : Conf) (pwd : Option (Nat × Nat)) (d0 : Daemon) (hs : bsdStartUp h e os args = .ok (c, pwd, d0)) (hn : c.names.length < 65536)
    (hsend : c.opts.testBit 1 = true) (late t0 : Int) (k0 : BsdKernel) (m0 : BsdMedia) (hist : List (Int × BsdEvent)) (s : Timed)
    (hsane : ∀ x ∈ hist, BsdSaneEvent x.2) (i : Nat) (p : Proto) (hw : BsdAlwaysDue c i p ((t0, .timer k0 m0 t0) :: hist))
    (hp : BsdPunctual c late t0 ((t0, .timer k0 m0 t0) :: hist) ⟨d0, none⟩)
    (hr : bsdTimedRun c ((t0, .timer k0 m0 t0) :: hist) ⟨d0, none⟩ = .ok s) :
    (∃ x, (t0, x) ∈ bsdSentAt c ((t0, .timer k0 m0 t0) :: hist) ⟨d0, none⟩ ∧ x.index = i ∧ x.proto = p) ∧
    ∀ now, Current late now s → ∀ a, t0 ≤ a → a + 30 + late < now →
      ∃ t x, (t, x) ∈ bsdSentAt c ((t0, .timer k0 m0 t0) :: hist) ⟨d0, none⟩ ∧ x.index = i ∧ x.proto = p ∧ a < t ∧ t ≤ a + 30 + late := by
  have hb := bsdBooted he hname ho hs
  have hg : Good (⟨d0, none⟩ : Timed).daemon := good_started hb.started
  have hk0 : BsdSane k0 := by
    obtain ⟨_, hans, -⟩ := hw (t0, .timer k0 m0 t0) List.mem_cons_self k0 m0 t0 rfl
    exact hans.sane
  have hss : ∀ x ∈ (t0, .timer k0 m0 t0) :: hist, BsdSaneEvent x.2 := List.forall_mem_cons.mpr ⟨hk0, hsane⟩
  rw [bsdTimedRun_eq c _ hg hss] at hr
  rw [bsdSentAt_eq c _ hg hss]
  exact renewed_core hb (bsd_argv he hname ho hs) hn hsend (sane_asTimed hsane) (always_asTimed hw) (punctual_asTimed _ hg hss hp) hr

/-! ## C94 Stale neighbours -/

theorem captured_asTimed {h : List (Int × BsdEvent)} (hs : ∀ x ∈ h, BsdCaptured x.2) : ∀ x ∈ h.map asTimed, Captured x.2 := by
  intro x hx
  obtain ⟨⟨t, e⟩, hy, rfl⟩ := List.mem_map.mp hx
  have := hs _ hy
  show Captured (asEvent e)
  cases e with
  | timer k m now => trivial
  | route k m got => unfold asEvent; dsimp only; cases routeLink got <;> trivial
  | recv now r => exact this
  | accept => trivial
  | write sid ws => trivial

/-- At any time of a run since the start, with frames as captured by the privileged process: what is in the table has not been out of date for more than 30 seconds
plus the lateness of the event loop, unless it was in use by a client at the end of the last round.  What is missing for the full claim: marks
that are never removed, as on Linux (`C78_leaked`). -/
theorem C94_stale_partial (c : Conf) (hrecv : c.opts.testBit 2 = true) (d0 : Daemon) (hst : Started d0) (h0 : d0.child.queue = []) (late t0 : Int)
    (hpos : 0 < t0) (k0 : BsdKernel) (m0 : BsdMedia) (h : List (Int × BsdEvent)) (hk0 : BsdSane k0) (hsane : ∀ x ∈ h, BsdSaneEvent x.2)
    (hcap : ∀ x ∈ h, BsdCaptured x.2) (s : Timed)
    (hp : BsdPunctual c late t0 ((t0, .timer k0 m0 t0) :: h) ⟨d0, none⟩)
    (hr : bsdTimedRun c ((t0, .timer k0 m0 t0) :: h) ⟨d0, none⟩ = .ok s) (now : Int) (hnow : Current late now s) :
    ∀ x ∈ s.daemon.child.queue, now ≤ x.received + x.ttl + 30 + late ∨ BsdInUse c ((t0, .timer k0 m0 t0) :: h) ⟨d0, none⟩ x := by
  have hg : Good (⟨d0, none⟩ : Timed).daemon := good_started hst
  have hs : ∀ x ∈ (t0, .timer k0 m0 t0) :: h, BsdSaneEvent x.2 := List.forall_mem_cons.mpr ⟨hk0, hsane⟩
  rw [bsdTimedRun_eq c _ hg hs] at hr
  intro x hx
  rcases C78_stale_partial c hrecv d0 h0 late t0 hpos (asKernel k0) { bsd := some m0 } (h.map asTimed) (captured_asTimed hcap) s
    (punctual_asTimed _ hg hs hp) hr now hnow x hx with hb | ⟨pre, post, s1, hsplit, hpost, hrun, hy⟩
  · exact .inl hb
  · right
    have hsplit : ((t0, BsdEvent.timer k0 m0 t0) :: h).map asTimed = pre ++ post := hsplit
    obtain ⟨pre', post', he, rfl, rfl⟩ := List.map_eq_append_iff.mp hsplit
    refine ⟨pre', post', s1, he, by rw [← roundTimes_asTimed]; exact hpost, ?_, hy⟩
    rw [bsdTimedRun_eq c _ hg (fun x hx => hs x (by rw [he]; exact List.mem_append_left _ hx))]
    exact hrun

/-- Without clients there is no exception: a neighbour that falls silent is gone 30 seconds after its lifetime, plus the lateness of the event loop. -/
theorem C94_stale_alone (c : Conf) (hrecv : c.opts.testBit 2 = true) (d0 : Daemon) (hst : Started d0) (h0 : d0.child = {}) (late t0 : Int)
    (hpos : 0 < t0) (k0 : BsdKernel) (m0 : BsdMedia) (h : List (Int × BsdEvent)) (hk0 : BsdSane k0) (hsane : ∀ x ∈ h, BsdSaneEvent x.2)
    (hcap : ∀ x ∈ h, BsdCaptured x.2) (hn : ∀ x ∈ h, BsdNotAccept x.2) (s : Timed)
    (hp : BsdPunctual c late t0 ((t0, .timer k0 m0 t0) :: h) ⟨d0, none⟩)
    (hr : bsdTimedRun c ((t0, .timer k0 m0 t0) :: h) ⟨d0, none⟩ = .ok s) (now : Int) (hnow : Current late now s) :
    ∀ x ∈ s.daemon.child.queue, now ≤ x.received + x.ttl + 30 + late := by
  have hg : Good (⟨d0, none⟩ : Timed).daemon := good_started hst
  have hs : ∀ x ∈ (t0, .timer k0 m0 t0) :: h, BsdSaneEvent x.2 := List.forall_mem_cons.mpr ⟨hk0, hsane⟩
  rw [bsdTimedRun_eq c _ hg hs] at hr
  refine C78_stale_alone c hrecv d0 h0 late t0 hpos (asKernel k0) { bsd := some m0 } (h.map asTimed) (captured_asTimed hcap) ?_ s
    (punctual_asTimed _ hg hs hp) hr now hnow
  intro x hx
  obtain ⟨⟨t, e⟩, hy, rfl⟩ := List.mem_map.mp hx
  have := hn _ hy
  show NotAccept (asEvent e)
  cases e with
  | timer k m now => trivial
  | route k m got => unfold asEvent; dsimp only; cases routeLink got <;> trivial
  | recv now r => trivial
  | accept => exact this
  | write sid ws => trivial

/-! ## C94 Two systems of either kind -/

/-- A run in the terms of the Linux model. -/
structure LinuxRun (l : Uptime) (c : Conf) (d0 : Daemon) (t0 : Int) (k : Kernel) (m : Media) (h : List (Int × Event)) : Prop where
  boot : Booted d0
  child : d0.child = {}
  argv : c.opts.testBit 5 = true ↔ c.names ≠ []
  sane : Sane k ∧ ∀ x ∈ h, SaneEvent x.2
  since : l.since = t0
  conf : l.conf = c
  host : l.hostname = d0.sys.hostname
  punctual : ∀ late, l.Punctual late → Punctual c late t0 ((t0, .timer k m t0) :: h) ⟨d0, none⟩
  due : ∀ i p, l.Advertises i p → AlwaysDue c i p ((t0, .timer k m t0) :: h)
  final : l.final = timedRun c ((t0, .timer k m t0) :: h) ⟨d0, none⟩
  sent : l.sent = sentAt c ((t0, .timer k m t0) :: h) ⟨d0, none⟩
  heard : l.heard = receptions c ((t0, .timer k m t0) :: h) ⟨d0, none⟩
  times : l.times = t0 :: h.map (·.1)

theorem linuxRun {l : Uptime} (hl : l.Runs) : ∃ c d0 t0 k m h, LinuxRun l c d0 t0 k m h := by
  cases l with
  | linux s t0 k m h =>
    obtain ⟨hr, hk, hs⟩ := hl
    refine ⟨s.conf, s.start, t0, k, m, h, booted hr.env hr.opts hr.start, startUp_child hr.start,
      (C49_started s.host s.env hr.env s.opts hr.opts s.args s.conf s.pwd s.start hr.start).2.2.2.2, ⟨hk, hs⟩, rfl, rfl, rfl, fun _ h => h, fun _ _ h => h, rfl, rfl, rfl, rfl⟩
  | bsd s t0 k m h =>
    obtain ⟨hr, hk, hs⟩ := hl
    have hb := bsdBooted hr.env hr.name hr.opts hr.start
    have hg : Good (⟨s.start, none⟩ : Timed).daemon := good_started hb.started
    have hss : ∀ x ∈ (t0, .timer k m t0) :: h, BsdSaneEvent x.2 := List.forall_mem_cons.mpr ⟨hk, hs⟩
    refine ⟨s.conf, s.start, t0, asKernel k, { bsd := some m }, h.map asTimed, hb, bsdStartUp_child hr.start,
      bsd_argv hr.env hr.name hr.opts hr.start, ⟨sane_asKernel hk, sane_asTimed hs⟩, rfl, rfl, rfl, fun _ hp => punctual_asTimed _ hg hss hp,
      fun _ _ hw => always_asTimed hw, bsdTimedRun_eq _ _ hg hss, bsdSentAt_eq _ _ hg hss, bsdReceptions_eq _ _ hg hss, ?_⟩
    show t0 :: h.map (·.1) = t0 :: (h.map asTimed).map (·.1)
    rw [List.map_map]
    rfl

/-- The receptions of a run and its events. -/
theorem mem_receptions {c : Conf} {t : Int} {now : Option Int} {r : RawMsg} {l : List Netif} {h : List (Int × Event)} : ∀ {s : Timed},
    (t, now, r, l) ∈ receptions c h s → ∃ pre post s1, h = pre ++ (t, .recv now r) :: post ∧ timedRun c pre s = .ok s1 ∧ l = s1.daemon.child.netifs := by
  induction h with
  | nil => intro s hx; cases hx
  | cons x h ih =>
    obtain ⟨u, e⟩ := x
    intro s hx
    rw [receptions] at hx
    rcases List.mem_append.mp hx with hx | hx
    · cases e with
      | recv n q =>
        have hx := List.mem_singleton.mp hx
        cases hx
        exact ⟨[], h, s, rfl, rfl, rfl⟩
      | timer => cases hx
      | link => cases hx
      | accept => cases hx
      | write => cases hx
    · cases hs : timedStep c s u e with
      | ok s1 =>
        rw [hs] at hx
        obtain ⟨pre, post, s2, rfl, hr, hl⟩ := ih hx
        exact ⟨(u, e) :: pre, post, s2, rfl, by rw [timedRun, hs]; exact hr, hl⟩
      | fail => rw [hs] at hx; cases hx
      | oob => rw [hs] at hx; cases hx
      | abort => rw [hs] at hx; cases hx
      | stuck => rw [hs] at hx; cases hx

theorem receptions_mid {c : Conf} {t : Int} {now : Option Int} {r : RawMsg} {post : List (Int × Event)} {s1 : Timed} {pre : List (Int × Event)} :
    ∀ {s : Timed}, timedRun c pre s = .ok s1 → (t, now, r, s1.daemon.child.netifs) ∈ receptions c (pre ++ (t, .recv now r) :: post) s := by
  induction pre with
  | nil => intro s h; cases h; rw [List.nil_append, receptions]; exact List.mem_append_left _ (List.mem_singleton.mpr rfl)
  | cons x pre ih =>
    obtain ⟨u, e⟩ := x
    intro s h
    obtain ⟨s2, h1, h2⟩ := timedRun_cons h
    rw [List.cons_append, receptions, h1]
    exact List.mem_append_right _ (ih h2)

/-- Two systems, each with Linux or FreeBSD.  The first one advertises protocol `p` on its interface `i`; the second one is connected to it by its interface `j`.
The link may lose and delay frames: of those sent within any `window` seconds at least one arrives, at most `delay` seconds later.  If `window` and `delay`
together are less than 180 seconds, and the window is long enough to contain a round, then from its first frame on the first system is in the other's table all the time,
last heard of at most `window + delay` seconds ago, with the contents of one of its frames and its name.  Missing for the full claim: EDP, of which no frame is heard (`C53_edp_unheard`, `C88_edp_unheard`). -/
theorem C94_seen_partial (a b : Uptime) (ha : a.Runs) (hb : b.Runs) (hsend : a.conf.opts.testBit 1 = true) (hn : a.conf.names.length < 65536)
    (late late2 now : Int) (hpa : a.Punctual late) (hpb : b.Punctual late2) (sa sb : Timed) (hfa : a.final = .ok sa) (hfb : b.final = .ok sb)
    (hnow : Current late now sa) (hnow2 : ∀ t ∈ b.times, t ≤ now) (i : Nat) (p : Proto) (hedp : p ≠ .edp) (hw : a.Advertises i p)
    -- the link between them
    (j : Nat) (src : Bytes)
    (hif : ∀ x ∈ b.heard, Crossing j (p.dst, src) x → (∃ n ∈ x.2.2.2, n.index = j) ∧ ∀ n ∈ x.2.2.2, n.hwaddr ≠ src)
    (horigin : ∀ x ∈ b.heard, Crossing j (p.dst, src) x → ∃ u y fwd, (u, y) ∈ a.sent ∧ y.proto = p ∧ u ≤ x.1 ∧
      parentRecv j [y.msg.take y.len] = .ok [fwd] ∧ x.2.1 = some x.1 ∧ x.2.2.1 = rawOf fwd)
    (window delay : Int) (hwin : 30 + late ≤ window) (hdel : 0 ≤ delay) (hsum : window + delay < 180)
    (hloss : ∀ t, (∃ u y, (u, y) ∈ a.sent ∧ y.index = i ∧ y.proto = p ∧ t < u ∧ u ≤ t + window) →
      t + window + delay < now → ∃ x ∈ b.heard, Crossing j (p.dst, src) x ∧ t < x.1 ∧ x.1 ≤ t + window + delay)
    -- a frame has arrived
    (hfirst : ∃ x ∈ b.heard, Crossing j (p.dst, src) x) :
    ∃ inf, lookup sb.daemon.child.queue (j, p.num, p.dst, src) = some inf ∧ inf.ttl = 180 ∧ inf.received ≤ now ∧
      now ≤ inf.received + window + delay ∧ (∃ u y, (u, y) ∈ a.sent ∧ y.proto = p ∧ u ≤ inf.received ∧ inf.frame = y.msg.take y.len) ∧
      (p ≠ .ndp → Recovers inf.peer.hostname a.hostname) := by
  obtain ⟨c, d0, t0, k, m, h, A⟩ := linuxRun ha
  obtain ⟨c2, b0, u0, k2, m2, h2, B⟩ := linuxRun hb
  rw [A.conf] at hsend hn
  have hra := A.final.symm.trans hfa
  have hrb := B.final.symm.trans hfb
  have hpa' := A.punctual late hpa
  have hpb' := B.punctual late2 hpb
  have hsa : ∀ x ∈ (t0, .timer k m t0) :: h, SaneEvent x.2 := List.forall_mem_cons.mpr A.sane
  have hsb : ∀ x ∈ (u0, .timer k2 m2 u0) :: h2, SaneEvent x.2 := List.forall_mem_cons.mpr B.sane
  rw [A.sent] at horigin hloss
  rw [A.sent, A.host]
  rw [B.heard] at hif horigin hloss hfirst
  rw [B.times] at hnow2
  have toEv : ∀ x ∈ receptions c2 ((u0, .timer k2 m2 u0) :: h2) ⟨b0, none⟩, Crossing j (p.dst, src) x →
      (x.1, Event.recv x.2.1 x.2.2.1) ∈ (u0, .timer k2 m2 u0) :: h2 ∧ Between j (p.dst, src) (.recv x.2.1 x.2.2.1) := by
    rintro ⟨t, n, r, l⟩ hx hc
    obtain ⟨pre, post, s1, he, -, -⟩ := mem_receptions hx
    exact ⟨by rw [he]; exact List.mem_append_right _ List.mem_cons_self, hc⟩
  have ofEv : ∀ pre x post s1, (u0, .timer k2 m2 u0) :: h2 = pre ++ x :: post → Between j (p.dst, src) x.2 → timedRun c2 pre ⟨b0, none⟩ = .ok s1 →
      ∃ n r, x.2 = .recv n r ∧ (x.1, n, r, s1.daemon.child.netifs) ∈ receptions c2 ((u0, .timer k2 m2 u0) :: h2) ⟨b0, none⟩ ∧
        Crossing j (p.dst, src) (x.1, n, r, s1.daemon.child.netifs) := by
    rintro pre ⟨t, e⟩ post s1 he hx hr
    cases e with
    | recv n r => exact ⟨n, r, rfl, by rw [he]; exact receptions_mid hr, hx⟩
    | timer => exact hx.elim
    | link => exact hx.elim
    | accept => exact hx.elim
    | write => exact hx.elim
  refine seen_core (late := late) (t0 := t0) (i := i) hedp (sent := sentAt c ((t0, .timer k m t0) :: h) ⟨d0, none⟩) ?_ ?_ ?_ B.boot.started B.child
    hsb hpb' hrb ?_ j src ?_ ?_ window delay hwin hdel hsum ?_ ?_
  · intro u y hu
    obtain ⟨pre, ev, post, _, _, hh, -⟩ := mem_sentAt hra hu
    exact (punctual_reads hpa' hra (u, ev) (by rw [hh]; exact List.mem_append_right _ List.mem_cons_self)).1
  · exact fun x h1 h2 => (renewed_core A.boot A.argv hn hsend A.sane.2 (A.due i p hw) hpa' hra).2 now hnow x h1 h2
  · intro u y hu hne j fwd hf src hsrc o t st st' subif h1 h2 h3 h4
    exact heard_frame A.boot hsa hra hu hne hf hsrc h1 h2 h3 h4
  · intro x hx
    refine hnow2 x.1 ?_
    rcases List.mem_cons.mp hx with rfl | hx
    · exact List.mem_cons_self
    · exact List.mem_cons_of_mem _ (List.mem_map.mpr ⟨x, hx, rfl⟩)
  · intro pre x post s1 he hbt hr
    obtain ⟨n, r, -, hm, hc⟩ := ofEv pre x post s1 he hbt hr
    obtain ⟨⟨nf, hnf, hi⟩, hown⟩ := hif _ hm hc
    refine ⟨?_, hown⟩
    cases hfnd : s1.daemon.child.netifs.find? (fun n => n.index == j) with
    | some y => exact ⟨y, rfl⟩
    | none => exact absurd (by rw [hi]; exact beq_self_eq_true j) (List.find?_eq_none.mp hfnd nf hnf)
  · intro x hx hbt
    obtain ⟨pre, post, he⟩ := List.append_of_mem hx
    obtain ⟨s1, hr, -⟩ := timedRun_append (by rw [← he]; exact hrb)
    obtain ⟨n, r, hev, hm, hc⟩ := ofEv pre x post s1 he hbt hr
    obtain ⟨u, y, fwd, h1, h2, h3, h4, h5, h6⟩ := horigin _ hm hc
    dsimp only at h3 h5 h6
    exact ⟨u, y, fwd, h1, h2, h3, h4, by rw [hev, h5, h6]⟩
  · intro t ht hlt
    obtain ⟨x, hx, hc, h1, h2⟩ := hloss t ht hlt
    obtain ⟨hm, hbt⟩ := toEv x hx hc
    exact ⟨_, hm, hbt, h1, h2⟩
  · obtain ⟨x, hx, hc⟩ := hfirst
    obtain ⟨hm, hbt⟩ := toEv x hx hc
    exact ⟨_, hm, hbt⟩

/-! ## Cases -/

/-- What `bsdStartUp` finds on the sample system. -/
def boxFound : Daemon where
  sys := {
    hostname := lit "box.example.org", utsStr := lit "FreeBSD 9.2-RELEASE-p3 #0: Sat Jan 11 amd64", platform := lit "FreeBSD 9.2-RELEASE-p3 amd64"
    utsRel := [9, 2, 3], cap := 12, capActive := 12, capLldpmed := 33, lldpmedDevtype := 1
    hinv := { fwRevision := lit "1.2.3", swRevision := lit "9.2-RELEASE-p3", serialNumber := lit "01234567890123456789012345678901", manufacturer := lit "ACME",
              modelName := lit "Rocket" } }

theorem startBox : bsdStartUp { user := fun _ => some (1, 1) } bsdEnv [⟨'a', []⟩, ⟨'L', []⟩] [] = .ok (confOne .lldp, some (1, 1), boxFound) := by
  have h : (match bsdStartUp { user := fun _ => some (1, 1) } bsdEnv [⟨'a', []⟩, ⟨'L', []⟩] [] with
    | .ok (c, pwd, d) => decide (c.opts = 15 ∧ c.names = [] ∧ c.mgmt = {} ∧ c.excl = [] ∧ (∀ q ∈ Proto.all, c.enabled q = (q == .lldp)) ∧ pwd = some (1, 1) ∧
        d = boxFound)
    | _ => false) = true := by decide +kernel
  cases hs : bsdStartUp { user := fun _ => some (1, 1) } bsdEnv [⟨'a', []⟩, ⟨'L', []⟩] [] with
  | ok x =>
    obtain ⟨⟨o, n, m, x, en⟩, pwd, d⟩ := x
    rw [hs] at h
    obtain ⟨h1, h2, h3, h4, h5, h6, h7⟩ := of_decide_eq_true h
    dsimp only at h1 h2 h3 h4 h5
    subst h1 h2 h3 h4 h6 h7
    have : en = fun q => q == .lldp := by
      funext q
      exact h5 q (by cases q <;> decide)
    subst this
    rfl
  | fail => rw [hs] at h; cases h
  | oob => rw [hs] at h; cases h
  | abort => rw [hs] at h; cases h
  | stuck => rw [hs] at h; cases h

def boxSt : BsdStation := ⟨{ user := fun _ => some (1, 1) }, bsdEnv, [⟨'a', []⟩, ⟨'L', []⟩], [], confOne .lldp, some (1, 1), boxFound⟩
def thirdSt : Station := ⟨{ user := fun _ => some (1, 1) }, sysSample, [⟨'a', []⟩, ⟨'F', []⟩], [], confOne .fdp, some (1, 1), sysFound⟩

theorem boxSt_runs : boxSt.Runs := ⟨bsdEnv_ok, by intro u h; obtain rfl := Option.some.inj h; rfl, by unfold OptsOk; decide, startBox⟩
theorem thirdSt_runs : thirdSt.Runs := ⟨sysSample_ok, by unfold OptsOk; decide, startB⟩

/-- Its advertisement, which stays the same. -/
def boxFrame : Bytes :=
  [1, 128, 194, 0, 0, 14, 2, 0, 0, 0, 1, 3, 136, 204, 2, 7, 4, 2, 0, 0, 0, 1, 3, 4, 4, 5, 101, 109, 50, 6, 2, 0, 180, 8, 6] ++ lit "uplink" ++ [10, 15] ++
    lit "box.example.org" ++ [12, 43] ++ lit "FreeBSD 9.2-RELEASE-p3 #0: Sat Jan 11 amd64" ++
    [14, 4, 0, 16, 0, 16, 16, 14, 7, 6, 2, 0, 0, 0, 1, 3, 2, 0, 0, 0, 3, 0, 254, 7, 0, 18, 187, 1, 0, 33, 1, 254, 9, 0, 18, 187, 6] ++ lit "1.2.3" ++
    [254, 18, 0, 18, 187, 7] ++ lit "9.2-RELEASE-p3" ++ [254, 36, 0, 18, 187, 8] ++ lit "01234567890123456789012345678901" ++ [254, 8, 0, 18, 187, 9] ++ lit "ACME" ++
    [254, 10, 0, 18, 187, 10] ++ lit "Rocket" ++ [0, 0]

/-- A FreeBSD system after its start at 1000: a report about a link, and rounds, some a second late. -/
def boxHist : List (Int × BsdEvent) :=
  [(1030, .timer boxKernel bsdNoMedia 1030), (1040, .route boxKernel bsdNoMedia (some (rtReport 3 2))), (1061, .timer boxKernel bsdNoMedia 1061),
   (1091, .timer boxKernel bsdNoMedia 1091), (1122, .timer boxKernel bsdNoMedia 1122)]

def boxUp : Uptime := .bsd boxSt 1000 boxKernel bsdNoMedia boxHist

/-- A Linux system hears, on interface 9, the frames of 1000 and of 1122; those between are lost. -/
def thirdUp : Uptime := .linux thirdSt 990 otherKernel {}
  [(1002, .recv (some 1002) (rawOf ⟨9, .lldp, boxFrame⟩)), (1020, .timer otherKernel {} 1020), (1030, .recv (some 1030) (rawOf ⟨9, .ndp, ndpFrame 78⟩)),
   (1110, .timer otherKernel {} 1110), (1123, .recv (some 1123) (rawOf ⟨9, .lldp, boxFrame⟩)), (1140, .timer otherKernel {} 1140)]

theorem boxUp_runs : boxUp.Runs := by
  refine ⟨boxSt_runs, boxKernel_sane, ?_⟩
  intro x hx
  simp only [boxHist, List.mem_cons, List.not_mem_nil, or_false] at hx
  rcases hx with rfl | rfl | rfl | rfl | rfl <;> exact boxKernel_sane

theorem thirdUp_runs : thirdUp.Runs := by
  have hk : Sane otherKernel := by decide +kernel
  refine ⟨thirdSt_runs, hk, ?_⟩
  intro x hx
  simp only [List.mem_cons, List.not_mem_nil, or_false] at hx
  rcases hx with rfl | rfl | rfl | rfl | rfl | rfl <;> first | exact hk | trivial

theorem boxUp_due : boxUp.Advertises 3 .lldp := by
  have key : ∃ addrs, BsdKernelAnswers boxSt.conf boxKernel addrs ∧ BsdDue boxSt.conf boxKernel (bsdUsables boxKernel addrs) (fun _ => 0) 3 .lldp :=
    ⟨boxAddrs, ⟨boxKernel_sane, rfl, by decide +kernel, by decide +kernel, by decide +kernel⟩, by decide +kernel⟩
  intro x hx k m now he
  simp only [boxHist, List.mem_cons, List.not_mem_nil, or_false] at hx
  rcases hx with rfl | rfl | rfl | rfl | rfl | rfl <;> cases he <;> exact key

theorem boxUp_facts : boxUp.Punctual 1 ∧
    (match boxUp.final with | .ok s => decide (Current 1 1150 s) | _ => false) = true ∧
    boxUp.sent = [1000, 1030, 1040, 1061, 1091, 1122].map (fun t => (t, ⟨3, .lldp, 227, boxFrame ++ List.replicate 1291 0⟩)) ∧ boxUp.conf.opts.testBit 1 = true ∧ boxUp.conf.names.length < 65536 := by
  decide +kernel

theorem thirdUp_facts : thirdUp.Punctual 60 ∧
    (match thirdUp.final with | .ok _ => true | _ => false) = true ∧ (∀ t ∈ thirdUp.times, t ≤ 1150) ∧
    (thirdUp.heard.filter (fun x => decide (Crossing 9 (Proto.lldp.dst, [2, 0, 0, 0, 1, 3]) x))).map (·.1) = [1002, 1123] ∧
    ∀ x ∈ thirdUp.heard, Crossing 9 (Proto.lldp.dst, [2, 0, 0, 0, 1, 3]) x → (∃ n ∈ x.2.2.2, n.index = 9) ∧ (∀ n ∈ x.2.2.2, n.hwaddr ≠ [2, 0, 0, 0, 1, 3]) ∧
      x.2.1 = some x.1 ∧ x.2.2.1 = rawOf ⟨9, .lldp, boxFrame⟩ := by decide +kernel

/-- The link between them: three rounds are lost. -/
theorem boxLink :
    (∀ x ∈ thirdUp.heard, Crossing 9 (Proto.lldp.dst, [2, 0, 0, 0, 1, 3]) x → (∃ n ∈ x.2.2.2, n.index = 9) ∧ ∀ n ∈ x.2.2.2, n.hwaddr ≠ [2, 0, 0, 0, 1, 3]) ∧
    (∀ x ∈ thirdUp.heard, Crossing 9 (Proto.lldp.dst, [2, 0, 0, 0, 1, 3]) x → ∃ u y fwd, (u, y) ∈ boxUp.sent ∧ y.proto = .lldp ∧ u ≤ x.1 ∧
      parentRecv 9 [y.msg.take y.len] = .ok [fwd] ∧ x.2.1 = some x.1 ∧ x.2.2.1 = rawOf fwd) ∧
    (∀ t, (∃ u y, (u, y) ∈ boxUp.sent ∧ y.index = 3 ∧ y.proto = .lldp ∧ t < u ∧ u ≤ t + 120) →
      t + 120 + 2 < 1150 → ∃ x ∈ thirdUp.heard, Crossing 9 (Proto.lldp.dst, [2, 0, 0, 0, 1, 3]) x ∧ t < x.1 ∧ x.1 ≤ t + 120 + 2) ∧
    ∃ x ∈ thirdUp.heard, Crossing 9 (Proto.lldp.dst, [2, 0, 0, 0, 1, 3]) x := by
  obtain ⟨hp, hr, hsent, hsend, hn⟩ := boxUp_facts
  obtain ⟨hp2, hr2, hnow2, hheard, hcross⟩ := thirdUp_facts
  have hbt : ∀ x ∈ thirdUp.heard, Crossing 9 (Proto.lldp.dst, [2, 0, 0, 0, 1, 3]) x → x.1 = 1002 ∨ x.1 = 1123 := by
    intro x hx hb
    have : x.1 ∈ (thirdUp.heard.filter (fun x => decide (Crossing 9 (Proto.lldp.dst, [2, 0, 0, 0, 1, 3]) x))).map (·.1) :=
      List.mem_map.mpr ⟨x, List.mem_filter.mpr ⟨hx, decide_eq_true hb⟩, rfl⟩
    rw [hheard] at this
    simpa using this
  have hin : ∀ t, t = 1002 ∨ t = 1123 → ∃ x ∈ thirdUp.heard, Crossing 9 (Proto.lldp.dst, [2, 0, 0, 0, 1, 3]) x ∧ x.1 = t := by
    intro t ht
    have : t ∈ (thirdUp.heard.filter (fun x => decide (Crossing 9 (Proto.lldp.dst, [2, 0, 0, 0, 1, 3]) x))).map (·.1) := by
      rw [hheard]; simpa using ht
    obtain ⟨x, hx, rfl⟩ := List.mem_map.mp this
    obtain ⟨h1, h2⟩ := List.mem_filter.mp hx
    exact ⟨x, h1, of_decide_eq_true h2, rfl⟩
  refine ⟨?_, ?_, ?_, ?_⟩
  · intro x hx hc
    obtain ⟨h1, h2, -, -⟩ := hcross x hx hc
    exact ⟨h1, h2⟩
  · intro x hx hc
    obtain ⟨-, -, h1, h2⟩ := hcross x hx hc
    refine ⟨if x.1 = 1002 then 1000 else 1122, ⟨3, .lldp, 227, boxFrame ++ List.replicate 1291 0⟩, ⟨9, .lldp, boxFrame⟩, ?_, rfl, ?_, by decide +kernel, h1, h2⟩
    · rw [hsent]
      refine List.mem_map.mpr ⟨_, ?_, rfl⟩
      split <;> decide
    · rcases hbt x hx hc with h | h <;> rw [h] <;> decide
  · rintro a ⟨u, y, hu, -, -, h1, h2⟩ hlt
    rw [hsent] at hu
    obtain ⟨t, ht, he⟩ := List.mem_map.mp hu
    injection he with he _
    subst he
    have ht : 1000 ≤ t ∧ t ≤ 1122 := by
      simp only [List.mem_cons, List.not_mem_nil, or_false] at ht
      omega
    rcases Int.lt_or_le a 1002 with ha | ha
    · obtain ⟨x, hx, hb, hx1⟩ := hin 1002 (.inl rfl)
      exact ⟨x, hx, hb, by omega, by omega⟩
    · obtain ⟨x, hx, hb, hx1⟩ := hin 1123 (.inr rfl)
      exact ⟨x, hx, hb, by omega, by omega⟩
  · obtain ⟨x, hx, hb, -⟩ := hin 1002 (.inl rfl)
    exact ⟨x, hx, hb⟩

/-- A FreeBSD system and a Linux system meet the hypotheses of `C94_seen_partial`: three rounds are lost. -/
example : ∃ s, thirdUp.final = .ok s ∧ ∃ inf, lookup s.daemon.child.queue (9, 0, Proto.lldp.dst, [2, 0, 0, 0, 1, 3]) = some inf ∧ inf.ttl = 180 ∧
    inf.received ≤ 1150 ∧ 1150 ≤ inf.received + 120 + 2 ∧ Recovers inf.peer.hostname (lit "box.example.org") := by
  obtain ⟨hp, hr, hsent, hsend, hn⟩ := boxUp_facts
  obtain ⟨hp2, hr2, hnow2, hheard, hcross⟩ := thirdUp_facts
  cases hs : boxUp.final with
  | ok s =>
    rw [hs] at hr
    cases hs2 : thirdUp.final with
    | ok s2 =>
      refine ⟨s2, rfl, Exists.imp (fun _ h => ⟨h.1, h.2.1, h.2.2.1, h.2.2.2.1, h.2.2.2.2.2 (by decide)⟩) (C94_seen_partial boxUp thirdUp boxUp_runs thirdUp_runs hsend hn 1 60 1150 hp hp2 s s2 hs hs2
        (of_decide_eq_true hr) hnow2 3 .lldp (by decide) boxUp_due 9 [2, 0, 0, 0, 1, 3] boxLink.1 boxLink.2.1 120 2 (by decide) (by decide) (by decide)
        boxLink.2.2.1 boxLink.2.2.2)⟩
    | fail => rw [hs2] at hr2; cases hr2
    | oob => rw [hs2] at hr2; cases hr2
    | abort => rw [hs2] at hr2; cases hr2
    | stuck => rw [hs2] at hr2; cases hr2
  | fail => rw [hs] at hr; cases hr
  | oob => rw [hs] at hr; cases hr
  | abort => rw [hs] at hr; cases hr
  | stuck => rw [hs] at hr; cases hr

/-- The same system for `C94_period` and `C94_renewed`: a frame within 31 seconds after 1050. -/
example : ∃ t x, (t, x) ∈ boxUp.sent ∧ x.index = 3 ∧ x.proto = .lldp ∧ 1050 < t ∧ t ≤ 1050 + 30 + 1 := by
  obtain ⟨hp, hr, -⟩ := boxUp_facts
  cases hs : boxUp.final with
  | ok s =>
    rw [hs] at hr
    exact (C94_renewed _ bsdEnv bsdEnv_ok boxSt_runs.name _ (by unfold OptsOk; decide) [] (confOne .lldp) _ boxFound startBox (by decide) (by decide) 1 1000
      boxKernel bsdNoMedia boxHist s boxUp_runs.2.2 3 .lldp boxUp_due hp hs).2 1150 (of_decide_eq_true hr) 1050 (by decide) (by decide)
  | fail => rw [hs] at hr; cases hr
  | oob => rw [hs] at hr; cases hr
  | abort => rw [hs] at hr; cases hr
  | stuck => rw [hs] at hr; cases hr

example : bsdRoundTimes boxHist = [1030, 1061, 1091, 1122] := by decide

/-- Without clients, for `C94_stale_alone`: heard at 5 for 180 seconds, still there at 185, gone at 186, with an event loop up to 155 seconds late. -/
example : let h := fun t => [(5, BsdEvent.recv (some 5) (rawOf ⟨3, .ndp, ndpFrame 77⟩)), (t, .timer boxKernel bsdNoMedia t)]
    BsdPunctual cRecv 155 1 ((1, .timer boxKernel bsdNoMedia 1) :: h 186) ⟨dSys, none⟩ ∧
    [185, 186].map (fun t => match bsdTimedRun cRecv ((1, .timer boxKernel bsdNoMedia 1) :: h t) ⟨dSys, none⟩ with
      | .ok s => s.daemon.child.queue.length | _ => 9) = [1, 0] := by decide +kernel

end Ladvd.Props
