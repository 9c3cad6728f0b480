import Verif.Lemmas.Run
import Verif.Lemmas.Sane
/-!
# Invariants of the interface list over histories with a sane kernel
-/

namespace Ladvd

open Spec

/-! ## Table operations change only `protos` and `update` of the interfaces -/

/-- A record without these fields. -/
def bare (n : Netif) : Netif := { n with protos := 0, update := 0 }

theorem setNetif_bare (l : List Netif) (i : Nat) (f : Netif → Netif) (hf : ∀ n, bare (f n) = bare n) :
    (setNetif l i f).map bare = l.map bare := setNetif_map bare f l i hf

theorem updateNetifs_bare (o : Opts) (is : List Nat) : ∀ (st st' : Child), updateNetifs o is st = .ok st' →
    st'.netifs.map bare = st.netifs.map bare := by
  induction is with
  | nil => intro st st' h; cases h; rfl
  | cons i is ih =>
    intro st st' h
    rw [updateNetifs] at h
    cases e : netifByIndex st.netifs i with
    | none => rw [e] at h; exact ih st st' h
    | some subif =>
      rw [e] at h
      dsimp only at h
      by_cases hu : subif.update = 0
      · rw [if_pos hu] at h; exact ih st st' h
      · rw [if_neg hu] at h
        simp only [Res.bind_eq, Res.pure_eq] at h
        have key : ∀ st1 : Child, st1.netifs.map bare = st.netifs.map bare →
            (updateNetifs o is { (if o.has OPT_IFDESCR = true then
                { st1 with out := st1.out ++ (netifDescr o subif st1.queue).toList } else st1) with
              netifs := setNetif (if o.has OPT_IFDESCR = true then
                { st1 with out := st1.out ++ (netifDescr o subif st1.queue).toList } else st1).netifs i
                (fun n => { n with update := 0 }) }) = .ok st' →
            st'.netifs.map bare = st.netifs.map bare := by
          intro st1 hs1 h
          have hnet : (if o.has OPT_IFDESCR = true then
                { st1 with out := st1.out ++ (netifDescr o subif st1.queue).toList } else st1).netifs = st1.netifs := by
            split <;> rfl
          have a := ih _ _ h
          dsimp only at a
          rw [hnet] at a
          exact a.trans ((setNetif_bare _ _ _ (by intro n; rfl)).trans hs1)
        by_cases ha : o.has OPT_AUTO = true
        · rw [if_pos ha] at h
          cases hp : netifProtos st.netifs (parentOf st.netifs subif) st.queue with
          | ok v =>
            rw [hp] at h
            simp only [Res.bind_ok] at h
            refine key { st with netifs := setNetif st.netifs (parentOf st.netifs subif).index (fun n => { n with protos := v }) } ?_ h
            exact setNetif_bare _ _ _ (by intro n; rfl)
          | fail => rw [hp] at h; cases h
          | oob => rw [hp] at h; cases h
          | abort => rw [hp] at h; cases h
          | stuck => rw [hp] at h; cases h
        · rw [if_neg ha] at h
          simp only [Res.bind_ok] at h
          exact key st rfl h

theorem childExpire_bare {o : Opts} {now : Int} {st st' : Child} (h : childExpire o now st = .ok st') :
    st'.netifs.map bare = st.netifs.map bare := by
  unfold childExpire at h
  dsimp only at h
  have a := updateNetifs_bare o _ _ _ h
  dsimp only at a
  refine a.trans ?_
  rw [List.map_map]
  apply List.map_congr_left
  intro n _
  simp only [Function.comp_apply]
  split <;> rfl

theorem queueStore_bare {o : Opts} {t : Int} {subif : Netif} {e : Entry} {st st' : Child}
    (h : queueStore o t subif e st = .ok st') : st'.netifs.map bare = st.netifs.map bare := by
  unfold queueStore at h
  dsimp only at h
  split at h
  · have := childExpire_bare h
    exact this
  · have hnet : (if o.has OPT_IFDESCR = true then
        ({ netifs := st.netifs, queue := queuePut st.queue e, sessions := st.sessions, nextId := st.nextId + 1,
           out := st.out ++ (netifDescr o subif (queuePut st.queue e)).toList, sent := st.sent } : Child)
        else { netifs := st.netifs, queue := queuePut st.queue e, sessions := st.sessions, nextId := st.nextId + 1,
               out := st.out, sent := st.sent }).netifs = st.netifs := by
      split <;> rfl
    split at h
    · injection h with h
      subst h
      rw [hnet]
    · split at h
      · injection h with h
        subst h
        rw [hnet]
      · injection h with h
        subst h
        dsimp only
        rw [hnet]
        exact setNetif_bare _ _ _ (by intro n; rfl)

theorem childQueue_bare {o : Opts} {now : Option Int} {r : RawMsg} {st st' : Child} (h : childQueue o now r st = .ok st') :
    st'.netifs.map bare = st.netifs.map bare := by
  unfold childQueue at h
  split at h
  · injection h with h; rw [h]
  · split at h
    · injection h with h; rw [h]
    · split at h
      · cases h
      · split at h
        · cases h
        · split at h
          · injection h with h; rw [h]
          · split at h
            · injection h with h; rw [h]
            · split at h
              · cases h
              · cases h
              · cases h
              · injection h with h; rw [h]
              · split at h
                · injection h with h; rw [h]
                · exact queueStore_bare h

theorem mem_bare {l l' : List Netif} (h : l'.map bare = l.map bare) {n : Netif} (hn : n ∈ l') : ∃ x ∈ l, bare x = bare n := by
  have : bare n ∈ l'.map bare := List.mem_map_of_mem hn
  rw [h] at this
  exact List.mem_map.mp this

theorem shape_of_bare {l l' : List Netif} (h : l'.map bare = l.map bare) : l'.map shape = l.map shape := by
  have : ∀ l : List Netif, l.map shape = (l.map bare).map static := by
    intro l; rw [List.map_map]; rfl
  rw [this, this, h]

theorem netifOk_bare {a b : Netif} (h : bare a = bare b) (ha : NetifOk a) : NetifOk b := by
  have : ∀ n, NetifOk n ↔ NetifOk (bare n) := fun n => Iff.rfl
  rw [this, ← h, ← this]
  exact ha

/-! ## Invariants -/

/-- Invariant of the interface list and the system information. -/
structure Good (d : Daemon) : Prop where
  nodup : (d.child.netifs.map (·.index)).Nodup
  ok : DaemonOk d
  ends : Ends d.child.netifs

theorem sane_fetch {k : Kernel} (h : Sane k) {addrs : List IfAddr} (ha : k.ifaddrs = some addrs) :
    ListOk k addrs ∧ LinksOk k addrs ∧ AggregatesOk k (usables k addrs) :=
  h addrs (by rw [ha]; exact List.mem_singleton.mpr rfl)

theorem sane_consistent (c : Conf) {k : Kernel} (h : Sane k) {addrs : List IfAddr} (ha : k.ifaddrs = some addrs) (d : Daemon)
    (hd : (d.child.netifs.map (·.index)).Nodup) :
    Mirror (usables k addrs) (daemonFetch c k d).1.child.netifs ∧ Consistent k (daemonFetch c k d).1.child.netifs := by
  obtain ⟨hok, -, hagg⟩ := sane_fetch h ha
  have hm := fetch_mirror c.opts c.names c.mgmt k ⟨d.child.netifs, d.sys, d.mnetif, d.closed⟩ addrs ha hok hd
  have hn := fetch_nodup c.opts c.names c.mgmt k ⟨d.child.netifs, d.sys, d.mnetif, d.closed⟩ addrs ha hok hd
  exact ⟨hm, fetch_consistent c.opts c.names c.mgmt k ⟨d.child.netifs, d.sys, d.mnetif, d.closed⟩ addrs ha hok hd
    (hm.kernelOk hn hagg)⟩

theorem daemonFetch_none (c : Conf) (k : Kernel) (d : Daemon) (h : k.ifaddrs = none) : daemonFetch c k d = (d, 0) := by
  unfold daemonFetch netifFetch
  rw [h]

theorem Consistent.ends {k : Kernel} {l : List Netif} (h : Consistent k l) : Ends l := fun n hn => ⟨_, h.ports n hn⟩

theorem good_fetch (c : Conf) {k : Kernel} (h : Sane k) {d : Daemon} (hd : Good d) : Good (daemonFetch c k d).1 := by
  cases ha : k.ifaddrs with
  | none => rw [daemonFetch_none c k d ha]; exact hd
  | some addrs =>
    obtain ⟨hok, hlk, -⟩ := sane_fetch h ha
    obtain ⟨-, hc⟩ := sane_consistent c h ha d hd.nodup
    have hl : ∀ n ∈ (netifFetch c.opts c.names c.mgmt k ⟨d.child.netifs, d.sys, d.mnetif, d.closed⟩).1.netifs, NetifOk n := by
      refine fetch_ok c.opts c.names c.mgmt k ⟨d.child.netifs, d.sys, d.mnetif, d.closed⟩ ?_ hd.ok.1
      intro addrs' ha'
      rw [ha] at ha'
      injection ha' with ha'
      subst ha'
      exact ⟨hlk, hok.addr⟩
    exact ⟨hc.nodup, ⟨hl, fetch_sysOk c.opts c.names c.mgmt k ⟨d.child.netifs, d.sys, d.mnetif, d.closed⟩ ha hl hd.ok.2⟩, hc.ends⟩

theorem good_sent {d d' : Daemon} {new : List Tx} (h : Sent d d' new) (hd : Good d) : Good d' := by
  refine ⟨?_, hd.ok.sent h, hd.ends.static h.same⟩
  have : d'.child.netifs.map (·.index) = d.child.netifs.map (·.index) := by
    have e : ∀ l : List Netif, l.map (·.index) = (l.map static).map (·.index) := by intro l; rw [List.map_map]; rfl
    rw [e, e d.child.netifs, h.same]
  rw [this]
  exact hd.nodup

theorem good_bare {d : Daemon} {ch : Child} (h : ch.netifs.map bare = d.child.netifs.map bare) (hd : Good d) : Good { d with child := ch } := by
  refine ⟨?_, ⟨?_, hd.ok.2⟩, hd.ends.shape (shape_of_bare h)⟩
  · show (ch.netifs.map (·.index)).Nodup
    rw [index_of_shape (shape_of_bare h)]
    exact hd.nodup
  · intro n hn
    obtain ⟨x, hx, e⟩ := mem_bare h hn
    exact netifOk_bare e (hd.ok.1 x hx)

theorem good_round {c : Conf} {k : Kernel} (h : Sane k) {m : Media} {link : Option Nat} {d d' : Daemon} (hd : Good d)
    (hr : sendRound c k m link d = .ok d') : Good d' := by
  obtain ⟨d1, new, h1, hs, -⟩ := sendRound_sent hr
  refine good_sent hs ?_
  rcases h1 with rfl | rfl
  · exact hd
  · exact good_fetch c h hd

theorem lift_ok {d d' : Daemon} {r : Res Child} (h : d.lift r = .ok d') : ∃ ch, r = .ok ch ∧ d' = { d with child := ch } := by
  unfold Daemon.lift at h
  cases r with
  | ok ch => injection h with h; exact ⟨ch, rfl, h.symm⟩
  | fail => cases h
  | oob => cases h
  | abort => cases h
  | stuck => cases h

/-- What the events other than rounds do to the interfaces. -/
theorem step_bare {c : Conf} {d d' : Daemon} {e : Event} (h : daemonStep c d e = .ok d') :
    (∃ k m now d1, e = .timer k m now ∧ sendRound c k m none d = .ok d1 ∧ d'.child.netifs.map bare = d1.child.netifs.map bare ∧
      d' = { d1 with child := d'.child }) ∨
    (∃ k m i, e = .link k m true true i ∧ sendRound c k m (some i) d = .ok d') ∨
    ((∀ k m now, e ≠ .timer k m now) ∧ (∀ k m i, e ≠ .link k m true true i) ∧
      d'.child.netifs.map bare = d.child.netifs.map bare ∧ d' = { d with child := d'.child }) := by
  cases e with
  | timer k m now =>
    rw [daemonStep] at h
    cases hround : sendRound c k m none d with
    | ok d1 =>
      rw [hround] at h
      simp only [Res.bind_ok] at h
      split at h
      · obtain ⟨ch, hc, rfl⟩ := lift_ok h
        exact Or.inl ⟨k, m, now, d1, rfl, hround, childExpire_bare hc, rfl⟩
      · injection h with h
        subst h
        exact Or.inl ⟨k, m, now, _, rfl, hround, rfl, rfl⟩
    | fail => rw [hround] at h; cases h
    | oob => rw [hround] at h; cases h
    | abort => rw [hround] at h; cases h
    | stuck => rw [hround] at h; cases h
  | link k m a b i =>
    rw [daemonStep] at h
    split at h
    · next hab =>
      rw [Bool.and_eq_true] at hab
      obtain ⟨rfl, rfl⟩ := hab
      exact Or.inr (Or.inl ⟨k, m, i, rfl, h⟩)
    · next hab =>
      injection h with h
      subst h
      refine Or.inr (Or.inr ⟨(fun _ _ _ h => nomatch h), ?_, rfl, rfl⟩)
      intro k' m' i' h
      injection h with h1 h2 h3 h4
      rw [h3, h4] at hab
      exact hab rfl
  | recv now r =>
    obtain ⟨ch, hc, rfl⟩ := lift_ok h
    exact Or.inr (Or.inr ⟨(fun _ _ _ h => nomatch h), (fun _ _ _ h => nomatch h), childQueue_bare hc, rfl⟩)
  | accept =>
    obtain ⟨ch, hc, rfl⟩ := lift_ok h
    injection hc with hc
    subst hc
    exact Or.inr (Or.inr ⟨(fun _ _ _ h => nomatch h), (fun _ _ _ h => nomatch h), rfl, rfl⟩)
  | write sid ws =>
    obtain ⟨ch, hc, rfl⟩ := lift_ok h
    exact Or.inr (Or.inr ⟨(fun _ _ _ h => nomatch h), (fun _ _ _ h => nomatch h),
      congrArg (List.map bare) (cliWrite_origin hc).1, rfl⟩)

theorem good_step {c : Conf} {d d' : Daemon} {e : Event} (hd : Good d) (he : SaneEvent e) (h : daemonStep c d e = .ok d') : Good d' := by
  rcases step_bare h with ⟨k, m, now, d1, rfl, hr, hb, e⟩ | ⟨k, m, i, rfl, hr⟩ | ⟨-, -, hb, e⟩
  · rw [e]; exact good_bare hb (good_round he hd hr)
  · exact good_round he hd hr
  · rw [e]; exact good_bare hb hd

theorem good_started {d : Daemon} (h : Started d) : Good d := by
  refine ⟨?_, ⟨?_, h.2.2.2⟩, ?_⟩
  · rw [h.1]; exact List.nodup_nil
  · intro n hn; rw [h.1] at hn; cases hn
  · intro n hn; rw [h.1] at hn; cases hn

theorem good_run {c : Conf} {d0 d : Daemon} (h0 : Started d0) {es : List Event} (he : ∀ e ∈ es, SaneEvent e)
    (h : daemonRun c es d0 = .ok d) : Good d := by
  have := run_induction (c := c) (d0 := d0) (P := fun es d => (∀ e ∈ es, SaneEvent e) → Good d) (fun _ => good_started h0)
    (fun es e d d' _ ih hs hall => good_step (ih (fun x hx => hall x (List.mem_append_left _ hx)))
      (hall e (List.mem_append_right _ (List.mem_singleton.mpr rfl))) hs) es d h
  exact this he

end Ladvd
